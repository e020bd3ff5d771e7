import Verif.Proofs.LoaderErr

/-! # The loader with error texts: what is left at a fault is a suffix, and no reader looks beyond the end of the line -/

namespace Verif

/-- What is unread after a reader, or when it stopped. -/
def restOf {α : Type} : Except Fault (α × Reader) → Option Reader
  | .ok x => some x.2
  | .error (.stop s _) => some s
  | .error (.panic _) => none

/-- The same with `t` behind what is unread. -/
def Fault.behind (t : Reader) : Fault → Fault
  | .stop s m => .stop (s ++ t) m
  | .panic m => .panic m

def behind {α : Type} (t : Reader) : Except Fault (α × Reader) → Except Fault (α × Reader)
  | .ok x => .ok (x.1, x.2 ++ t)
  | .error f => .error (f.behind t)

/-! ## Suffixes -/

def SufP {α : Type} (f : P α) : Prop := ∀ s r, restOf (f.run s) = some r → r <:+ s

theorem suf_ok {α : Type} {f : P α} (g : Reader → α × Reader) (h : ∀ s, f.run s = .ok (g s)) (hg : ∀ s, (g s).2 <:+ s) : SufP f := by
  intro s r hr
  rw [h] at hr
  cases hr
  exact hg s

theorem suf_pure {α : Type} (a : α) : SufP (pure a : P α) := suf_ok (fun s => (a, s)) (fun _ => rfl) fun _ => List.suffix_refl _

theorem suf_stop {α : Type} (m : Str) : SufP (P.stop m : P α) := by
  intro s r h; rw [stop_run] at h; cases h; exact List.suffix_refl _

theorem suf_panic {α : Type} (m : Str) : SufP (P.panic m : P α) := by
  intro s r h; rw [panic_run] at h; cases h

theorem suf_bind {α β : Type} {x : P α} {f : α → P β} (hx : SufP x) (hf : ∀ a, SufP (f a)) : SufP (x >>= f) := by
  intro s r h
  rw [run_bind] at h
  cases hr : x.run s with
  | error y =>
    rw [hr, error_bind] at h
    refine hx s r ?_
    rw [hr]
    cases y <;> exact h
  | ok y =>
    rw [hr, ok_bind] at h
    exact (hf _ _ _ h).trans (hx s y.2 (by rw [hr]; rfl))

theorem suf_ite {α : Type} {c : Prop} [Decidable c] {x y : P α} (hx : SufP x) (hy : SufP y) : SufP (if c then x else y) := by
  split
  · exact hx
  · exact hy

theorem suf_ch : SufP P.ch := suf_ok (fun s => (s.ch, s)) ch_run fun _ => List.suffix_refl _
theorem suf_ws : SufP P.ws := suf_ok _ ws_run consumeWS_suf
theorem suf_span (p : Nat → Bool) : SufP (P.span p) := suf_ok _ (span_run p) fun _ => List.dropWhile_suffix _
theorem suf_skip (q : Nat → Bool) : SufP (P.skip q) := suf_ok _ (skip_run q) fun s => by
  simp only
  split
  · exact next_suf s
  · exact List.suffix_refl _
theorem suf_digits : SufP P.digits := suf_ok _ digits_run fun s => amtLoop_suf _ _ _ s

theorem suf_consume (e : Nat) : SufP (P.consume e) :=
  suf_bind (suf_skip _) fun _ => suf_ite (suf_bind suf_ch fun _ => suf_stop _) (suf_pure _)

theorem suf_number (a b : Nat) : SufP (P.number a b) := suf_bind (suf_span _) fun _ => suf_ite (suf_stop _) (suf_pure _)

theorem suf_triple (w sep : Nat) : SufP (P.triple w sep) :=
  suf_bind (suf_number _ _) fun _ => suf_bind (suf_consume _) fun _ => suf_bind (suf_number _ _) fun _ => suf_bind (suf_consume _) fun _ =>
    suf_bind (suf_number _ _) fun _ => suf_pure _

theorem suf_quoted : SufP P.quoted :=
  suf_bind (suf_consume _) fun _ => suf_bind (suf_span _) fun _ => suf_bind (suf_consume _) fun _ => suf_pure _

theorem suf_amt : SufP P.amt :=
  suf_bind suf_ws fun _ => suf_bind (suf_skip _) fun neg => suf_bind suf_digits fun r => by
    cases newRat (if neg = true then wrap64 (r.1 * -1) else r.1) r.2 with
    | none => exact suf_panic _
    | some v => exact suf_pure _

theorem suf_payee : SufP P.payee :=
  suf_bind suf_ws fun _ => suf_bind suf_ch fun _ => suf_ite (suf_bind suf_quoted fun _ => suf_pure _) (suf_bind (suf_span _) fun _ => suf_pure _)

theorem suf_note : SufP P.note :=
  suf_bind suf_ws fun _ => suf_bind (suf_skip _) fun _ => suf_ite (suf_bind suf_ws fun _ => suf_span _) (suf_pure _)

theorem suf_transaction : SufP P.transaction :=
  suf_bind (suf_triple _ _) fun _ => suf_bind suf_ws fun _ => suf_bind (suf_skip _) fun _ =>
    suf_ite (suf_bind suf_ws fun _ => suf_bind suf_payee fun _ => suf_bind suf_note fun _ => suf_pure _)
      (suf_bind suf_payee fun _ => suf_bind suf_note fun _ => suf_pure _)

theorem suf_toEOL : SufP P.toEOL := suf_bind suf_ws fun _ => suf_span _

theorem suf_account : SufP P.account :=
  suf_bind suf_ws fun _ => suf_bind (suf_skip _) fun _ => suf_bind (suf_span _) fun _ => suf_bind (suf_skip _) fun _ => suf_pure _

theorem suf_ccy : SufP P.ccy := suf_bind suf_ws fun _ => suf_bind suf_ch fun _ => suf_ite suf_quoted (suf_span _)

theorem suf_ccyAmt : SufP P.ccyAmt :=
  suf_bind suf_ch fun _ => suf_ite (suf_bind suf_ccy fun _ => suf_bind suf_amt fun _ => suf_pure _)
    (suf_bind suf_amt fun _ => suf_bind suf_ccy fun _ => suf_pure _)

theorem suf_price : SufP P.price :=
  suf_bind (suf_consume _) fun _ => suf_bind suf_ws fun _ => suf_bind (suf_triple _ _) fun _ => suf_bind suf_ws fun _ =>
    suf_bind (suf_triple _ _) fun _ => suf_bind suf_ccy fun _ => suf_bind suf_ws fun _ => suf_bind suf_ccyAmt fun _ => suf_pure _

theorem suf_posting : SufP P.posting :=
  suf_bind suf_ws fun _ => suf_bind suf_account fun _ => suf_bind suf_ws fun _ => suf_bind (suf_skip _) fun _ => suf_bind suf_ccyAmt fun _ =>
    suf_bind suf_ws fun _ => suf_bind (suf_skip _) fun _ =>
      suf_ite (suf_bind suf_ws fun _ => suf_bind suf_ccyAmt fun _ => suf_bind suf_note fun _ => suf_pure _)
        (suf_bind suf_note fun _ => suf_pure _)

theorem suf_identifier (e : Env) : SufP (P.identifier e) :=
  suf_bind suf_ws fun _ => suf_bind (suf_span _) fun _ => suf_bind suf_ws fun _ => suf_pure _

theorem suf_alias : SufP P.alias' :=
  suf_bind suf_account fun _ => suf_bind suf_ws fun _ => suf_bind (suf_skip _) fun _ =>
    suf_ite (suf_bind suf_ws fun _ => suf_bind suf_account fun _ => suf_bind suf_ws fun _ =>
      suf_ite (suf_stop _) (suf_bind suf_toEOL fun _ => suf_pure _)) (suf_bind suf_ch fun _ => suf_stop _)

theorem suf_unquote (f : Str) : SufP (P.unquote f) := by
  unfold P.unquote
  cases f with
  | nil => exact suf_panic _
  | cons c r =>
    simp only
    split
    · cases r with
      | nil => exact suf_panic _
      | cons => exact suf_pure _
    · exact suf_pure _

theorem suf_command (e : Env) : SufP (P.command e) :=
  suf_bind (suf_identifier e) fun _ => suf_ite (suf_bind suf_toEOL fun _ => suf_bind (suf_unquote _) fun _ => suf_pure _)
    (suf_ite (suf_bind suf_alias fun _ => suf_pure _) (suf_stop _))

/-! ## Locality -/

def LocP {α : Type} (f : P α) : Prop :=
  ∀ s, 10 ∈ s → (∀ r, restOf (f.run s) = some r → 10 ∈ r) ∧ ∀ t, f.run (s ++ t) = behind t (f.run s)

theorem locp_ok {α : Type} {f : P α} (g : Reader → α × Reader) (h : ∀ s, f.run s = .ok (g s))
    (hg : ∀ s, 10 ∈ s → 10 ∈ (g s).2 ∧ ∀ t, g (s ++ t) = ((g s).1, (g s).2 ++ t)) : LocP f := by
  intro s hs
  refine ⟨?_, ?_⟩
  · intro r hr
    rw [h] at hr
    cases hr
    exact (hg s hs).1
  · intro t
    rw [h, h, (hg s hs).2 t]
    rfl

theorem locp_pure {α : Type} (a : α) : LocP (pure a : P α) := locp_ok (fun s => (a, s)) (fun _ => rfl) fun _ h => ⟨h, fun _ => rfl⟩

theorem locp_stop {α : Type} (m : Str) : LocP (P.stop m : P α) := by
  intro s hs
  exact ⟨fun r h => (by rw [stop_run] at h; cases h; exact hs), fun t => rfl⟩

theorem locp_panic {α : Type} (m : Str) : LocP (P.panic m : P α) := by
  intro s hs
  exact ⟨fun r h => (by rw [panic_run] at h; cases h), fun t => rfl⟩

theorem locp_bind {α β : Type} {x : P α} {f : α → P β} (hx : LocP x) (hf : ∀ a, LocP (f a)) : LocP (x >>= f) := by
  intro s hs
  obtain ⟨h1, h2⟩ := hx s hs
  cases hr : x.run s with
  | error y =>
    refine ⟨?_, ?_⟩
    · intro r h
      rw [run_bind, hr, error_bind] at h
      refine h1 r ?_
      rw [hr]
      cases y <;> exact h
    · intro t
      rw [run_bind, run_bind, h2, hr]
      rfl
  | ok y =>
    obtain ⟨h3, h4⟩ := hf y.1 y.2 (h1 y.2 (by rw [hr]; rfl))
    refine ⟨?_, ?_⟩
    · intro r h
      rw [run_bind, hr, ok_bind] at h
      exact h3 r h
    · intro t
      rw [run_bind, run_bind, h2, hr]
      exact h4 t

theorem locp_ite {α : Type} {c : Prop} [Decidable c] {x y : P α} (hx : LocP x) (hy : LocP y) : LocP (if c then x else y) := by
  split
  · exact hx
  · exact hy

theorem locp_ch : LocP P.ch := locp_ok (fun s => (s.ch, s)) ch_run fun _ h => ⟨h, fun t => by rw [ch_app h]⟩

theorem locp_span {p : Nat → Bool} (hp : p 10 = false) : LocP (P.span p) := locp_ok _ (span_run p) fun _ h =>
  ⟨mem_dropWhile hp h, fun t => by rw [takeWhile_app hp h, dropWhile_app hp h]⟩

theorem locp_ws : LocP P.ws := locp_ok _ ws_run fun _ h => ⟨mem_dropWhile rfl h, fun t => by unfold consumeWS; rw [dropWhile_app rfl h]⟩

theorem locp_skip {q : Nat → Bool} (hq : q 10 = false) : LocP (P.skip q) := locp_ok _ (skip_run q) fun s h => by
  refine ⟨?_, ?_⟩
  · simp only
    split
    · rename_i hc
      cases s with
      | nil => cases h
      | cons c s =>
        rcases List.mem_cons.1 h with h | h
        · rw [show Reader.ch (c :: s) = c from rfl, ← h, hq] at hc; cases hc
        · exact h
    · exact h
  · intro t
    rw [ch_app h, next_app h]
    simp only
    split <;> rfl

theorem locp_consume {e : Nat} (he : e ≠ 10) : LocP (P.consume e) :=
  locp_bind (locp_skip (by simpa using he.symm)) fun _ => locp_ite (locp_bind locp_ch fun _ => locp_stop _) (locp_pure _)

theorem locp_number (a b : Nat) : LocP (P.number a b) := locp_bind (locp_span rfl) fun _ => locp_ite (locp_stop _) (locp_pure _)

theorem locp_triple (w : Nat) {sep : Nat} (h : sep ≠ 10) : LocP (P.triple w sep) :=
  locp_bind (locp_number _ _) fun _ => locp_bind (locp_consume h) fun _ => locp_bind (locp_number _ _) fun _ => locp_bind (locp_consume h) fun _ =>
    locp_bind (locp_number _ _) fun _ => locp_pure _

theorem locp_quotedP : LocP P.quoted :=
  locp_bind (locp_consume (by decide)) fun _ => locp_bind (locp_span rfl) fun _ => locp_bind (locp_consume (by decide)) fun _ => locp_pure _

theorem amtLoop_behind : ∀ (s : Reader) (d : Bool) (n m : Int), 10 ∈ s → 10 ∈ (amtLoop d n m s).2.2 ∧
    ∀ t, amtLoop d n m (s ++ t) = ((amtLoop d n m s).1, (amtLoop d n m s).2.1, (amtLoop d n m s).2.2 ++ t) := by
  intro s
  induction s with
  | nil => intro d n m h; cases h
  | cons c s ih =>
    intro d n m h
    by_cases hc : c = 10
    · subst hc
      have : ∀ s, amtLoop d n m (10 :: s) = (n, m, 10 :: s) := by
        intro s
        unfold amtLoop
        simp [isDigit]
      rw [this]
      exact ⟨h, fun t => by rw [List.cons_append, this]⟩
    · have h' : 10 ∈ s := (List.mem_cons.1 h).resolve_left fun h => hc h.symm
      simp only [List.cons_append, amtLoop]
      split
      · exact ih _ _ _ h'
      · split
        · exact ih _ _ _ h'
        · split
          · exact ih _ _ _ h'
          · exact ⟨h, fun t => rfl⟩

theorem locp_digits : LocP P.digits := locp_ok _ digits_run fun s h =>
  ⟨(amtLoop_behind s _ _ _ h).1, fun t => by rw [(amtLoop_behind s _ _ _ h).2 t]⟩

theorem locp_amtP : LocP P.amt :=
  locp_bind locp_ws fun _ => locp_bind (locp_skip rfl) fun neg => locp_bind locp_digits fun r => by
    cases newRat (if neg = true then wrap64 (r.1 * -1) else r.1) r.2 with
    | none => exact locp_panic _
    | some v => exact locp_pure _

theorem locp_payeeP : LocP P.payee :=
  locp_bind locp_ws fun _ => locp_bind locp_ch fun _ => locp_ite (locp_bind locp_quotedP fun _ => locp_pure _) (locp_bind (locp_span rfl) fun _ => locp_pure _)

theorem locp_noteP : LocP P.note :=
  locp_bind locp_ws fun _ => locp_bind (locp_skip rfl) fun _ => locp_ite (locp_bind locp_ws fun _ => locp_span rfl) (locp_pure _)

theorem locp_transactionP : LocP P.transaction :=
  locp_bind (locp_triple _ (by decide)) fun _ => locp_bind locp_ws fun _ => locp_bind (locp_skip rfl) fun _ =>
    locp_ite (locp_bind locp_ws fun _ => locp_bind locp_payeeP fun _ => locp_bind locp_noteP fun _ => locp_pure _)
      (locp_bind locp_payeeP fun _ => locp_bind locp_noteP fun _ => locp_pure _)

theorem locp_toEOLP : LocP P.toEOL := locp_bind locp_ws fun _ => locp_span rfl

theorem locp_accountP : LocP P.account :=
  locp_bind locp_ws fun _ => locp_bind (locp_skip rfl) fun _ => locp_bind (locp_span rfl) fun _ => locp_bind (locp_skip rfl) fun _ => locp_pure _

theorem locp_ccyP : LocP P.ccy := locp_bind locp_ws fun _ => locp_bind locp_ch fun _ => locp_ite locp_quotedP (locp_span rfl)

theorem locp_ccyAmtP : LocP P.ccyAmt :=
  locp_bind locp_ch fun _ => locp_ite (locp_bind locp_ccyP fun _ => locp_bind locp_amtP fun _ => locp_pure _)
    (locp_bind locp_amtP fun _ => locp_bind locp_ccyP fun _ => locp_pure _)

theorem locp_priceP : LocP P.price :=
  locp_bind (locp_consume (by decide)) fun _ => locp_bind locp_ws fun _ => locp_bind (locp_triple _ (by decide)) fun _ => locp_bind locp_ws fun _ =>
    locp_bind (locp_triple _ (by decide)) fun _ => locp_bind locp_ccyP fun _ => locp_bind locp_ws fun _ => locp_bind locp_ccyAmtP fun _ => locp_pure _

theorem locp_postingP : LocP P.posting :=
  locp_bind locp_ws fun _ => locp_bind locp_accountP fun _ => locp_bind locp_ws fun _ => locp_bind (locp_skip rfl) fun _ => locp_bind locp_ccyAmtP fun _ =>
    locp_bind locp_ws fun _ => locp_bind (locp_skip rfl) fun _ =>
      locp_ite (locp_bind locp_ws fun _ => locp_bind locp_ccyAmtP fun _ => locp_bind locp_noteP fun _ => locp_pure _)
        (locp_bind locp_noteP fun _ => locp_pure _)

theorem locp_identifierP {e : Env} (he : e.letter 10 = false) : LocP (P.identifier e) :=
  locp_bind locp_ws fun _ => locp_bind (locp_span (by unfold Env.isIdent; rw [he]; rfl)) fun _ => locp_bind locp_ws fun _ => locp_pure _

theorem locp_aliasP : LocP P.alias' :=
  locp_bind locp_accountP fun _ => locp_bind locp_ws fun _ => locp_bind (locp_skip rfl) fun _ =>
    locp_ite (locp_bind locp_ws fun _ => locp_bind locp_accountP fun _ => locp_bind locp_ws fun _ =>
      locp_ite (locp_stop _) (locp_bind locp_toEOLP fun _ => locp_pure _)) (locp_bind locp_ch fun _ => locp_stop _)

theorem locp_unquote (f : Str) : LocP (P.unquote f) := by
  unfold P.unquote
  cases f with
  | nil => exact locp_panic _
  | cons c r =>
    simp only
    split
    · cases r with
      | nil => exact locp_panic _
      | cons => exact locp_pure _
    · exact locp_pure _

theorem locp_commandP {e : Env} (he : e.letter 10 = false) : LocP (P.command e) :=
  locp_bind (locp_identifierP he) fun _ => locp_ite (locp_bind locp_toEOLP fun _ => locp_bind (locp_unquote _) fun _ => locp_pure _)
    (locp_ite (locp_bind locp_aliasP fun _ => locp_pure _) (locp_stop _))

/-! ## One round -/

def RStep.behind (t : Reader) : RStep → RStep
  | .go b als s => .go b als (s ++ t)
  | .incl f s => .incl f (s ++ t)
  | .fault f => .fault (f.behind t)

/-- Where a round stopped. -/
def RStep.stopped : RStep → Option Reader
  | .fault (.stop s _) => some s
  | _ => none

theorem restOf_error {α : Type} {x : Except Fault (α × Reader)} {s : Reader} {m : Str} (h : x = .error (.stop s m)) : restOf x = some s := by
  rw [h]; rfl

/-- A round with a line end ahead: what comes after the line end changes nothing, and a fault is before it. -/
theorem readStep_behind {e : Env} (he : e.letter 10 = false) (b : Builder) (als : Aliases) {s : Reader} (h : 10 ∈ s) :
    (∀ r, (readStep e b als s).stopped = some r → 10 ∈ r) ∧ ∀ t, readStep e b als (s ++ t) = (readStep e b als s).behind t := by
  have w1 : ∀ t, consumeWS (s ++ t) = consumeWS s ++ t := fun t => dropWhile_app rfl h t
  have w2 : 10 ∈ consumeWS s := mem_dropWhile rfl h
  have hlen : ∀ t, ((consumeWS s ++ t).length = (s ++ t).length) ↔ (consumeWS s).length = s.length := by intro t; simp
  have e1 : ∀ {α : Type} {f : P α} {x r}, LocP f → f.run (consumeWS s) = .error x → (RStep.fault x).stopped = some r → 10 ∈ r := by
    intro α f x r hf hx hr
    cases x with
    | panic m => cases hr
    | stop s' m =>
      cases hr
      exact (hf _ w2).1 _ (restOf_error hx)
  have e2 : ∀ {α : Type} {f : P α} {x r}, LocP f → f.run (consumeWS s) = .ok (x, r) → ∀ t, skipEOL (r ++ t) = skipEOL r ++ t := by
    intro α f x r hf hx t
    have := (hf _ w2).1 r (by rw [hx]; rfl)
    unfold skipEOL
    rw [ch_app this, next_app this]
    split <;> rfl
  unfold readStep
  simp only [w1, ch_app w2, hlen]
  split
  · exact ⟨fun r hr => (by cases hr), fun t => by rw [skipLine_app w2]; rfl⟩
  · split
    · split
      · exact ⟨fun r hr => (by cases hr), fun t => by rw [skipLine_app w2]; rfl⟩
      · split
        · have hl := locp_priceP
          simp only [(hl _ w2).2]
          cases hr : P.price.run (consumeWS s) with
          | error x => exact ⟨fun r h => e1 hl hr h, fun t => rfl⟩
          | ok x => exact ⟨fun r hr => (by cases hr), fun t => by simp only [Verif.behind, e2 hl hr t]; rfl⟩
        · split
          · have hl := locp_transactionP
            simp only [(hl _ w2).2]
            cases hr : P.transaction.run (consumeWS s) with
            | error x => exact ⟨fun r h => e1 hl hr h, fun t => rfl⟩
            | ok x =>
              simp only [Verif.behind]
              cases b.newTransaction x.1.1 x.1.2.1 x.1.2.2 with
              | none => exact ⟨fun r hr => (by cases hr), fun t => rfl⟩
              | some b => exact ⟨fun r hr => (by cases hr), fun t => by simp only [e2 hl hr t]; rfl⟩
          · have hl := locp_commandP he
            simp only [(hl _ w2).2]
            cases hr : (P.command e).run (consumeWS s) with
            | error x => exact ⟨fun r h => e1 hl hr h, fun t => rfl⟩
            | ok x =>
              obtain ⟨cm, r⟩ := x
              cases cm with
              | incl f => exact ⟨fun r hr => (by cases hr), fun t => rfl⟩
              | short kv => exact ⟨fun r hr => (by cases hr), fun t => rfl⟩
    · have hl := locp_postingP
      simp only [(hl _ w2).2]
      cases hr : P.posting.run (consumeWS s) with
      | error x => exact ⟨fun r h => e1 hl hr h, fun t => rfl⟩
      | ok x => exact ⟨fun r hr => (by cases hr), fun t => by simp only [Verif.behind, e2 hl hr t]; rfl⟩

/-- What is unread when a round stops is a suffix of what was unread before it. -/
theorem readStep_stopped (e : Env) (b : Builder) (als : Aliases) (s r : Reader) (h : (readStep e b als s).stopped = some r) : r <:+ s := by
  have e1 : ∀ {α : Type} {f : P α} {x}, SufP f → f.run (consumeWS s) = .error x → (RStep.fault x).stopped = some r → r <:+ s := by
    intro α f x hf hx hr
    cases x with
    | panic m => cases hr
    | stop s' m =>
      cases hr
      exact (hf _ _ (restOf_error hx)).trans (consumeWS_suf s)
  unfold readStep at h
  simp only at h
  split at h
  · cases h
  · split at h
    · split at h
      · cases h
      · split at h
        · cases hr : P.price.run (consumeWS s) with
          | error x => rw [hr] at h; exact e1 suf_price hr h
          | ok x => rw [hr] at h; cases h
        · split at h
          · cases hr : P.transaction.run (consumeWS s) with
            | error x => rw [hr] at h; exact e1 suf_transaction hr h
            | ok x =>
              rw [hr] at h
              simp only at h
              split at h <;> cases h
          · cases hr : (P.command e).run (consumeWS s) with
            | error x => rw [hr] at h; exact e1 (suf_command e) hr h
            | ok x =>
              obtain ⟨cm, r'⟩ := x
              rw [hr] at h
              cases cm <;> cases h
    · cases hr : P.posting.run (consumeWS s) with
      | error x => rw [hr] at h; exact e1 suf_posting hr h
      | ok x => rw [hr] at h; cases h

theorem readStep_lt {e : Env} {b : Builder} {als : Aliases} {s : Reader} (h : s.ch ≠ 0) :
    (∀ b' als' s', readStep e b als s = .go b' als' s' → s'.length < s.length ∧ s' <:+ s) ∧
    (∀ f s', readStep e b als s = .incl f s' → s'.length < s.length ∧ s' <:+ s) := by
  have hp := readStep_plain e b als s
  have hs := parseStep_suf e b als s
  obtain ⟨h1, h2⟩ := parseStep_lt (e := e) (b := b) (als := als) h
  refine ⟨?_, ?_⟩
  · intro b' als' s' hx
    rw [hx] at hp
    exact ⟨h1 _ _ _ hp.symm, by rw [← hp] at hs; exact hs⟩
  · intro f s' hx
    rw [hx] at hp
    exact ⟨h2 _ _ hp.symm, by rw [← hp] at hs; exact hs⟩

/-! ## The loop -/

theorem readLoop_fuel (e : Env) (fn : Str) (inc : Builder → Aliases → Str → ReadEnd) (f g : Nat) :
    ∀ (b : Builder) (als : Aliases) (s : Reader), s.length < f → s.length < g →
      readLoop e fn inc f b als s = readLoop e fn inc g b als s := by
  induction f generalizing g with
  | zero => intro b als s h; omega
  | succ f ih =>
    intro b als s hf hg
    cases g with
    | zero => omega
    | succ g =>
      simp only [readLoop]
      split
      · rfl
      · rename_i hc
        obtain ⟨h1, h2⟩ := readStep_lt (e := e) (b := b) (als := als) hc
        cases hst : readStep e b als s with
        | fault x => rfl
        | go b' als' s' =>
          have := (h1 _ _ _ hst).1
          exact ih g _ _ _ (by omega) (by omega)
        | incl file s' =>
          have := (h2 _ _ hst).1
          simp only
          cases inc b als (e.join fn file) with
          | ok b2 a2 => exact ih g _ _ _ (by omega) (by omega)
          | _ => rfl

/-- Go on after the first part; a fault in the first part is before `t`. -/
def LoopEnd.andThen (o : LoopEnd) (t : Reader) (k : Builder → Aliases → LoopEnd) : LoopEnd :=
  match o with
  | .ok b als => k b als
  | .fault f => .fault (f.behind t)
  | o => o

/-- Reading complete lines `s` and then `t` in one go is reading `s`, then `t`. -/
theorem readLoop_append (e : Env) (he : e.letter 10 = false) (fn : Str) (inc : Builder → Aliases → Str → ReadEnd)
    (t : Reader) : ∀ (n : Nat) (s : Reader), s.length = n → 0 ∉ s → Lines s → ∀ (b : Builder) (als : Aliases),
    readLoop e fn inc ((s ++ t).length + 1) b als (s ++ t) =
      (readLoop e fn inc (s.length + 1) b als s).andThen t fun b als => readLoop e fn inc (t.length + 1) b als t := by
  intro n
  induction n using Nat.strong_induction_on with
  | _ n ih =>
    intro s hn h0 hl b als
    by_cases hs : s = []
    · subst hs; simp [readLoop, Reader.ch, LoopEnd.andThen]
    · have h10 := hl.mem hs
      have hch : Reader.ch s ≠ 0 := by
        cases s with
        | nil => exact absurd rfl hs
        | cons c s => intro h; apply h0; simp only [Reader.ch, List.headD_cons] at h; rw [h]; simp
      have hch' : Reader.ch (s ++ t) ≠ 0 := by rw [ch_app h10]; exact hch
      obtain ⟨l1, l2⟩ := readStep_lt (e := e) (b := b) (als := als) hch
      have happ := (readStep_behind he b als h10).2 t
      conv_lhs => unfold readLoop
      conv_rhs => unfold readLoop
      rw [if_neg hch, if_neg hch', happ]
      cases hst : readStep e b als s with
      | fault x => rfl
      | go b' als' s' =>
        obtain ⟨hlt, hsuf⟩ := l1 _ _ _ hst
        simp only [RStep.behind]
        have h0' : 0 ∉ s' := fun h => h0 (hsuf.subset h)
        have := ih s'.length (by omega) s' rfl h0' (hl.suf hsuf) b' als'
        rw [readLoop_fuel e fn inc (s ++ t).length ((s' ++ t).length + 1) _ _ _ (by simp; omega) (by omega),
          readLoop_fuel e fn inc s.length (s'.length + 1) _ _ _ hlt (by omega)]
        exact this
      | incl f s' =>
        obtain ⟨hlt, hsuf⟩ := l2 _ _ hst
        simp only [RStep.behind]
        have h0' : 0 ∉ s' := fun h => h0 (hsuf.subset h)
        cases inc b als (e.join fn f) with
        | ok b' als' =>
          simp only
          have := ih s'.length (by omega) s' rfl h0' (hl.suf hsuf) b' als
          rw [readLoop_fuel e fn inc (s ++ t).length ((s' ++ t).length + 1) _ _ _ (by simp; omega) (by omega),
            readLoop_fuel e fn inc s.length (s'.length + 1) _ _ _ hlt (by omega)]
          exact this
        | _ => rfl

/-- A stop within complete lines is before the end of the last; every stop is in the text. -/
theorem readLoop_stop {e : Env} {fn : Str} {inc : Builder → Aliases → Str → ReadEnd} : ∀ (fuel : Nat) (b : Builder) (als : Aliases)
    (s r : Reader) (m : Str), readLoop e fn inc fuel b als s = .fault (.stop r m) → r <:+ s ∧ (e.letter 10 = false → 0 ∉ s → Lines s → 10 ∈ r) := by
  intro fuel
  induction fuel with
  | zero => intro b als s r m h; cases h
  | succ fuel ih =>
    intro b als s r m h
    unfold readLoop at h
    split at h
    · cases h
    · rename_i hc
      obtain ⟨l1, l2⟩ := readStep_lt (e := e) (b := b) (als := als) hc
      cases hst : readStep e b als s with
      | fault x =>
        rw [hst] at h
        cases h
        have hx : (readStep e b als s).stopped = some r := by rw [hst]; rfl
        refine ⟨readStep_stopped e b als s r hx, fun he h0 hl => (readStep_behind he b als (hl.mem ?_)).1 r hx⟩
        rintro rfl
        exact hc rfl
      | go b' als' s' =>
        rw [hst] at h
        obtain ⟨hlt, hsuf⟩ := l1 _ _ _ hst
        obtain ⟨h1, h2⟩ := ih _ _ _ _ _ h
        exact ⟨h1.trans hsuf, fun he h0 hl => h2 he (fun h => h0 (hsuf.subset h)) (hl.suf hsuf)⟩
      | incl f s' =>
        rw [hst] at h
        obtain ⟨hlt, hsuf⟩ := l2 _ _ hst
        simp only at h
        cases hi : inc b als (e.join fn f) with
        | ok b' als' =>
          rw [hi] at h
          obtain ⟨h1, h2⟩ := ih _ _ _ _ _ h
          exact ⟨h1.trans hsuf, fun he h0 hl => h2 he (fun h => h0 (hsuf.subset h)) (hl.suf hsuf)⟩
        | err m => rw [hi] at h; cases h
        | fatal => rw [hi] at h; cases h
        | running => rw [hi] at h; cases h

end Verif
