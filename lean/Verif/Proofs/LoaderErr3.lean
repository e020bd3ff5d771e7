import Verif.Proofs.LoaderErr2

/-! # The loader with error texts: no reader looks beyond the rune it is at -/

namespace Verif

/-- What a reader does is the same whatever comes behind the rune at which it is then. -/
def LookP {α : Type} (f : P α) : Prop :=
  SufP f ∧ ∀ (a : Reader) (c : Nat) (r r' q : Reader),
    (∀ v, f.run (a ++ c :: r) = .ok (v, q ++ c :: r) → f.run (a ++ c :: r') = .ok (v, q ++ c :: r')) ∧
    ∀ m, f.run (a ++ c :: r) = .error (.stop (q ++ c :: r) m) → f.run (a ++ c :: r') = .error (.stop (q ++ c :: r') m)

theorem look_ok {α : Type} {f : P α} (g : Reader → α × Reader) (h : ∀ s, f.run s = .ok (g s)) (hs : SufP f)
    (hg : ∀ (a : Reader) (c : Nat) (r r' q : Reader), (g (a ++ c :: r)).2 = q ++ c :: r →
      g (a ++ c :: r') = ((g (a ++ c :: r)).1, q ++ c :: r')) : LookP f := by
  refine ⟨hs, fun a c r r' q => ⟨?_, ?_⟩⟩
  · intro v hv
    rw [h, Except.ok.injEq] at hv
    rw [h, hg a c r r' q (by rw [hv]), hv]
  · intro m hv
    rw [h] at hv
    cases hv

theorem look_pure {α : Type} (a : α) : LookP (pure a : P α) := by
  refine ⟨suf_pure a, fun b c r r' q => ⟨?_, ?_⟩⟩
  · intro v h
    rw [run_pure] at h ⊢
    have h2 : b ++ c :: r = q ++ c :: r := (Prod.mk.inj (Except.ok.inj h)).2
    rw [← (Prod.mk.inj (Except.ok.inj h)).1, List.append_cancel_right h2]
  · intro m h
    rw [run_pure] at h
    cases h

theorem look_stop {α : Type} (m : Str) : LookP (P.stop m : P α) := by
  refine ⟨suf_stop m, fun a c r r' q => ⟨?_, ?_⟩⟩
  · intro v h
    rw [stop_run] at h
    cases h
  · intro m' h
    rw [stop_run] at h ⊢
    have h2 := Fault.stop.inj (Except.error.inj h)
    rw [h2.2, List.append_cancel_right h2.1]

theorem look_panic {α : Type} (m : Str) : LookP (P.panic m : P α) :=
  ⟨suf_panic m, fun a c r r' q => ⟨fun v h => (by rw [panic_run] at h; cases h), fun m' h => (by rw [panic_run] at h; cases h)⟩⟩

theorem look_bind {α β : Type} {x : P α} {f : α → P β} (hx : LookP x) (hf : ∀ a, LookP (f a)) : LookP (x >>= f) := by
  refine ⟨suf_bind hx.1 fun a => (hf a).1, fun a c r r' q => ?_⟩
  simp only [run_bind]
  cases hr : x.run (a ++ c :: r) with
  | error y =>
    refine ⟨?_, ?_⟩
    · intro v h
      cases h
    · intro m h
      rw [error_bind, Except.error.injEq] at h
      subst h
      rw [(hx.2 a c r r' q).2 m hr]
      rfl
  | ok y =>
    have key : ∀ z, z <:+ y.2 → z = q ++ c :: r → ∃ p, y.2 = p ++ c :: r ∧ x.run (a ++ c :: r') = .ok (y.1, p ++ c :: r') := by
      intro z hz hq
      obtain ⟨w, hw⟩ := hz
      have : y.2 = (w ++ q) ++ c :: r := by rw [← hw, hq]; simp
      exact ⟨w ++ q, this, (hx.2 a c r r' (w ++ q)).1 y.1 (by rw [hr, ← this])⟩
    refine ⟨?_, ?_⟩
    · intro v h
      rw [ok_bind] at h
      obtain ⟨p, h1, h2⟩ := key (q ++ c :: r) ((hf y.1).1 y.2 _ (by rw [h]; rfl)) rfl
      rw [h2, ok_bind]
      rw [h1] at h
      exact ((hf y.1).2 p c r r' q).1 v h
    · intro m h
      rw [ok_bind] at h
      obtain ⟨p, h1, h2⟩ := key (q ++ c :: r) ((hf y.1).1 y.2 _ (by rw [h]; rfl)) rfl
      rw [h2, ok_bind]
      rw [h1] at h
      exact ((hf y.1).2 p c r r' q).2 m h

theorem look_ite {α : Type} {c : Prop} [Decidable c] {x y : P α} (hx : LookP x) (hy : LookP y) : LookP (if c then x else y) := by
  split
  · exact hx
  · exact hy

theorem ch_of (a : Reader) (c : Nat) (r r' : Reader) : Reader.ch (a ++ c :: r) = Reader.ch (a ++ c :: r') := by cases a <;> rfl

theorem look_ch : LookP P.ch := look_ok (fun s => (s.ch, s)) ch_run suf_ch fun a c r r' q h => by
  rw [ch_of a c r' r]
  simp only at h ⊢
  rw [List.append_cancel_right h]

theorem dropWhile_look (p : Nat → Bool) (c : Nat) (r r' : Reader) : ∀ (a q : Reader), (a ++ c :: r).dropWhile p = q ++ c :: r →
    (a ++ c :: r').dropWhile p = q ++ c :: r' ∧ (a ++ c :: r').takeWhile p = (a ++ c :: r).takeWhile p := by
  intro a
  induction a with
  | nil =>
    intro q h
    simp only [List.nil_append, List.dropWhile_cons, List.takeWhile_cons] at h ⊢
    split at h
    · exfalso
      have := dropWhile_le p r
      rw [h] at this
      simp at this
      omega
    · rename_i hp
      have hq : q = [] := by
        have := congrArg List.length h
        simp at this
        exact this
      simp only [hp, if_false, Bool.false_eq_true]
      subst hq
      exact ⟨rfl, trivial⟩
  | cons d a ih =>
    intro q h
    simp only [List.cons_append, List.dropWhile_cons, List.takeWhile_cons] at h ⊢
    split at h
    · rename_i hp
      obtain ⟨h1, h2⟩ := ih q h
      simp only [hp, if_true]
      exact ⟨h1, by rw [h2]⟩
    · rename_i hp
      have hq : q = d :: a := by
        rw [← List.cons_append] at h
        exact (List.append_cancel_right h).symm
      simp only [hp, if_false, Bool.false_eq_true]
      subst hq
      exact ⟨rfl, trivial⟩

theorem look_ws : LookP P.ws := look_ok _ ws_run suf_ws fun a c r r' q h => by
  simp only [consumeWS] at h ⊢
  rw [(dropWhile_look isBlank c r r' a q h).1]

theorem look_span (p : Nat → Bool) : LookP (P.span p) := look_ok _ (span_run p) (suf_span p) fun a c r r' q h => by
  simp only at h ⊢
  rw [(dropWhile_look p c r r' a q h).1, (dropWhile_look p c r r' a q h).2]

theorem next_look {a : Reader} {c : Nat} {r r' q : Reader} (h : Reader.next (a ++ c :: r) = q ++ c :: r) :
    Reader.next (a ++ c :: r') = q ++ c :: r' := by
  cases a with
  | nil =>
    exfalso
    have := congrArg List.length h
    simp [Reader.next] at this
    omega
  | cons d a =>
    have : a = q := List.append_cancel_right h
    rw [← this]
    rfl

theorem look_skip (p : Nat → Bool) : LookP (P.skip p) := look_ok _ (skip_run p) (suf_skip p) fun a c r r' q h => by
  simp only at h ⊢
  rw [ch_of a c r' r]
  split at h
  · rename_i hp
    rw [if_pos hp, next_look h]
  · rename_i hp
    rw [if_neg hp, List.append_cancel_right h]

theorem amtLoop_look (c : Nat) (r r' : Reader) : ∀ (a q : Reader) (d : Bool) (n m : Int), (amtLoop d n m (a ++ c :: r)).2.2 = q ++ c :: r →
    amtLoop d n m (a ++ c :: r') = ((amtLoop d n m (a ++ c :: r)).1, (amtLoop d n m (a ++ c :: r)).2.1, q ++ c :: r') := by
  intro a
  induction a with
  | nil =>
    intro q d n m h
    have no : ∀ d n m, (amtLoop d n m r).2.2 = q ++ c :: r → False := by
      intro d n m h
      have := amtLoop_le d n m r
      rw [h] at this
      simp at this
      omega
    simp only [List.nil_append, amtLoop] at h ⊢
    split at h
    · exact (no _ _ _ h).elim
    · split at h
      · exact (no _ _ _ h).elim
      · split at h
        · exact (no _ _ _ h).elim
        · rename_i h1 h2 h3
          have hq : q = [] := by
            have := congrArg List.length h
            simp at this
            exact this
          rw [if_neg h1, if_neg h2, if_neg h3, if_neg h1, if_neg h2, if_neg h3, hq]
          rfl
  | cons x a ih =>
    intro q d n m h
    simp only [List.cons_append, amtLoop] at h ⊢
    split at h
    · rename_i h1
      rw [if_pos h1, if_pos h1]
      exact ih _ _ _ _ h
    · rename_i h1
      rw [if_neg h1, if_neg h1]
      split at h
      · rename_i h2
        rw [if_pos h2, if_pos h2]
        exact ih _ _ _ _ h
      · rename_i h2
        rw [if_neg h2, if_neg h2]
        split at h
        · rename_i h3
          rw [if_pos h3, if_pos h3]
          exact ih _ _ _ _ h
        · rename_i h3
          rw [if_neg h3, if_neg h3]
          simp only at h ⊢
          rw [← List.cons_append] at h
          rw [← List.append_cancel_right h]
          rfl

theorem look_digits : LookP P.digits := look_ok _ digits_run suf_digits fun a c r r' q h => by
  simp only at h ⊢
  rw [amtLoop_look c r r' a q _ _ _ h]

theorem look_consume (e : Nat) : LookP (P.consume e) :=
  look_bind (look_skip _) fun _ => look_ite (look_bind look_ch fun _ => look_stop _) (look_pure _)

theorem look_number (a b : Nat) : LookP (P.number a b) := look_bind (look_span _) fun _ => look_ite (look_stop _) (look_pure _)

theorem look_triple (w sep : Nat) : LookP (P.triple w sep) :=
  look_bind (look_number _ _) fun _ => look_bind (look_consume _) fun _ => look_bind (look_number _ _) fun _ => look_bind (look_consume _) fun _ =>
    look_bind (look_number _ _) fun _ => look_pure _

theorem look_quoted : LookP P.quoted :=
  look_bind (look_consume _) fun _ => look_bind (look_span _) fun _ => look_bind (look_consume _) fun _ => look_pure _

theorem look_amt : LookP P.amt :=
  look_bind look_ws fun _ => look_bind (look_skip _) fun neg => look_bind look_digits fun r => by
    cases newRat (if neg = true then wrap64 (r.1 * -1) else r.1) r.2 with
    | none => exact look_panic _
    | some v => exact look_pure _

theorem look_payee : LookP P.payee :=
  look_bind look_ws fun _ => look_bind look_ch fun _ => look_ite (look_bind look_quoted fun _ => look_pure _) (look_bind (look_span _) fun _ => look_pure _)

theorem look_note : LookP P.note :=
  look_bind look_ws fun _ => look_bind (look_skip _) fun _ => look_ite (look_bind look_ws fun _ => look_span _) (look_pure _)

theorem look_transaction : LookP P.transaction :=
  look_bind (look_triple _ _) fun _ => look_bind look_ws fun _ => look_bind (look_skip _) fun _ =>
    look_ite (look_bind look_ws fun _ => look_bind look_payee fun _ => look_bind look_note fun _ => look_pure _)
      (look_bind look_payee fun _ => look_bind look_note fun _ => look_pure _)

theorem look_toEOL : LookP P.toEOL := look_bind look_ws fun _ => look_span _

theorem look_account : LookP P.account :=
  look_bind look_ws fun _ => look_bind (look_skip _) fun _ => look_bind (look_span _) fun _ => look_bind (look_skip _) fun _ => look_pure _

theorem look_ccy : LookP P.ccy := look_bind look_ws fun _ => look_bind look_ch fun _ => look_ite look_quoted (look_span _)

theorem look_ccyAmt : LookP P.ccyAmt :=
  look_bind look_ch fun _ => look_ite (look_bind look_ccy fun _ => look_bind look_amt fun _ => look_pure _)
    (look_bind look_amt fun _ => look_bind look_ccy fun _ => look_pure _)

theorem look_price : LookP P.price :=
  look_bind (look_consume _) fun _ => look_bind look_ws fun _ => look_bind (look_triple _ _) fun _ => look_bind look_ws fun _ =>
    look_bind (look_triple _ _) fun _ => look_bind look_ccy fun _ => look_bind look_ws fun _ => look_bind look_ccyAmt fun _ => look_pure _

theorem look_posting : LookP P.posting :=
  look_bind look_ws fun _ => look_bind look_account fun _ => look_bind look_ws fun _ => look_bind (look_skip _) fun _ => look_bind look_ccyAmt fun _ =>
    look_bind look_ws fun _ => look_bind (look_skip _) fun _ =>
      look_ite (look_bind look_ws fun _ => look_bind look_ccyAmt fun _ => look_bind look_note fun _ => look_pure _)
        (look_bind look_note fun _ => look_pure _)

theorem look_identifier (e : Env) : LookP (P.identifier e) :=
  look_bind look_ws fun _ => look_bind (look_span _) fun _ => look_bind look_ws fun _ => look_pure _

theorem look_alias : LookP P.alias' :=
  look_bind look_account fun _ => look_bind look_ws fun _ => look_bind (look_skip _) fun _ =>
    look_ite (look_bind look_ws fun _ => look_bind look_account fun _ => look_bind look_ws fun _ =>
      look_ite (look_stop _) (look_bind look_toEOL fun _ => look_pure _)) (look_bind look_ch fun _ => look_stop _)

theorem look_unquote (f : Str) : LookP (P.unquote f) := by
  unfold P.unquote
  cases f with
  | nil => exact look_panic _
  | cons c r =>
    simp only
    split
    · cases r with
      | nil => exact look_panic _
      | cons => exact look_pure _
    · exact look_pure _

theorem look_command (e : Env) : LookP (P.command e) :=
  look_bind (look_identifier e) fun _ => look_ite (look_bind look_toEOL fun _ => look_bind (look_unquote _) fun _ => look_pure _)
    (look_ite (look_bind look_alias fun _ => look_pure _) (look_stop _))

/-! ## One round and the loop -/

theorem skipEOL_look {a : Reader} {c : Nat} {r r' q : Reader} (h : skipEOL (a ++ c :: r) = q ++ c :: r) : skipEOL (a ++ c :: r') = q ++ c :: r' := by
  unfold skipEOL at h ⊢
  rw [ch_of a c r' r]
  split at h
  · rename_i hc
    rw [if_pos hc]
    exact next_look h
  · rename_i hc
    rw [if_neg hc, List.append_cancel_right h]

theorem skipLine_look {a : Reader} {c : Nat} {r r' q : Reader} (h : skipLine (a ++ c :: r) = q ++ c :: r) : skipLine (a ++ c :: r') = q ++ c :: r' := by
  unfold skipLine at h ⊢
  obtain ⟨w, hw⟩ := skipEOL_suf ((a ++ c :: r).dropWhile inLine)
  rw [h] at hw
  rw [(dropWhile_look inLine c r r' a (w ++ q) (by rw [← hw]; simp)).1]
  rw [← hw, show w ++ (q ++ c :: r) = (w ++ q) ++ c :: r by simp] at h
  exact skipEOL_look h

/-- The same round with other text behind the rune at which it ends. -/
theorem readStep_look (e : Env) (b : Builder) (als : Aliases) (a : Reader) (c : Nat) (r r' q : Reader) :
    (∀ b' als', readStep e b als (a ++ c :: r) = .go b' als' (q ++ c :: r) → readStep e b als (a ++ c :: r') = .go b' als' (q ++ c :: r')) ∧
    (∀ f, readStep e b als (a ++ c :: r) = .incl f (q ++ c :: r) → readStep e b als (a ++ c :: r') = .incl f (q ++ c :: r')) ∧
    (∀ m, readStep e b als (a ++ c :: r) = .fault (.stop (q ++ c :: r) m) → readStep e b als (a ++ c :: r') = .fault (.stop (q ++ c :: r') m)) := by
  -- what is unread after the blanks
  have blanks : ∀ z, z <:+ consumeWS (a ++ c :: r) → z = q ++ c :: r → ∃ p, consumeWS (a ++ c :: r) = p ++ c :: r ∧ consumeWS (a ++ c :: r') = p ++ c :: r' := by
    intro z hz hq
    obtain ⟨w, hw⟩ := hz
    have : consumeWS (a ++ c :: r) = (w ++ q) ++ c :: r := by rw [← hw, hq]; simp
    exact ⟨w ++ q, this, (dropWhile_look isBlank c r r' a _ this).1⟩
  have hlen : ∀ p : Reader, ((p ++ c :: r).length = (a ++ c :: r).length) = ((p ++ c :: r').length = (a ++ c :: r').length) := by
    intro p; simp
  -- the reading of one kind of line
  have okCase : ∀ {α : Type} {f : P α} {p : Reader} {x : α} {s : Reader}, LookP f → f.run (p ++ c :: r) = .ok (x, s) →
      skipEOL s = q ++ c :: r → ∃ s', f.run (p ++ c :: r') = .ok (x, s') ∧ skipEOL s' = q ++ c :: r' := by
    intro α f p x s hf hx hs
    obtain ⟨w, hw⟩ := skipEOL_suf s
    rw [hs] at hw
    have hs' : s = (w ++ q) ++ c :: r := by rw [← hw]; simp
    rw [hs'] at hx hs
    exact ⟨_, (hf.2 p c r r' (w ++ q)).1 x hx, skipEOL_look hs⟩
  have suf : ∀ z, (readStep e b als (a ++ c :: r)).stopped = some z ∨ (∃ b' als', readStep e b als (a ++ c :: r) = .go b' als' z) ∨
      (∃ f, readStep e b als (a ++ c :: r) = .incl f z) → z <:+ consumeWS (a ++ c :: r) := by
    intro z hz
    unfold readStep at hz
    simp only at hz
    have er : ∀ {α : Type} {f : P α} {y}, SufP f → f.run (consumeWS (a ++ c :: r)) = .error y → (RStep.fault y).stopped = some z →
        z <:+ consumeWS (a ++ c :: r) := by
      intro α f y hf hy hz
      cases y with
      | panic m => cases hz
      | stop s m =>
        cases hz
        exact hf _ _ (restOf_error hy)
    split at hz
    · rcases hz with hz | ⟨b', als', hz⟩ | ⟨f, hz⟩
      · cases hz
      · cases hz; exact skipLine_suf _
      · cases hz
    · split at hz
      · split at hz
        · rcases hz with hz | ⟨b', als', hz⟩ | ⟨f, hz⟩
          · cases hz
          · cases hz; exact skipLine_suf _
          · cases hz
        · split at hz
          · cases hx : P.price.run (consumeWS (a ++ c :: r)) with
            | error y =>
              rw [hx] at hz
              rcases hz with hz | ⟨b', als', hz⟩ | ⟨f, hz⟩
              · exact er suf_price hx hz
              · cases hz
              · cases hz
            | ok y =>
              rw [hx] at hz
              rcases hz with hz | ⟨b', als', hz⟩ | ⟨f, hz⟩
              · cases hz
              · cases hz; exact (skipEOL_suf _).trans (suf_price _ _ (by rw [hx]; rfl))
              · cases hz
          · split at hz
            · cases hx : P.transaction.run (consumeWS (a ++ c :: r)) with
              | error y =>
                rw [hx] at hz
                rcases hz with hz | ⟨b', als', hz⟩ | ⟨f, hz⟩
                · exact er suf_transaction hx hz
                · cases hz
                · cases hz
              | ok y =>
                rw [hx] at hz
                simp only at hz
                split at hz
                · rcases hz with hz | ⟨b', als', hz⟩ | ⟨f, hz⟩ <;> cases hz
                · rcases hz with hz | ⟨b', als', hz⟩ | ⟨f, hz⟩
                  · cases hz
                  · cases hz; exact (skipEOL_suf _).trans (suf_transaction _ _ (by rw [hx]; rfl))
                  · cases hz
            · cases hx : (P.command e).run (consumeWS (a ++ c :: r)) with
              | error y =>
                rw [hx] at hz
                rcases hz with hz | ⟨b', als', hz⟩ | ⟨f, hz⟩
                · exact er (suf_command e) hx hz
                · cases hz
                · cases hz
              | ok y =>
                obtain ⟨cm, s⟩ := y
                have hs := suf_command e _ s (by rw [hx]; rfl)
                rw [hx] at hz
                cases cm with
                | incl f =>
                  rcases hz with hz | ⟨b', als', hz⟩ | ⟨f, hz⟩
                  · cases hz
                  · cases hz
                  · cases hz; exact hs
                | short kv =>
                  rcases hz with hz | ⟨b', als', hz⟩ | ⟨f, hz⟩
                  · cases hz
                  · cases hz; exact hs
                  · cases hz
      · cases hx : P.posting.run (consumeWS (a ++ c :: r)) with
        | error y =>
          rw [hx] at hz
          rcases hz with hz | ⟨b', als', hz⟩ | ⟨f, hz⟩
          · exact er suf_posting hx hz
          · cases hz
          · cases hz
        | ok y =>
          rw [hx] at hz
          rcases hz with hz | ⟨b', als', hz⟩ | ⟨f, hz⟩
          · cases hz
          · cases hz; exact (skipEOL_suf _).trans (suf_posting _ _ (by rw [hx]; rfl))
          · cases hz
  -- the three ends at once
  suffices h : ∀ st st' : RStep, readStep e b als (a ++ c :: r) = st →
      ((∃ b' als', st = .go b' als' (q ++ c :: r) ∧ st' = .go b' als' (q ++ c :: r')) ∨ (∃ f, st = .incl f (q ++ c :: r) ∧ st' = .incl f (q ++ c :: r')) ∨
        (∃ m, st = .fault (.stop (q ++ c :: r) m) ∧ st' = .fault (.stop (q ++ c :: r') m))) →
      readStep e b als (a ++ c :: r') = st' by
    refine ⟨?_, ?_, ?_⟩
    · intro b' als' hx
      exact h _ _ hx (.inl ⟨b', als', rfl, rfl⟩)
    · intro f hx
      exact h _ _ hx (.inr (.inl ⟨f, rfl, rfl⟩))
    · intro m hx
      exact h _ _ hx (.inr (.inr ⟨m, rfl, rfl⟩))
  intro st st' hst hends
  obtain ⟨p, hp, hp'⟩ := blanks (q ++ c :: r) (suf _ (by
    rcases hends with ⟨b', als', h, _⟩ | ⟨f, h, _⟩ | ⟨m, h, _⟩
    · exact .inr (.inl ⟨b', als', by rw [hst, h]⟩)
    · exact .inr (.inr ⟨f, by rw [hst, h]⟩)
    · exact .inl (by rw [hst, h]; rfl))) rfl
  unfold readStep at hst ⊢
  simp only [hp, hp', ch_of p c r' r, ← hlen p] at hst ⊢
  have erCase : ∀ {α : Type} {f : P α} {y}, LookP f → f.run (p ++ c :: r) = .error y → RStep.fault y = st →
      ∃ y', f.run (p ++ c :: r') = .error y' ∧ RStep.fault y' = st' := by
    intro α f y hf hy hz
    rcases hends with ⟨b', als', h, _⟩ | ⟨f, h, _⟩ | ⟨m, h, h'⟩
    · rw [h] at hz; cases hz
    · rw [h] at hz; cases hz
    · rw [h] at hz
      cases hz
      exact ⟨_, (hf.2 p c r r' q).2 m hy, h'.symm⟩
  split at hst
  · rename_i hc
    rw [if_pos hc]
    rcases hends with ⟨b', als', h, h'⟩ | ⟨f, h, _⟩ | ⟨m, h, _⟩
    · rw [h] at hst
      obtain ⟨hb, ha, hs⟩ := RStep.go.inj hst
      rw [h', hb, ha, skipLine_look hs]
    · rw [h] at hst; cases hst
    · rw [h] at hst; cases hst
  · rename_i hc
    rw [if_neg hc]
    split at hst
    · rename_i hl
      rw [if_pos hl]
      split at hst
      · rename_i hd
        rw [if_pos hd]
        rcases hends with ⟨b', als', h, h'⟩ | ⟨f, h, _⟩ | ⟨m, h, _⟩
        · rw [h] at hst
          obtain ⟨hb, ha, hs⟩ := RStep.go.inj hst
          rw [h', hb, ha, skipLine_look hs]
        · rw [h] at hst; cases hst
        · rw [h] at hst; cases hst
      · rename_i hd
        rw [if_neg hd]
        split at hst
        · rename_i hP
          rw [if_pos hP]
          cases hx : P.price.run (p ++ c :: r) with
          | error y =>
            rw [hx] at hst
            obtain ⟨y', h1, h2⟩ := erCase look_price hx hst
            rw [h1]
            exact h2
          | ok y =>
            obtain ⟨x, s⟩ := y
            rw [hx] at hst
            rcases hends with ⟨b', als', h, h'⟩ | ⟨f, h, _⟩ | ⟨m, h, _⟩
            · rw [h] at hst
              obtain ⟨hb, ha, hs⟩ := RStep.go.inj hst
              obtain ⟨s', h1, h2⟩ := okCase look_price hx hs
              rw [h1, h', ← hb, ← ha]
              simp only
              rw [h2]
            · rw [h] at hst; cases hst
            · rw [h] at hst; cases hst
        · rename_i hP
          rw [if_neg hP]
          split at hst
          · rename_i hD
            rw [if_pos hD]
            cases hx : P.transaction.run (p ++ c :: r) with
            | error y =>
              rw [hx] at hst
              obtain ⟨y', h1, h2⟩ := erCase look_transaction hx hst
              rw [h1]
              exact h2
            | ok y =>
              obtain ⟨x, s⟩ := y
              rw [hx] at hst
              simp only at hst
              cases hb : b.newTransaction x.1 x.2.1 x.2.2 with
              | none =>
                rw [hb] at hst
                rcases hends with ⟨b', als', h, h'⟩ | ⟨f, h, _⟩ | ⟨m, h, _⟩ <;> (rw [h] at hst; cases hst)
              | some b1 =>
                rw [hb] at hst
                rcases hends with ⟨b', als', h, h'⟩ | ⟨f, h, _⟩ | ⟨m, h, _⟩
                · rw [h] at hst
                  obtain ⟨hb', ha, hs⟩ := RStep.go.inj hst
                  obtain ⟨s', h1, h2⟩ := okCase look_transaction hx hs
                  rw [h1, h']
                  simp only
                  rw [hb, hb', ha]
                  simp only
                  rw [h2]
                · rw [h] at hst; cases hst
                · rw [h] at hst; cases hst
          · rename_i hD
            rw [if_neg hD]
            cases hx : (P.command e).run (p ++ c :: r) with
            | error y =>
              rw [hx] at hst
              obtain ⟨y', h1, h2⟩ := erCase (look_command e) hx hst
              rw [h1]
              exact h2
            | ok y =>
              obtain ⟨cm, s⟩ := y
              rw [hx] at hst
              cases cm with
              | incl f =>
                rcases hends with ⟨b', als', h, h'⟩ | ⟨f, h, h'⟩ | ⟨m, h, _⟩
                · rw [h] at hst; cases hst
                · rw [h] at hst
                  obtain ⟨hf, hs⟩ := RStep.incl.inj hst
                  rw [hs] at hx
                  rw [((look_command e).2 p c r r' q).1 _ hx, h', hf]
                · rw [h] at hst; cases hst
              | short kv =>
                rcases hends with ⟨b', als', h, h'⟩ | ⟨f, h, h'⟩ | ⟨m, h, _⟩
                · rw [h] at hst
                  obtain ⟨hb, ha, hs⟩ := RStep.go.inj hst
                  rw [hs] at hx
                  rw [((look_command e).2 p c r r' q).1 _ hx, h', ← hb, ← ha]
                · rw [h] at hst; cases hst
                · rw [h] at hst; cases hst
    · rename_i hl
      rw [if_neg hl]
      cases hx : P.posting.run (p ++ c :: r) with
      | error y =>
        rw [hx] at hst
        obtain ⟨y', h1, h2⟩ := erCase look_posting hx hst
        rw [h1]
        exact h2
      | ok y =>
        obtain ⟨x, s⟩ := y
        rw [hx] at hst
        rcases hends with ⟨b', als', h, h'⟩ | ⟨f, h, _⟩ | ⟨m, h, _⟩
        · rw [h] at hst
          obtain ⟨hb, ha, hs⟩ := RStep.go.inj hst
          obtain ⟨s', h1, h2⟩ := okCase look_posting hx hs
          rw [h1, h', ← hb, ← ha]
          simp only
          rw [h2]
        · rw [h] at hst; cases hst
        · rw [h] at hst; cases hst

/-- A text that stops the loop at a rune stops it there whatever comes behind that rune. -/
theorem readLoop_look (e : Env) (fn : Str) (inc : Builder → Aliases → Str → ReadEnd) (c : Nat) (r r' : Reader) (m : Str) :
    ∀ (fuel fuel' : Nat) (b : Builder) (als : Aliases) (a : Reader), (a ++ c :: r').length < fuel' →
      readLoop e fn inc fuel b als (a ++ c :: r) = .fault (.stop (c :: r) m) →
      readLoop e fn inc fuel' b als (a ++ c :: r') = .fault (.stop (c :: r') m) := by
  intro fuel
  induction fuel with
  | zero => intro fuel' b als a _ h; cases h
  | succ fuel ih =>
    intro fuel' b als a hl h
    cases fuel' with
    | zero => omega
    | succ fuel' =>
      unfold readLoop at h ⊢
      rw [ch_of a c r' r]
      split at h
      · cases h
      · rename_i hc
        rw [if_neg hc]
        obtain ⟨l1, l2⟩ := readStep_lt (e := e) (b := b) (als := als) hc
        have hc' : Reader.ch (a ++ c :: r') ≠ 0 := by rw [ch_of a c r' r]; exact hc
        obtain ⟨l1', l2'⟩ := readStep_lt (e := e) (b := b) (als := als) hc'
        cases hst : readStep e b als (a ++ c :: r) with
        | fault x =>
          rw [hst] at h
          cases h
          rw [(readStep_look e b als a c r r' []).2.2 m (by rw [hst]; rfl)]
          rfl
        | go b' als' s' =>
          rw [hst] at h
          obtain ⟨w, hw⟩ := (readLoop_stop _ _ _ _ _ _ h).1
          rw [← hw] at hst h
          have hg := (readStep_look e b als a c r r' w).1 b' als' hst
          rw [hg]
          exact ih _ _ _ _ (by have := (l1' _ _ _ hg).1; omega) h
        | incl f s' =>
          rw [hst] at h
          simp only at h
          cases hi : inc b als (e.join fn f) with
          | ok b' als' =>
            rw [hi] at h
            obtain ⟨w, hw⟩ := (readLoop_stop _ _ _ _ _ _ h).1
            rw [← hw] at hst h
            have hg := (readStep_look e b als a c r r' w).2.1 f hst
            rw [hg]
            simp only
            rw [hi]
            exact ih _ _ _ _ (by have := (l2' _ _ hg).1; omega) h
          | err m => rw [hi] at h; cases h
          | fatal => rw [hi] at h; cases h
          | running => rw [hi] at h; cases h

end Verif
