import Verif.Proofs.LoaderErr3
import Verif.Spec.LoaderErr
import Verif.Props.File

/-! # C128: a refused line is reported with its place -/

namespace Verif
open Spec

theorem completeLines_iff (s : List Nat) : CompleteLines s ↔ Lines s := by
  unfold CompleteLines Lines
  rcases List.eq_nil_or_concat s with h | ⟨x, c, h⟩
  · subst h; simp
  · subst h
    constructor
    · intro h
      right
      exact ⟨x, by rw [List.concat_eq_append, h c (by simp)]⟩
    · rintro (h | ⟨s', h⟩)
      · simp at h
      · intro d hd
        rw [h] at hd
        simpa using hd.symm

/-- How the loop ends with these contents. -/
def loopEnd (e : Env) (depth : Nat) (fn : Str) (b : Builder) (als : Aliases) (s : List Nat) : LoopEnd :=
  readLoop e fn (readLedger e depth) (s.length + 1) b als s

theorem loopEnd_append {e : Env} (he : e.letter 10 = false) (depth : Nat) (fn : Str) (b : Builder) (als : Aliases) {s : List Nat} (h0 : 0 ∉ s)
    (hl : Lines s) (t : List Nat) : loopEnd e depth fn b als (s ++ t) = (loopEnd e depth fn b als s).andThen t fun b als => loopEnd e depth fn b als t :=
  readLoop_append e he fn _ t _ s rfl h0 hl b als

def LoopEnd.isOk : LoopEnd → Bool
  | .ok _ _ => true
  | _ => false

/-- The first line that is not accepted. -/
theorem first_bad {e : Env} (he : e.letter 10 = false) (depth : Nat) (fn : Str) : ∀ (n : Nat) (text : List Nat), text.length = n → 0 ∉ text →
    ∀ (b : Builder) (als : Aliases), (loopEnd e depth fn b als text).isOk = false →
    ∃ before line after b' als', text = before ++ line ++ after ∧ Lines before ∧ 10 ∉ line ∧ (after = [] ∨ ∃ r, after = 10 :: r) ∧
      loopEnd e depth fn b als before = .ok b' als' ∧
      (after = [] → (loopEnd e depth fn b' als' line).isOk = false) ∧
      (∀ r, after = 10 :: r → (loopEnd e depth fn b' als' (line ++ [10])).isOk = false) := by
  intro n
  induction n using Nat.strong_induction_on with
  | _ n ih =>
    intro text hn h0 b als hbad
    by_cases h10 : 10 ∈ text
    · obtain ⟨l, r, rfl, hl⟩ := List.append_of_mem h10 |>.elim fun l h => h.elim fun r h => by
        have : ∃ l r, text = l ++ 10 :: r ∧ 10 ∉ l := List.eq_append_cons_of_mem h10
        obtain ⟨l, r, h1, h2⟩ := this
        exact (⟨l, r, h1, h2⟩ : ∃ l r, text = l ++ 10 :: r ∧ 10 ∉ l)
      cases hx : loopEnd e depth fn b als (l ++ [10]) with
      | ok b1 als1 =>
        have h01 : 0 ∉ l ++ [10] := by
          intro h
          apply h0
          simp only [List.mem_append, List.mem_singleton] at h
          simp only [List.mem_append, List.mem_cons]
          rcases h with h | h
          · exact .inl h
          · exact .inr (.inl h)
        have happ := loopEnd_append he depth fn b als h01 (.inr ⟨l, rfl⟩) r
        rw [hx] at happ
        have h2 : (loopEnd e depth fn b1 als1 r).isOk = false := by
          rw [← hbad, show l ++ 10 :: r = (l ++ [10]) ++ r by simp, happ]
          rfl
        obtain ⟨before, line, after, b', als', e1, e2, e3, e4, e5, e6, e7⟩ := ih r.length (by subst hn; simp; omega) r rfl
          (fun h => h0 (by simp [h])) b1 als1 h2
        refine ⟨(l ++ [10]) ++ before, line, after, b', als', by rw [e1]; simp, ?_, e3, e4, ?_, e6, e7⟩
        · rcases e2 with e2 | ⟨x, e2⟩
          · right; exact ⟨l, by rw [e2]; simp⟩
          · right; exact ⟨l ++ [10] ++ x, by rw [e2]; simp⟩
        · rw [loopEnd_append he depth fn b als h01 (.inr ⟨l, rfl⟩), hx]
          exact e5
      | _ =>
        exact ⟨[], l, 10 :: r, b, als, by simp, .inl rfl, hl, .inr ⟨r, rfl⟩, rfl, (fun h => by cases h), fun _ _ => by rw [hx]; rfl⟩
    · exact ⟨[], text, [], b, als, by simp, .inl rfl, h10, .inl rfl, rfl, fun _ => hbad, (fun r h => by cases h)⟩

/-! ## The place -/

theorem takeWhile_lines {before : List Nat} (h : Lines before) {x : List Nat} (hx : 10 ∉ x) :
    ((before ++ x).reverse.takeWhile (· != 10)).length = x.length := by
  rw [List.reverse_append, List.takeWhile_append_of_pos (by
    intro c hc
    have : c ≠ 10 := by rintro rfl; exact hx (List.mem_reverse.1 hc)
    simpa using this)]
  have : before.reverse.takeWhile (· != 10) = [] := by
    rcases h with h | ⟨y, h⟩
    · subst h; rfl
    · subst h; simp
  rw [this]
  simp

theorem count_none {x : List Nat} (h : 10 ∉ x) : x.count 10 = 0 := List.count_eq_zero_of_not_mem h

/-- The place is that of the first unread rune; the end of a line counts as the beginning of the next. -/
theorem place_of {before a rest : List Nat} (h : Lines before) (ha : 10 ∉ a) :
    placeOf (before ++ a ++ rest) rest =
      if rest.head? = some 10 then (before.count 10 + 2, 0) else (before.count 10 + 1, a.length + 1) := by
  unfold placeOf
  cases rest with
  | nil =>
    have hx : 10 ∉ a ++ [0] := by simp [ha]
    have e1 : before ++ a ++ [] ++ [0] = before ++ (a ++ [0]) := by simp
    simp only [List.length_nil, if_true, e1, List.count_append, count_none hx, takeWhile_lines h hx, List.length_append]
    simp
    omega
  | cons c r =>
    have e1 : (before ++ a ++ c :: r).take ((before ++ a ++ c :: r).length - (c :: r).length + 1) = before ++ (a ++ [c]) := by
      have : (before ++ a ++ c :: r) = (before ++ (a ++ [c])) ++ r := by simp
      have hn : (before ++ a ++ c :: r).length - (c :: r).length + 1 = (before ++ (a ++ [c])).length := by simp; omega
      rw [hn, this, List.take_left]
    simp only [List.length_cons, Nat.succ_ne_zero, if_false] at e1 ⊢
    rw [e1]
    by_cases hc : c = 10
    · subst hc
      have : (before ++ (a ++ [10])).reverse.takeWhile (· != 10) = [] := by simp
      rw [this]
      simp [List.count_append, count_none ha]
      omega
    · have hx : 10 ∉ a ++ [c] := by simp [ha]; exact fun h => hc h.symm
      rw [takeWhile_lines h hx]
      simp only [List.count_append, count_none hx]
      simp [hc]
      omega

/-! ## Panics -/

def PanP {α : Type} (f : P α) : Prop := ∀ s m, f.run s = .error (.panic m) → m ∈ panicTexts

theorem pan_ok {α : Type} {f : P α} (g : Reader → α × Reader) (h : ∀ s, f.run s = .ok (g s)) : PanP f := by
  intro s m hr; rw [h] at hr; cases hr

theorem pan_pure {α : Type} (a : α) : PanP (pure a : P α) := pan_ok (fun s => (a, s)) fun _ => rfl
theorem pan_stop {α : Type} (m : Str) : PanP (P.stop m : P α) := by intro s m' h; rw [stop_run] at h; cases h
theorem pan_panic {α : Type} {m : Str} (h : m ∈ panicTexts) : PanP (P.panic m : P α) := by intro s m' h'; rw [panic_run] at h'; cases h'; exact h

theorem pan_bind {α β : Type} {x : P α} {f : α → P β} (hx : PanP x) (hf : ∀ a, PanP (f a)) : PanP (x >>= f) := by
  intro s m h
  rw [run_bind] at h
  cases hr : x.run s with
  | error y =>
    rw [hr, error_bind] at h
    exact hx s m (by rw [hr]; cases h; rfl)
  | ok y =>
    rw [hr, ok_bind] at h
    exact hf _ _ _ h

theorem pan_ite {α : Type} {c : Prop} [Decidable c] {x y : P α} (hx : PanP x) (hy : PanP y) : PanP (if c then x else y) := by
  split
  · exact hx
  · exact hy

theorem pan_ch : PanP P.ch := pan_ok _ ch_run
theorem pan_ws : PanP P.ws := pan_ok _ ws_run
theorem pan_span (p : Nat → Bool) : PanP (P.span p) := pan_ok _ (span_run p)
theorem pan_skip (q : Nat → Bool) : PanP (P.skip q) := pan_ok _ (skip_run q)
theorem pan_digits : PanP P.digits := pan_ok _ digits_run

theorem pan_consume (e : Nat) : PanP (P.consume e) :=
  pan_bind (pan_skip _) fun _ => pan_ite (pan_bind pan_ch fun _ => pan_stop _) (pan_pure _)

theorem pan_number (a b : Nat) : PanP (P.number a b) := pan_bind (pan_span _) fun _ => pan_ite (pan_stop _) (pan_pure _)

theorem pan_triple (w sep : Nat) : PanP (P.triple w sep) :=
  pan_bind (pan_number _ _) fun _ => pan_bind (pan_consume _) fun _ => pan_bind (pan_number _ _) fun _ => pan_bind (pan_consume _) fun _ =>
    pan_bind (pan_number _ _) fun _ => pan_pure _

theorem pan_quoted : PanP P.quoted :=
  pan_bind (pan_consume _) fun _ => pan_bind (pan_span _) fun _ => pan_bind (pan_consume _) fun _ => pan_pure _

theorem pan_amt : PanP P.amt :=
  pan_bind pan_ws fun _ => pan_bind (pan_skip _) fun neg => pan_bind pan_digits fun r => by
    cases newRat (if neg = true then wrap64 (r.1 * -1) else r.1) r.2 with
    | none => exact pan_panic (by decide)
    | some v => exact pan_pure _

theorem pan_payee : PanP P.payee :=
  pan_bind pan_ws fun _ => pan_bind pan_ch fun _ => pan_ite (pan_bind pan_quoted fun _ => pan_pure _) (pan_bind (pan_span _) fun _ => pan_pure _)

theorem pan_note : PanP P.note :=
  pan_bind pan_ws fun _ => pan_bind (pan_skip _) fun _ => pan_ite (pan_bind pan_ws fun _ => pan_span _) (pan_pure _)

theorem pan_transaction : PanP P.transaction :=
  pan_bind (pan_triple _ _) fun _ => pan_bind pan_ws fun _ => pan_bind (pan_skip _) fun _ =>
    pan_ite (pan_bind pan_ws fun _ => pan_bind pan_payee fun _ => pan_bind pan_note fun _ => pan_pure _)
      (pan_bind pan_payee fun _ => pan_bind pan_note fun _ => pan_pure _)

theorem pan_toEOL : PanP P.toEOL := pan_bind pan_ws fun _ => pan_span _

theorem pan_account : PanP P.account :=
  pan_bind pan_ws fun _ => pan_bind (pan_skip _) fun _ => pan_bind (pan_span _) fun _ => pan_bind (pan_skip _) fun _ => pan_pure _

theorem pan_ccy : PanP P.ccy := pan_bind pan_ws fun _ => pan_bind pan_ch fun _ => pan_ite pan_quoted (pan_span _)

theorem pan_ccyAmt : PanP P.ccyAmt :=
  pan_bind pan_ch fun _ => pan_ite (pan_bind pan_ccy fun _ => pan_bind pan_amt fun _ => pan_pure _)
    (pan_bind pan_amt fun _ => pan_bind pan_ccy fun _ => pan_pure _)

theorem pan_price : PanP P.price :=
  pan_bind (pan_consume _) fun _ => pan_bind pan_ws fun _ => pan_bind (pan_triple _ _) fun _ => pan_bind pan_ws fun _ =>
    pan_bind (pan_triple _ _) fun _ => pan_bind pan_ccy fun _ => pan_bind pan_ws fun _ => pan_bind pan_ccyAmt fun _ => pan_pure _

theorem pan_posting : PanP P.posting :=
  pan_bind pan_ws fun _ => pan_bind pan_account fun _ => pan_bind pan_ws fun _ => pan_bind (pan_skip _) fun _ => pan_bind pan_ccyAmt fun _ =>
    pan_bind pan_ws fun _ => pan_bind (pan_skip _) fun _ =>
      pan_ite (pan_bind pan_ws fun _ => pan_bind pan_ccyAmt fun _ => pan_bind pan_note fun _ => pan_pure _)
        (pan_bind pan_note fun _ => pan_pure _)

theorem pan_identifier (e : Env) : PanP (P.identifier e) :=
  pan_bind pan_ws fun _ => pan_bind (pan_span _) fun _ => pan_bind pan_ws fun _ => pan_pure _

theorem pan_alias : PanP P.alias' :=
  pan_bind pan_account fun _ => pan_bind pan_ws fun _ => pan_bind (pan_skip _) fun _ =>
    pan_ite (pan_bind pan_ws fun _ => pan_bind pan_account fun _ => pan_bind pan_ws fun _ =>
      pan_ite (pan_stop _) (pan_bind pan_toEOL fun _ => pan_pure _)) (pan_bind pan_ch fun _ => pan_stop _)

theorem pan_unquote (f : Str) : PanP (P.unquote f) := by
  unfold P.unquote
  cases f with
  | nil => exact pan_panic (by decide)
  | cons c r =>
    simp only
    split
    · cases r with
      | nil => exact pan_panic (by decide)
      | cons => exact pan_pure _
    · exact pan_pure _

theorem pan_command (e : Env) : PanP (P.command e) :=
  pan_bind (pan_identifier e) fun _ => pan_ite (pan_bind pan_toEOL fun _ => pan_bind (pan_unquote _) fun _ => pan_pure _)
    (pan_ite (pan_bind pan_alias fun _ => pan_pure _) (pan_stop _))

/-- The panics of one round. -/
theorem readStep_panic {e : Env} (he : e.Ok) {b : Builder} {als : Aliases} {s : Reader} {m : Str} (h : readStep e b als s = .fault (.panic m)) :
    m ∈ panicTexts ∨ ∃ c v, v ≠ 0 ∧ m = unbalancedIn b.currDate b.currPayee c v := by
  unfold readStep at h
  simp only at h
  split at h
  · cases h
  · split at h
    · split at h
      · cases h
      · split at h
        · cases hr : P.price.run (consumeWS s) with
          | error x => rw [hr] at h; cases h; exact .inl (pan_price _ _ hr)
          | ok x => rw [hr] at h; cases h
        · split at h
          · cases hr : P.transaction.run (consumeWS s) with
            | error x => rw [hr] at h; cases h; exact .inl (pan_transaction _ _ hr)
            | ok x =>
              rw [hr] at h
              simp only at h
              cases hb : b.newTransaction x.1.1 x.1.2.1 x.1.2.2 with
              | some b' => rw [hb] at h; cases h
              | none =>
                rw [hb] at h
                cases h
                right
                unfold unbalancedMsg
                cases hf : (e.ord b).find? fun kv => decide (kv.2 ≠ 0) with
                | some kv =>
                  have := List.find?_some hf
                  exact ⟨kv.1, kv.2, by simpa using this, by simp [unbalancedIn, ratString]⟩
                | none =>
                  exfalso
                  rw [List.find?_eq_none] at hf
                  unfold Builder.newTransaction Builder.checkAndClear at hb
                  rw [if_pos (by
                    rw [List.all_eq_true]
                    intro kv hkv
                    have := hf kv ((he b).mem_iff.2 hkv)
                    simpa using this)] at hb
                  simp only at hb
                  split at hb
                  · rename_i hn
                    exact renameLoop_ne_none _ _ _ hn
                  · cases hb
          · cases hr : (P.command e).run (consumeWS s) with
            | error x => rw [hr] at h; cases h; exact .inl (pan_command e _ _ hr)
            | ok x =>
              obtain ⟨cm, r'⟩ := x
              rw [hr] at h
              cases cm <;> cases h
    · cases hr : P.posting.run (consumeWS s) with
      | error x => rw [hr] at h; cases h; exact .inl (pan_posting _ _ hr)
      | ok x => rw [hr] at h; cases h

theorem readLoop_panic {e : Env} (he : e.Ok) {fn : Str} {inc : Builder → Aliases → Str → ReadEnd} : ∀ (fuel : Nat) (b : Builder) (als : Aliases)
    (s : Reader) (m : Str), readLoop e fn inc fuel b als s = .fault (.panic m) →
    m ∈ panicTexts ∨ ∃ d p c v, v ≠ 0 ∧ m = unbalancedIn d p c v := by
  intro fuel
  induction fuel with
  | zero => intro b als s m h; cases h
  | succ fuel ih =>
    intro b als s m h
    unfold readLoop at h
    split at h
    · cases h
    · cases hst : readStep e b als s with
      | fault x =>
        rw [hst] at h
        cases h
        rcases readStep_panic he hst with h | ⟨c, v, h⟩
        · exact .inl h
        · exact .inr ⟨_, _, c, v, h⟩
      | go b' als' s' =>
        rw [hst] at h
        exact ih _ _ _ _ h
      | incl f s' =>
        rw [hst] at h
        simp only at h
        cases hi : inc b als (e.join fn f) with
        | ok b' als' => rw [hi] at h; exact ih _ _ _ _ h
        | err m => rw [hi] at h; cases h
        | fatal => rw [hi] at h; cases h
        | running => rw [hi] at h; cases h

/-! ## Included files -/

theorem unquote_infix {f g : Str} (h : unquote f = some g) : g <:+: f := by
  unfold unquote at h
  cases f with
  | nil => cases h
  | cons c r =>
    simp only at h
    split at h
    · cases r with
      | nil => cases h
      | cons d r =>
        cases h
        exact (List.dropLast_prefix _).isInfix.trans (List.suffix_cons _ _).isInfix
    · cases h; exact List.infix_refl _

theorem incl_infix {e : Env} {b : Builder} {als : Aliases} {s : Reader} {f : Str} {s' : Reader} (h : readStep e b als s = .incl f s') :
    f <:+: s ∧ 10 ∉ f := by
  have hp := readStep_plain e b als s
  rw [h] at hp
  have hp := hp.symm
  unfold parseStep at hp
  simp only [RStep.plain] at hp
  split at hp
  · cases hp
  · split at hp
    · split at hp
      · cases hp
      · split at hp
        · split at hp <;> cases hp
        · split at hp
          · split at hp
            · cases hp
            · split at hp <;> cases hp
          · split at hp
            · split at hp
              · cases hp
              · rename_i g hu
                cases hp
                have h1 := unquote_infix hu
                refine ⟨h1.trans ?_, fun h10 => ?_⟩
                · unfold parseToEOL
                  exact (List.takeWhile_prefix _).isInfix.trans ((consumeWS_suf _).isInfix.trans
                    ((parseIdentifier_suf e _).isInfix.trans (consumeWS_suf s).isInfix))
                · have := h1.subset h10
                  unfold parseToEOL at this
                  have h2 := List.all_takeWhile (l := consumeWS (parseIdentifier e (consumeWS s)).2) (p := inLine)
                  rw [List.all_eq_true] at h2
                  have h3 := h2 _ this
                  revert h3
                  decide
            · split at hp
              · split at hp <;> cases hp
              · cases hp
    · split at hp <;> cases hp

theorem readLoop_err {e : Env} {fn : Str} {inc : Builder → Aliases → Str → ReadEnd} : ∀ (fuel : Nat) (b : Builder) (als : Aliases)
    (s : Reader) (m : Str), readLoop e fn inc fuel b als s = .err m → ∃ b' als' f, f <:+: s ∧ 10 ∉ f ∧ inc b' als' (e.join fn f) = .err m := by
  intro fuel
  induction fuel with
  | zero => intro b als s m h; cases h
  | succ fuel ih =>
    intro b als s m h
    unfold readLoop at h
    split at h
    · cases h
    · rename_i hc
      obtain ⟨l1, l2⟩ := readStep_lt (e := e) (b := b) (als := als) hc
      cases hst : readStep e b als s with
      | fault x => rw [hst] at h; cases h
      | go b' als' s' =>
        rw [hst] at h
        obtain ⟨b1, als1, f, h1, h2⟩ := ih _ _ _ _ h
        exact ⟨b1, als1, f, h1.trans (l1 _ _ _ hst).2.isInfix, h2⟩
      | incl f s' =>
        rw [hst] at h
        simp only at h
        cases hi : inc b als (e.join fn f) with
        | ok b' als' =>
          rw [hi] at h
          obtain ⟨b1, als1, g, h1, h2⟩ := ih _ _ _ _ h
          exact ⟨b1, als1, g, h1.trans (l2 _ _ hst).2.isInfix, h2⟩
        | err m' =>
          rw [hi] at h
          cases h
          exact ⟨b, als, f, (incl_infix hst).1, (incl_infix hst).2, hi⟩
        | fatal => rw [hi] at h; cases h
        | running => rw [hi] at h; cases h

theorem infix_line {f line : List Nat} (h : f <:+: line ++ [10]) (h10 : 10 ∉ f) : f <:+: line := by
  obtain ⟨x, y, h⟩ := h
  rcases List.eq_nil_or_concat y with hy | ⟨y', c, hy⟩
  · subst hy
    rcases List.eq_nil_or_concat f with hf | ⟨f', c, hf⟩
    · subst hf; exact ⟨[], line, rfl⟩
    · subst hf
      exfalso
      rw [List.concat_eq_append, List.append_nil, ← List.append_assoc] at h
      have := (List.append_inj' h rfl).2
      simp only [List.cons.injEq, and_true] at this
      apply h10
      simp [this]
  · subst hy
    rw [List.concat_eq_append, ← List.append_assoc] at h
    exact ⟨x, y', (List.append_inj' h rfl).1⟩

/-! ## C128 -/

theorem close_fault (fn content : Str) (f : Fault) : (LoopEnd.fault f).close fn content = .err (errorIn fn (f.text content)) := rfl

theorem atLineEnd_iff (s : List Nat) : AtLineEnd s ↔ s = [] ∨ ∃ r, s = 10 :: r := by
  unfold AtLineEnd
  cases s with
  | nil => simp
  | cons c r => simp

/-- C128 (a): a refused file is refused because of one line: the lines before it alone are accepted, and what comes after it does not matter.
The error is either the text `parsing failure: FILE: ROW:COLUMN: …`, where row and column (counted from 1) are those of the rune at which
reading stopped, everything up to which decides that the file is refused - but if that is the end of the line, the row is the next one and
the column 0; or an error that names the file only; or the error of a file included in that line. -/
theorem c128_place_partial (e : Env) (he : e.Ok) (hl : e.letter 10 = false) (depth : Nat) (fn : Str) (b : Builder) (als : Aliases) (text : List Nat)
    (ht : e.files fn = some text) (h0 : 0 ∉ text) (err : Str) (h : readLedger e (depth + 1) b als fn = .err err) :
    ∃ before line after, text = before ++ line ++ after ∧ RefusedAt e depth fn b als before line after err ∧
      ((∃ a rest row col why, line ++ after = a ++ rest ∧ a <+: line ∧ err = errorAt fn row col why ∧
          (rest.head? ≠ some 10 → row = before.count 10 + 1 ∧ col = a.length + 1) ∧
          (rest.head? = some 10 → row = before.count 10 + 2 ∧ col = 0) ∧
          ∀ c r r', rest = c :: r → saysOf e depth fn b als (before ++ a ++ c :: r') = .err err) ∨
        (∃ why, err = errorIn fn why ∧ (why ∈ panicTexts ∨ ∃ date payee ccy left, left ≠ 0 ∧ why = unbalancedIn date payee ccy left)) ∨
        (∃ g b' als', g <:+: line ∧ readLedger e depth b' als' (e.join fn g) = .err err)) := by
  have hcl : (loopEnd e depth fn b als text).close fn text = .err err := by
    rw [← h]
    unfold readLedger
    rw [ht]
    rfl
  have hbad : (loopEnd e depth fn b als text).isOk = false := by
    cases hx : loopEnd e depth fn b als text with
    | ok b' als' => rw [hx] at hcl; cases hcl
    | _ => rfl
  obtain ⟨before, line, after, b', als', e1, e2, e3, e4, e5, e6, e7⟩ := first_bad hl depth fn _ text rfl h0 b als hbad
  have h0b : 0 ∉ before := fun h => h0 (by rw [e1]; simp [h])
  have h0l : 0 ∉ line := fun h => h0 (by rw [e1]; simp [h])
  have h0a : 0 ∉ after := fun h => h0 (by rw [e1]; simp [h])
  have whole : ∀ x, loopEnd e depth fn b als (before ++ x) = loopEnd e depth fn b' als' x := by
    intro x
    rw [loopEnd_append hl depth fn b als h0b e2, e5]
    rfl
  have hfine : ∃ b' als', saysOf e depth fn b als before = .ok b' als' :=
    ⟨b', als', by show (loopEnd e depth fn b als before).close fn before = _; rw [e5]; rfl⟩
  -- the line itself, with its end if it has one
  obtain ⟨u, hu, huend, hubad, hwith⟩ : ∃ u, (u = line ∧ after = [] ∨ u = line ++ [10] ∧ after ≠ []) ∧ (∃ t, line ++ after = u ++ t) ∧
      (loopEnd e depth fn b' als' u).isOk = false ∧
      (∀ after', AtLineEnd after' → (after' = [] ↔ after = []) → ∃ t, line ++ after' = u ++ t ∧
        loopEnd e depth fn b' als' (u ++ t) = (loopEnd e depth fn b' als' u).andThen t fun b als => loopEnd e depth fn b als t) := by
    rcases e4 with rfl | ⟨r, rfl⟩
    · refine ⟨line, .inl ⟨rfl, rfl⟩, ⟨[], by simp⟩, e6 rfl, fun after' _ h => ?_⟩
      rw [h.2 rfl]
      refine ⟨[], by simp, ?_⟩
      have hb := e6 rfl
      rw [List.append_nil]
      cases hx : loopEnd e depth fn b' als' line with
      | ok x y => rw [hx] at hb; cases hb
      | fault f => cases f <;> simp [LoopEnd.andThen, Fault.behind]
      | _ => rfl
    · refine ⟨line ++ [10], .inr ⟨rfl, by simp⟩, ⟨r, by simp⟩, e7 r rfl, fun after' h h' => ?_⟩
      rcases (atLineEnd_iff _).1 h with rfl | ⟨r', rfl⟩
      · exact absurd (h'.1 rfl) (by simp)
      · exact ⟨r', by simp, loopEnd_append hl depth fn b' als' (by simp [h0l]) (.inr ⟨line, rfl⟩) r'⟩
  have hae : AtLineEnd after := (atLineEnd_iff _).2 e4
  obtain ⟨t0, ht0, hl0⟩ := hwith after hae Iff.rfl
  have hloop : loopEnd e depth fn b als text = (loopEnd e depth fn b' als' u).andThen t0 fun b als => loopEnd e depth fn b als t0 := by
    rw [e1, List.append_assoc, whole, ht0, hl0]
  have lines : CompleteLines before := (completeLines_iff _).2 e2
  cases hx : loopEnd e depth fn b' als' u with
  | ok x y => rw [hx] at hubad; cases hubad
  | fatal => rw [hloop, hx] at hcl; cases hcl
  | running => rw [hloop, hx] at hcl; cases hcl
  | err m =>
    rw [hloop, hx] at hcl
    cases hcl
    refine ⟨before, line, after, e1, ⟨lines, e3, hae, hfine, ?_⟩, .inr (.inr ?_)⟩
    · intro after' h1 h2
      obtain ⟨t, ht, hl⟩ := hwith after' h1 h2
      show (loopEnd e depth fn b als (before ++ line ++ after')).close _ _ = _
      rw [List.append_assoc, whole, ht, hl, hx]
      rfl
    · obtain ⟨b1, als1, f, h1, h2, h3⟩ := readLoop_err _ _ _ _ _ hx
      refine ⟨f, b1, als1, ?_, h3⟩
      rcases hu with ⟨rfl, _⟩ | ⟨rfl, _⟩
      · exact h1
      · exact infix_line h1 h2
  | fault f =>
    rw [hloop, hx] at hcl
    cases f with
    | panic m =>
      cases hcl
      refine ⟨before, line, after, e1, ⟨lines, e3, hae, hfine, ?_⟩, .inr (.inl ⟨m, rfl, readLoop_panic he _ _ _ _ _ hx⟩)⟩
      intro after' h1 h2
      obtain ⟨t, ht, hl⟩ := hwith after' h1 h2
      show (loopEnd e depth fn b als (before ++ line ++ after')).close _ _ = _
      rw [List.append_assoc, whole, ht, hl, hx]
      rfl
    | stop s m =>
      -- the unread part of the line
      obtain ⟨hsuf, hs10⟩ := readLoop_stop _ _ _ _ _ _ hx
      obtain ⟨a, ha⟩ := hsuf
      have hal : a <+: line := by
        rcases hu with ⟨rfl, _⟩ | ⟨hu, _⟩
        · exact ⟨s, ha⟩
        · have hne : s ≠ [] := by
            rintro rfl
            have := hs10 hl (by rw [hu]; simp [h0l]) (by rw [hu]; exact .inr ⟨line, rfl⟩)
            cases this
          rcases List.eq_nil_or_concat s with hs | ⟨s', c, hs⟩
          · exact absurd hs hne
          · rw [hs, List.concat_eq_append, hu, ← List.append_assoc] at ha
            exact ⟨s', (List.append_inj' ha rfl).1⟩
      have ha10 : 10 ∉ a := fun h => e3 (hal.subset h)
      have hrest : ∀ after', AtLineEnd after' → (after' = [] ↔ after = []) → ∀ t, line ++ after' = u ++ t → 
          (s ++ t).head? = (s ++ t0).head? := by
        intro after' h1 h2 t ht
        cases s with
        | cons c r => rfl
        | nil =>
          -- at the end of the file
          rcases hu with ⟨rfl, h3⟩ | ⟨hu, _⟩
          · have h4 : after' = [] := h2.2 h3
            rw [h4] at ht
            rw [h3] at ht0
            have e3 : t = [] := by simpa using ht
            have e4 : t0 = [] := by simpa using ht0
            rw [e3, e4]
          · exfalso
            have := hs10 hl (by rw [hu]; simp [h0l]) (by rw [hu]; exact .inr ⟨line, rfl⟩)
            cases this
      have htext : text = before ++ a ++ (s ++ t0) := by rw [e1, List.append_assoc, ht0, ← ha]; simp
      have hfault : loopEnd e depth fn b als text = .fault (.stop (s ++ t0) m) := by rw [hloop, hx]; rfl
      -- the error depends on the first unread rune only
      have same : ∀ r, r.head? = (s ++ t0).head? →
          (LoopEnd.fault (.stop r m)).close fn (before ++ a ++ r) = .err err := by
        intro r hr
        rw [← hcl]
        show (LoopEnd.fault (.stop r m)).close fn (before ++ a ++ r) = (LoopEnd.fault (.stop (s ++ t0) m)).close fn text
        rw [htext, close_fault, close_fault]
        simp only [Fault.text]
        rw [place_of e2 ha10, place_of e2 ha10, hr]
      refine ⟨before, line, after, e1, ⟨lines, e3, hae, hfine, ?_⟩, .inl ?_⟩
      · intro after' h1 h2
        obtain ⟨t, ht, hl⟩ := hwith after' h1 h2
        rw [← same (s ++ t) (hrest after' h1 h2 t ht)]
        have hc : before ++ line ++ after' = before ++ a ++ (s ++ t) := by rw [List.append_assoc, ht, ← ha]; simp
        show (loopEnd e depth fn b als (before ++ line ++ after')).close _ _ = _
        rw [← hc]
        congr 1
        rw [List.append_assoc, whole, ht, hl, hx]
        rfl
      · have hpl := place_of (rest := s ++ t0) e2 ha10
        rw [← htext] at hpl
        refine ⟨a, s ++ t0, (placeOf text (s ++ t0)).1, (placeOf text (s ++ t0)).2, m, by rw [ht0, ← ha]; simp, hal, ?_, ?_, ?_, ?_⟩
        · cases hcl
          simp [errorAt, parsingFailure, Fault.behind, Fault.text]
        · intro hh
          rw [hpl, if_neg hh]
          exact ⟨rfl, rfl⟩
        · intro hh
          rw [hpl, if_pos hh]
          exact ⟨rfl, rfl⟩
        · intro c r r' hr
          rw [← same (c :: r') (by rw [hr]; rfl)]
          show (loopEnd e depth fn b als (before ++ a ++ c :: r')).close _ _ = _
          rw [htext, hr] at hfault
          congr 1
          exact readLoop_look e fn (readLedger e depth) c r r' m _ _ b als (before ++ a) (by omega) hfault

/-! ## An unbalanced transaction -/

theorem calls_name (cs : List Call) : ∀ (b b' : Builder), b.calls cs = some b' →
    (b'.currDate, b'.currPayee) = ((issued b cs).getLast?).getD (b.currDate, b.currPayee) := by
  induction cs with
  | nil => intro b b' h; cases h; rfl
  | cons c cs ih =>
    intro b b' h
    unfold Builder.calls at h
    unfold issued
    cases hc : b.call c with
    | none => rw [hc] at h; cases h
    | some b1 =>
      rw [hc] at h
      have := ih b1 b' h
      cases c with
      | newTransaction d p n =>
        simp only [List.getLast?_cons, Option.getD_some]
        rw [this]
      | addPosting a c v n => cases hc; exact this
      | addPrice d u c v => cases hc; exact this

theorem readStep_txn (e : Env) (b : Builder) (als : Aliases) {t : TxnLine} (h : t.Valid) (rest : List Nat)
    (hb : b.newTransaction t.date.code t.payee (t.note.note.getD []) = none) :
    readStep e b als (t.text ++ 10 :: rest) = .fault (.panic (unbalancedMsg (e.ord b) b)) := by
  have hr := txnLine_read h rest
  obtain ⟨c, x, hx, hc⟩ : ∃ c x, t.text ++ 10 :: rest = c :: x ∧ isDigit c = true := by
    have h1 := h.day.lens.1
    have h2 := h.day.digits
    unfold TxnLine.text DayText.text
    cases hy : t.day.ys with
    | nil => rw [hy] at h1; simp at h1
    | cons c x => exact ⟨c, _, rfl, h2 c (by simp [hy])⟩
  have hcc : 48 ≤ c ∧ c ≤ 57 := by simpa [isDigit] using hc
  have hws : consumeWS (t.text ++ 10 :: rest) = t.text ++ 10 :: rest := by
    rw [hx]
    unfold consumeWS
    rw [List.dropWhile_cons_of_neg (by simp [(digit_facts hc).1])]
  have hch : Reader.ch (t.text ++ 10 :: rest) = c := by rw [hx]; rfl
  rw [← opt_transaction] at hr
  unfold readStep
  simp only [hws, hch]
  rw [if_neg (by omega), if_pos trivial, if_neg (by omega), if_neg (by omega), if_pos hc]
  cases hy : P.transaction.run (t.text ++ 10 :: rest) with
  | error f => rw [hy] at hr; cases hr
  | ok y =>
    rw [hy] at hr
    simp only [opt_ok, Option.map_some, Option.some.injEq, Prod.mk.injEq] at hr
    obtain ⟨h1, _⟩ := hr
    obtain ⟨y1, y2⟩ := y
    simp only at h1 ⊢
    rw [h1]
    simp only
    rw [hb]

/-- C128 (b): a transaction that does not balance is reported when the next one begins: the error says under which date and payee it is filed,
and how much is left over in one of its currencies. -/
theorem c128_unbalanced {e : Env} (he : e.Ok) (hl : PlainLetters e) {fs : Str → Option (List FileLine)} (hd : OnDisk e fs) (depth : Nat) (f : Str)
    (ls : List FileLine) (hv : ∀ l ∈ ls, l.Valid ∧ ∀ sp q g, l = .incl sp q g → (fs (e.join f g)).isSome = true)
    (b : Builder) (als : Aliases) (hok : saysOf e depth f Builder.new [] (fileText ls) = .ok b als)
    (t : TxnLine) (ht : t.Valid) (after : List Nat) :
    ∃ cs names, FileSays fs e.join f [] [] ls cs ∧ FiledAs [] cs names ∧
      (¬ SegBalanced (openAmounts cs) → ∃ ccy left, left = net ccy (openAmounts cs) ∧ left ≠ 0 ∧
        saysOf e depth f Builder.new [] (fileText ls ++ t.text ++ 10 :: after) =
          .err (errorIn f (unbalancedIn (names.getLast?.getD (-1, [])).1 (names.getLast?.getD (-1, [])).2 ccy left))) := by
  have hloop : loopEnd e depth f Builder.new [] (fileText ls) = .ok b als := by
    have hok : (loopEnd e depth f Builder.new [] (fileText ls)).close f (fileText ls) = .ok b als := hok
    cases hx : loopEnd e depth f Builder.new [] (fileText ls) with
    | ok b' als' => rw [hx] at hok; cases hok; rfl
    | _ => rw [hx] at hok; cases hok
  have hread : readText e depth f Builder.new [] (fileText ls) = .ok b als := by
    unfold readText
    rw [← readLoop_plain e f (readLedger e depth) (parseFileLocal e depth) (readLedger_plain e depth)]
    unfold loopEnd at hloop
    rw [hloop]
    rfl
  obtain ⟨cs, hsay, hcs⟩ := read_sound he hl hd depth ls f [] Builder.new [] b als hv rfl hread
  refine ⟨cs, issued Builder.new cs, hsay, filedAs_aux cs _ b [] seenInv_new hcs, fun hun => ?_⟩
  have hname := calls_name cs _ b hcs
  obtain ⟨_, hopen⟩ := open_balances he hcs
  have hnone : b.newTransaction t.date.code t.payee (t.note.note.getD []) = none := by
    obtain ⟨cur, hcur⟩ : ∃ cur, (segments [] cs).getLast? = some cur := by
      cases h : (segments [] cs).getLast? with
      | none => exact absurd (List.getLast?_eq_none_iff.1 h) (segs_ne_nil _ _)
      | some x => exact ⟨x, rfl⟩
    have hinv : OpenInv b cur := (calls_iff cs Builder.new [] openInv_new).2 b hcs cur hcur
    have ho : openAmounts cs = cur := by unfold openAmounts; rw [hcur]; rfl
    cases hx : b.newTransaction t.date.code t.payee (t.note.note.getD []) with
    | none => rfl
    | some b' => exact absurd ((newTransaction_iff hinv _ _ _).1 ⟨b', hx⟩) (by rw [← ho]; exact hun)
  have h0 : 0 ∉ fileText ls := by
    unfold fileText
    intro h
    obtain ⟨l, h1, h2⟩ := List.mem_flatMap.1 h
    have := fileLine_no0 (hv l h1).1
    simp [this] at h2
  have hlines : Lines (fileText ls) := by
    unfold fileText
    rcases List.eq_nil_or_concat ls with h | ⟨x, l, h⟩
    · subst h; exact .inl rfl
    · subst h; right; exact ⟨(x.flatMap fun l => l.text ++ [10]) ++ l.text, by simp⟩
  have hstep := readStep_txn e b als ht after hnone
  have hch : Reader.ch (t.text ++ 10 :: after) ≠ 0 := by
    have := fileLine_no0 (l := .txn t) ht
    have h2 := ch_of_no0 this
    rw [show t.text ++ 10 :: after = (t.text ++ [10]) ++ after by simp, ch_app (by simp)]
    exact h2
  have hend : loopEnd e depth f b als (t.text ++ 10 :: after) = .fault (.panic (unbalancedMsg (e.ord b) b)) := by
    unfold loopEnd readLoop
    rw [if_neg hch, hstep]
  have hfull : saysOf e depth f Builder.new [] (fileText ls ++ t.text ++ 10 :: after) = .err (errorIn f (unbalancedMsg (e.ord b) b)) := by
    show (loopEnd e depth f Builder.new [] (fileText ls ++ t.text ++ 10 :: after)).close _ _ = _
    rw [List.append_assoc, loopEnd_append (hl.space 10 (by decide)) depth f _ _ h0 hlines, hloop]
    show (loopEnd e depth f b als (t.text ++ 10 :: after)).close _ _ = _
    rw [hend]
    rfl
  cases hf : (e.ord b).find? fun kv => decide (kv.2 ≠ 0) with
  | none =>
    exfalso
    apply hun
    intro c
    by_contra hc
    have := (hopen c _).2 ⟨hc, rfl⟩
    simp only [List.mem_map, List.mem_filter] at this
    obtain ⟨kv, ⟨h1, h2⟩, _⟩ := this
    exact (List.find?_eq_none.1 hf) kv h1 h2
  | some kv =>
    have h2 := List.find?_some hf
    have h1 := List.mem_of_find?_eq_some hf
    have h3 := (hopen kv.1 (-kv.2)).1 (List.mem_map.2 ⟨kv, List.mem_filter.2 ⟨h1, h2⟩, rfl⟩)
    refine ⟨kv.1, kv.2, by have := h3.2; linarith, by simpa using h2, ?_⟩
    rw [hfull]
    unfold unbalancedMsg
    rw [hf]
    have hn : (issued Builder.new cs).getLast?.getD (-1, []) = (b.currDate, b.currPayee) := hname.symm
    rw [hn]
    simp [unbalancedIn, ratString]

/-! ## Witnesses -/

def errText (s : Str) : Env := demoEnv [(b!"f", s)]

/-- A stop within a line. -/
example : readLedger (errText b!"; first\n2020/01/02 shop\n A 5 EUR\n B\nP 2020-01\n") 1 Builder.new [] b!"f" matches .err _ := by decide +kernel

def ReadEnd.errIs (r : ReadEnd) (s : Str) : Bool :=
  match r with
  | .err m => m == s
  | _ => false

theorem errIs_eq {r : ReadEnd} {s : Str} (h : r.errIs s = true) : r = .err s := by
  cases r with
  | err m => unfold ReadEnd.errIs at h; simp only [beq_iff_eq] at h; rw [h]
  | _ => cases h

example : (readLedger (errText b!"; first\n2020/01/02 shop\n A 5 EUR\n B\nP 2020-01\n") 1 Builder.new [] b!"f").errIs
    b!"parsing failure: f: 5:7: expected '/', got '-'" = true := by decide +kernel

def shortDay : Str := b!"2020/01\n"

theorem shortDay_err : readLedger (errText shortDay) 1 Builder.new [] b!"f" = .err (b!"parsing failure: f: 2:0: expected '/', got '\n'") :=
  errIs_eq (by decide +kernel)

/-- C128: the claim that the row named is that of the refused line fails: a line that ends too early is reported as the next row, column 0. -/
theorem c128_row_fails : ¬ ∀ (e : Env), e.Ok → e.letter 10 = false → ∀ (depth : Nat) (fn : Str) (b : Builder) (als : Aliases)
    (before line after : List Nat) (err why : Str) (row col : Nat), RefusedAt e depth fn b als before line after err → err = errorAt fn row col why →
    row = before.count 10 + 1 := by
  intro h
  have hx := shortDay_err
  obtain ⟨before, line, after, h1, h2, _⟩ := c128_place_partial (errText shortDay) (demoEnv_ok _) rfl 0 b!"f" Builder.new [] shortDay rfl (by decide) _ hx
  have hb : before = [] := by
    by_contra hne
    obtain ⟨x, hx'⟩ := ((completeLines_iff before).1 h2.lines).resolve_left hne
    have hlen : before = shortDay := by
      have h3 : shortDay = b!"2020/01" ++ [10] := by decide
      rw [hx'] at h1 ⊢
      rw [h3] at h1 ⊢
      have h5 : x = b!"2020/01" := by
        by_contra hxne
        have h6 : x ++ [10] ++ (line ++ after) = b!"2020/01" ++ [10] := by rw [h1]; simp
        rcases List.eq_nil_or_concat (line ++ after) with hz | ⟨z, c, hz⟩
        · rw [hz, List.append_nil] at h6
          exact hxne (List.append_inj' h6 rfl).1
        · rw [hz, List.concat_eq_append, ← List.append_assoc] at h6
          have h7 := (List.append_inj' h6 rfl).1
          have : 10 ∈ b!"2020/01" := by rw [← h7]; simp
          revert this
          decide
      rw [h5]
    obtain ⟨b', als', h4⟩ := h2.fine
    rw [hlen] at h4
    have h5 : (saysOf (errText shortDay) 0 b!"f" Builder.new [] shortDay) = .err _ := hx
    rw [h5] at h4
    cases h4
  have := h (errText shortDay) (demoEnv_ok _) rfl 0 b!"f" Builder.new [] before line after _ b!"expected '/', got '\n'" 2 0 h2 (by decide +kernel)
  rw [hb] at this
  cases this

def unbalancedFile : Str := b!"2020/01/01 x\n A 5 EUR\n2020/01/02 y\n"

theorem unbalancedFile_err : readLedger (errText unbalancedFile) 1 Builder.new [] b!"f" =
    .err (b!"parsing failure: f: In transaction (20200101 x) ccy EUR has balance of 5/1!") := errIs_eq (by decide +kernel)

theorem natDec_head (n : Nat) : ∃ c r, natDec n = c :: r ∧ isDigit c = true := by
  have h := isDigit_natDec n
  cases hn : natDec n with
  | nil => exact absurd hn (natDec_ne_nil n)
  | cons c r => exact ⟨c, r, rfl, h c (by rw [hn]; simp)⟩

/-- C128: the claim that every error has a place fails: that of an unbalanced transaction has none. -/
theorem c128_place_fails : ¬ ∀ (e : Env), e.Ok → e.letter 10 = false → ∀ (depth : Nat) (fn : Str) (b : Builder) (als : Aliases) (text : List Nat)
    (err : Str), e.files fn = some text → 0 ∉ text → readLedger e (depth + 1) b als fn = .err err →
    (∃ row col why, err = errorAt fn row col why) ∨ ∃ g b' als', g <:+: text ∧ readLedger e depth b' als' (e.join fn g) = .err err := by
  intro h
  rcases h (errText unbalancedFile) (demoEnv_ok _) rfl 0 b!"f" Builder.new [] unbalancedFile _ rfl (by decide) unbalancedFile_err with ⟨row, col, why, hw⟩ | ⟨g, b', als', _, hg⟩
  · unfold errorAt at hw
    obtain ⟨c, r, hc, hd⟩ := natDec_head row
    rw [hc] at hw
    have := congrArg (fun l => l[20]?) hw
    simp at this
    rw [← this] at hd
    revert hd
    decide
  · cases hg

/-- The first lines of `main`, up to the posting that leaves `shop` unbalanced, and then another transaction. -/
example : ∃ b als, saysOf demoDiskEnv 1 b!"main" Builder.new [] (fileText (demoMain.take 6)) = .ok b als := by
  have h : (saysOf demoDiskEnv 1 b!"main" Builder.new [] (fileText (demoMain.take 6)) matches .ok _ _) = true := by decide +kernel
  cases hx : saysOf demoDiskEnv 1 b!"main" Builder.new [] (fileText (demoMain.take 6)) with
  | ok b als => exact ⟨b, als, rfl⟩
  | _ => rw [hx] at h; cases h

example : (saysOf demoDiskEnv 1 b!"main" Builder.new [] (fileText (demoMain.take 6) ++ b!"2020/01/03 bank\n")).errIs
    b!"parsing failure: main: In transaction (20200102 shop) ccy $ has balance of 25/2!" = true := by decide +kernel

/-- The error of an included file names that file and its own row. -/
example : (readLedger (demoEnv [(b!"f", b!";\n;\ninclude g\n"), (b!"g", b!"2020/01/02 x\nfoo\n")]) 2 Builder.new [] b!"f").errIs
    b!"parsing failure: g: 3:0: expected include or alias" = true := by decide +kernel

end Verif
