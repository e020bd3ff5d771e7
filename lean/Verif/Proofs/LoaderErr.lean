import Verif.Model.LoaderErr
import Verif.Proofs.Loader
import Verif.Proofs.Loader2

/-! # The loader with error texts reads what the loader reads -/

namespace Verif

/-! ## The primitives -/

theorem ok_bind {α β : Type} (a : α) (f : α → Except Fault β) : (Except.ok a >>= f) = f a := rfl
theorem error_bind {α β : Type} (x : Fault) (f : α → Except Fault β) : ((Except.error x : Except Fault α) >>= f) = .error x := rfl

theorem run_bind {α β : Type} (x : P α) (f : α → P β) (s : Reader) : (x >>= f).run s = (x.run s >>= fun p => (f p.1).run p.2) := rfl
theorem run_pure {α : Type} (a : α) (s : Reader) : (pure a : P α).run s = .ok (a, s) := rfl
theorem ch_run (s : Reader) : P.ch.run s = .ok (s.ch, s) := rfl
theorem stop_run {α : Type} (m : Str) (s : Reader) : (P.stop m : P α).run s = .error (.stop s m) := rfl
theorem panic_run {α : Type} (m : Str) (s : Reader) : (P.panic m : P α).run s = .error (.panic m) := rfl
theorem ws_run (s : Reader) : P.ws.run s = .ok ((), consumeWS s) := rfl
theorem span_run (p : Nat → Bool) (s : Reader) : (P.span p).run s = .ok (s.takeWhile p, s.dropWhile p) := rfl
theorem digits_run (s : Reader) : P.digits.run s = .ok (((amtLoop false 0 1 s).1, (amtLoop false 0 1 s).2.1), (amtLoop false 0 1 s).2.2) := rfl
theorem skip_run (q : Nat → Bool) (s : Reader) : (P.skip q).run s = .ok (q s.ch, if q s.ch then s.next else s) := by
  show (do let s ← get; if q s.ch then do set s.next; return true else return false : P Bool).run s = _
  cases h : q s.ch <;> simp [h, run_bind, StateT.run_get, StateT.run_set, ok_bind, run_pure] <;> rfl

theorem consume_run {e : Nat} (s : Reader) :
    (P.consume e).run s = if s.ch = e then .ok ((), s.next) else .error (.stop s (expectedGot e s.ch)) := by
  unfold P.consume
  rw [run_bind, skip_run, ok_bind]
  by_cases h : s.ch = e
  · simp [h]; rfl
  · simp [h, run_bind, ch_run, ok_bind, stop_run]

/-- Forgetting what went wrong. -/
def opt {α : Type} (x : Except Fault α) : Option α :=
  match x with
  | .ok a => some a
  | .error _ => none

theorem opt_bind {α β : Type} (x : Except Fault α) (f : α → Except Fault β) : opt (x >>= f) = (opt x).bind fun a => opt (f a) := by
  cases x <;> rfl

theorem opt_ok {α : Type} (a : α) : opt (.ok a) = some a := rfl
theorem opt_error {α : Type} (x : Fault) : opt (.error x : Except Fault α) = none := rfl

theorem opt_consume {e : Nat} (he : e ≠ 0) (s : Reader) : opt ((P.consume e).run s) = (consumeRune e s).map fun r => ((), r) := by
  rw [consume_run]
  cases s with
  | nil =>
    have : Reader.ch [] ≠ e := by unfold Reader.ch; simpa using he.symm
    rw [if_neg this]; rfl
  | cons c s =>
    unfold consumeRune
    simp only
    by_cases h : Reader.ch (c :: s) = e
    · rw [if_pos h, if_pos (show c = e from h)]; rfl
    · rw [if_neg h, if_neg (show ¬ c = e from h)]; rfl

theorem opt_number (lo hi : Nat) (s : Reader) : opt ((P.number lo hi).run s) = parseNumber lo hi s := by
  unfold P.number parseNumber
  rw [run_bind, span_run, ok_bind]
  simp only
  split
  · rfl
  · rfl

theorem opt_triple (w sep : Nat) (hs : sep ≠ 0) (s : Reader) : opt ((P.triple w sep).run s) = parseTriple w sep s := by
  unfold P.triple parseTriple
  simp only [run_bind, opt_bind, opt_number, opt_consume hs, run_pure, opt_ok]
  cases parseNumber 1 w s with
  | none => rfl
  | some x =>
    obtain ⟨a, s⟩ := x
    simp only [Option.bind_some]
    cases consumeRune sep s with
    | none => rfl
    | some s =>
      simp only [Option.map_some, Option.bind_some]
      cases parseNumber 1 2 s with
      | none => rfl
      | some x =>
        obtain ⟨b, s⟩ := x
        simp only [Option.bind_some]
        cases consumeRune sep s with
        | none => rfl
        | some s =>
          simp only [Option.map_some, Option.bind_some]
          cases parseNumber 1 2 s <;> rfl

theorem opt_quoted (s : Reader) : opt (P.quoted.run s) = parseQuotedString s := by
  unfold P.quoted parseQuotedString
  simp only [run_bind, opt_bind, opt_consume (show (34 : Nat) ≠ 0 by decide), run_pure, opt_ok, span_run]
  cases consumeRune 34 s with
  | none => rfl
  | some s =>
    simp only [Option.map_some, Option.bind_some]
    cases consumeRune 34 (s.dropWhile fun c => inLine c && c != 34) <;> rfl

theorem optMinus_skip (s : Reader) : optMinus s = ((s.ch == 45), if s.ch == 45 then s.next else s) := by
  unfold optMinus
  by_cases h : s.ch = 45
  · simp [h]
  · simp [h]

theorem opt_amt (s : Reader) : opt (P.amt.run s) = parseAmt s := by
  unfold P.amt parseAmt
  simp only [run_bind, ws_run, ok_bind, skip_run, digits_run, optMinus_skip]
  cases newRat _ _ <;> rfl

theorem opt_payee (s : Reader) : opt (P.payee.run s) = parsePayee s := by
  unfold P.payee parsePayee
  simp only [run_bind, ws_run, ok_bind, ch_run]
  split
  · simp only [run_bind, opt_bind, opt_quoted, run_pure, opt_ok]
    cases parseQuotedString (consumeWS s) <;> rfl
  · rfl

theorem note_run (s : Reader) : P.note.run s = .ok (parseNote s) := by
  unfold P.note parseNote
  simp only [run_bind, ws_run, ok_bind, skip_run]
  by_cases h : (consumeWS s).ch = 59
  · simp only [h, beq_self_eq_true, if_true, ne_eq, not_true, if_false]; rfl
  · simp only [h, beq_iff_eq, if_false, ne_eq, not_false_iff, if_true]; rfl

theorem opt_transaction (s : Reader) : (opt (P.transaction.run s)).map (fun x => (x.1, skipEOL x.2)) = parseTransaction s := by
  unfold P.transaction parseTransaction parseDate
  simp only [run_bind, opt_bind, opt_triple 4 47 (by decide)]
  cases parseTriple 4 47 s with
  | none => rfl
  | some x =>
    obtain ⟨d, s⟩ := x
    simp only [Option.bind_some, ws_run, opt_ok, skip_run]
    by_cases h : (consumeWS s).ch = 42
    · simp only [h, beq_self_eq_true, if_true, opt_bind, ws_run, opt_ok, Option.bind_some, opt_payee, note_run, run_pure, run_bind]
      cases parsePayee (consumeWS (Reader.next (consumeWS s))) <;> rfl
    · simp only [h, beq_iff_eq, if_false, opt_bind, ws_run, opt_ok, Option.bind_some, opt_payee, note_run, run_pure, run_bind, Bool.false_eq_true]
      cases parsePayee (consumeWS s) <;> rfl

theorem toEOL_run (s : Reader) : P.toEOL.run s = .ok (parseToEOL s) := rfl

theorem account_run (s : Reader) : P.account.run s = .ok (parseAccount s) := by
  unfold P.account parseAccount
  simp only [run_bind, ws_run, ok_bind, skip_run, span_run, run_pure, Bool.or_eq_true, beq_iff_eq]

theorem opt_ccy (s : Reader) : opt (P.ccy.run s) = parseCCY s := by
  unfold P.ccy parseCCY
  simp only [run_bind, ws_run, ok_bind, ch_run]
  split
  · exact opt_quoted _
  · rfl

theorem opt_ccyAmt (s : Reader) : opt (P.ccyAmt.run s) = parseCCYAmt s := by
  unfold P.ccyAmt parseCCYAmt
  simp only [run_bind, ch_run, ok_bind]
  split
  · simp only [run_bind, opt_bind, opt_ccy, opt_amt, run_pure, opt_ok]
    cases parseCCY s with
    | none => rfl
    | some x => obtain ⟨c, s⟩ := x; simp only [Option.bind_some]; cases parseAmt s <;> rfl
  · simp only [run_bind, opt_bind, opt_ccy, opt_amt, run_pure, opt_ok]
    cases parseAmt s with
    | none => rfl
    | some x => obtain ⟨c, s⟩ := x; simp only [Option.bind_some]; cases parseCCY s <;> rfl

theorem opt_price (s : Reader) : (opt (P.price.run s)).map (fun x => (x.1, skipEOL x.2)) = parsePrice s := by
  unfold P.price parsePrice parseDate parseTime
  simp only [run_bind, opt_bind, opt_triple 4 47 (by decide), opt_triple 2 58 (by decide), opt_consume (show (80 : Nat) ≠ 0 by decide), ws_run,
    opt_ok, opt_ccy, opt_ccyAmt, run_pure]
  cases consumeRune 80 s with
  | none => rfl
  | some s =>
    simp only [Option.map_some, Option.bind_some]
    cases parseTriple 4 47 (consumeWS s) with
    | none => rfl
    | some x =>
      obtain ⟨d, s⟩ := x
      simp only [Option.bind_some]
      cases parseTriple 2 58 (consumeWS s) with
      | none => rfl
      | some x =>
        obtain ⟨t, s⟩ := x
        simp only [Option.bind_some]
        cases parseCCY s with
        | none => rfl
        | some x =>
          obtain ⟨u, s⟩ := x
          simp only [Option.bind_some]
          cases parseCCYAmt (consumeWS s) <;> rfl

theorem opt_posting (als : Aliases) (s : Reader) :
    (opt (P.posting.run s)).map (fun x => ((als.resolve x.1.1, x.1.2), skipEOL x.2)) = parsePostingLine als s := by
  unfold P.posting parsePostingLine skipAtPrice
  simp only [run_bind, opt_bind, ws_run, ok_bind, account_run, skip_run, optMinus_skip, opt_ccyAmt, opt_ok, Option.bind_some]
  cases parseCCYAmt _ with
  | none => rfl
  | some x =>
    obtain ⟨⟨c, v⟩, s⟩ := x
    simp only [Option.bind_some]
    by_cases h : (consumeWS s).ch = 64
    · simp only [h, beq_self_eq_true, if_true, run_bind, opt_bind, ws_run, opt_ok, Option.bind_some, opt_ccyAmt, note_run, run_pure]
      cases parseCCYAmt (consumeWS (Reader.next (consumeWS s))) <;> rfl
    · simp only [h, beq_iff_eq, if_false, opt_bind, opt_ok, Option.bind_some, note_run, run_pure, run_bind, Bool.false_eq_true]
      rfl

theorem identifier_run (e : Env) (s : Reader) : (P.identifier e).run s = .ok (parseIdentifier e s) := rfl

theorem opt_alias (s : Reader) : opt (P.alias'.run s) = parseAlias s := by
  unfold P.alias' parseAlias
  simp only [run_bind, ws_run, ok_bind, account_run, skip_run]
  generalize consumeWS (parseAccount s).2 = r
  have hc := opt_consume (e := 61) (by decide) r
  rw [consume_run] at hc
  by_cases h : r.ch = 61
  · rw [if_pos h] at hc
    have hr : consumeRune 61 r = some r.next := by
      cases hx : consumeRune 61 r with
      | none => rw [hx] at hc; cases hc
      | some y => rw [hx] at hc; cases hc; rfl
    rw [hr]
    simp only [h, beq_self_eq_true, if_true, run_bind, ws_run, ok_bind, account_run]
    by_cases hl : (parseAccount (consumeWS (Reader.next r))).1 = []
    · rw [if_pos hl, if_pos hl]; rfl
    · rw [if_neg hl, if_neg hl]; rfl
  · rw [if_neg h] at hc
    have hr : consumeRune 61 r = none := by
      cases hx : consumeRune 61 r with
      | none => rfl
      | some y => rw [hx] at hc; cases hc
    rw [hr]
    simp only [h, beq_iff_eq, if_false]
    rfl

theorem opt_unquote (f : Str) (s : Reader) : opt ((P.unquote f).run s) = (unquote f).map fun x => (x, s) := by
  unfold P.unquote unquote
  cases f with
  | nil => rfl
  | cons c r =>
    simp only
    split
    · cases r <;> rfl
    · rfl

theorem opt_command (e : Env) (s : Reader) : opt ((P.command e).run s) =
    if (parseIdentifier e s).1 = b!"INCLUDE" then
      (unquote (parseToEOL (parseIdentifier e s).2).1).map fun f => (.incl f, (parseToEOL (parseIdentifier e s).2).2)
    else if (parseIdentifier e s).1 = b!"ALIAS" then (parseAlias (parseIdentifier e s).2).map fun x => (.short x.1, x.2)
    else none := by
  unfold P.command
  rw [run_bind, identifier_run, ok_bind]
  split
  · rw [run_bind, toEOL_run, ok_bind, run_bind, opt_bind, opt_unquote]
    cases unquote (parseToEOL (parseIdentifier e s).2).1 <;> rfl
  · split
    · rw [run_bind, opt_bind, opt_alias]
      cases parseAlias (parseIdentifier e s).2 <;> rfl
    · rfl

/-- The step without the texts. -/
def RStep.plain : RStep → Step
  | .go b als s => .go b als s
  | .incl f s => .incl f s
  | .fault _ => .stop

theorem readStep_plain (e : Env) (b : Builder) (als : Aliases) (s : Reader) : (readStep e b als s).plain = parseStep e b als s := by
  unfold readStep parseStep
  simp only
  split
  · rfl
  · split
    · split
      · rfl
      · split
        · rw [← opt_price]
          cases P.price.run (consumeWS s) with
          | error f => rfl
          | ok x => rfl
        · split
          · rw [← opt_transaction]
            cases P.transaction.run (consumeWS s) with
            | error f => rfl
            | ok x =>
              obtain ⟨⟨d, p, n⟩, r⟩ := x
              simp only [opt_ok, Option.map_some]
              cases b.newTransaction d p n <;> rfl
          · have hc := opt_command e (consumeWS s)
            cases hr : (P.command e).run (consumeWS s) with
            | error f =>
              rw [hr, opt_error] at hc
              simp only
              split
              · rename_i hi
                rw [if_pos hi] at hc
                cases hu : unquote (parseToEOL (parseIdentifier e (consumeWS s)).2).1 with
                | none => rfl
                | some y => rw [hu] at hc; cases hc
              · rename_i hi
                rw [if_neg hi] at hc
                split
                · rename_i ha
                  rw [if_pos ha] at hc
                  cases hu : parseAlias (parseIdentifier e (consumeWS s)).2 with
                  | none => rfl
                  | some y => rw [hu] at hc; cases hc
                · rfl
            | ok x =>
              obtain ⟨cm, r⟩ := x
              rw [hr, opt_ok] at hc
              by_cases hi : (parseIdentifier e (consumeWS s)).1 = b!"INCLUDE"
              · rw [if_pos hi] at hc ⊢
                cases hu : unquote (parseToEOL (parseIdentifier e (consumeWS s)).2).1 with
                | none => rw [hu] at hc; cases hc
                | some y => rw [hu] at hc; cases hc; rfl
              · rw [if_neg hi] at hc ⊢
                by_cases ha : (parseIdentifier e (consumeWS s)).1 = b!"ALIAS"
                · rw [if_pos ha] at hc ⊢
                  cases hu : parseAlias (parseIdentifier e (consumeWS s)).2 with
                  | none => rw [hu] at hc; cases hc
                  | some y => rw [hu] at hc; cases hc; rfl
                · rw [if_neg ha] at hc; cases hc
    · rw [← opt_posting]
      cases P.posting.run (consumeWS s) with
      | error f => rfl
      | ok x => rfl

/-- The end without the texts. -/
def ReadEnd.plain : ReadEnd → Outcome
  | .ok b als => .ok b als
  | .err _ => .err
  | .fatal => .fatal
  | .running => .running

def LoopEnd.plain : LoopEnd → Outcome
  | .ok b als => .ok b als
  | .fault _ => .err
  | .err _ => .err
  | .fatal => .fatal
  | .running => .running

theorem readLoop_plain (e : Env) (fn : Str) (inc : Builder → Aliases → Str → ReadEnd) (inc2 : Builder → Aliases → Str → Outcome)
    (hi : ∀ b als f, (inc b als f).plain = inc2 b als f) : ∀ (fuel : Nat) (b : Builder) (als : Aliases) (s : Reader),
    (readLoop e fn inc fuel b als s).plain = parseLoop e fn inc2 fuel b als s := by
  intro fuel
  induction fuel with
  | zero => intros; rfl
  | succ fuel ih =>
    intro b als s
    unfold readLoop parseLoop
    split
    · rfl
    · rw [← readStep_plain]
      cases readStep e b als s with
      | go b als s => exact ih _ _ _
      | fault f => rfl
      | incl f s =>
        simp only [RStep.plain]
        rw [← hi]
        cases inc b als (e.join fn f) with
        | ok b als => exact ih _ _ _
        | _ => rfl

/-- Both models read the same. -/
theorem readLedger_plain (e : Env) : ∀ (depth : Nat) (b : Builder) (als : Aliases) (fn : Str),
    (readLedger e depth b als fn).plain = parseFileLocal e depth b als fn := by
  intro depth
  induction depth with
  | zero => intros; rfl
  | succ depth ih =>
    intro b als fn
    unfold readLedger parseFileLocal
    cases e.files fn with
    | none => rfl
    | some content =>
      simp only
      rw [← readLoop_plain e fn (readLedger e depth) (parseFileLocal e depth) ih]
      cases readLoop e fn (readLedger e depth) (content.length + 1) b als content <;> rfl

end Verif
