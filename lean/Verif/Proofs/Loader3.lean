import Verif.Props.Loader

/-! # The loader: reading well-formed lines -/

namespace Verif
open Spec

theorem span_exact {p : Nat → Bool} {x r : List Nat} (hx : ∀ c ∈ x, p c = true) (hr : ∀ c, r.head? = some c → p c = false) :
    (x ++ r).takeWhile p = x ∧ (x ++ r).dropWhile p = r := by
  induction x with
  | nil =>
    cases r with
    | nil => simp
    | cons c r => have := hr c rfl; simp [this]
  | cons c x ih =>
    have hc := hx c (by simp)
    have := ih fun c hc => hx c (by simp [hc])
    simp [hc, this.1, this.2]

theorem ws_exact {bl x : List Nat} (hb : ∀ c ∈ bl, isBlank c = true) (hx : ∀ c, x.head? = some c → isBlank c = false) :
    consumeWS (bl ++ x) = x := (span_exact hb hx).2

theorem digit_facts {c : Nat} (h : isDigit c = true) : isBlank c = false ∧ c ≠ 45 ∧ c ≠ 34 ∧ isCCYRune c = false ∧ c ≠ 64 ∧ c ≠ 59 := by
  have : 48 ≤ c ∧ c ≤ 57 := by simpa [isDigit] using h
  refine ⟨?_, by omega, by omega, by simp [isCCYRune, h], by omega, by omega⟩
  simp only [isBlank, isSpace, Bool.and_eq_false_iff]
  left
  simp only [Bool.or_eq_false_iff, decide_eq_false_iff_not, beq_eq_false_iff_ne]
  omega

theorem ccyRune_facts {c : Nat} (h : isCCYRune c = true) :
    c ≠ 0 ∧ c ≠ 59 ∧ c ≠ 64 ∧ c ≠ 10 ∧ isBlank c = false ∧ c ≠ 45 ∧ c ≠ 46 ∧ isDigit c = false := by
  simp only [isCCYRune, Bool.and_eq_true, bne_iff_ne, ne_eq, Bool.not_eq_true'] at h
  obtain ⟨⟨⟨⟨⟨⟨⟨h1, h2⟩, h3⟩, h4⟩, h5⟩, h6⟩, h7⟩, h8⟩ := h
  exact ⟨h1, h2, h3, h4, by simp [isBlank, h5], h6, h7, h8⟩

theorem blank_not_ccy {c : Nat} (h : isBlank c = true) : isCCYRune c = false ∧ isDigit c = false ∧ c ≠ 44 ∧ c ≠ 46 ∧ c ≠ 34 ∧ c ≠ 45 := by
  have hs : isSpace c = true := by simp only [isBlank, Bool.and_eq_true] at h; exact h.1
  refine ⟨by simp [isCCYRune, hs], ?_, ?_, ?_, ?_, ?_⟩
  · cases hd : isDigit c with
    | false => rfl
    | true => have := (digit_facts hd).1; rw [h] at this; cases this
  all_goals (rintro rfl; revert hs; decide)

theorem parseQuoted_exact {q r : List Nat} (hq : ∀ c ∈ q, inLine c = true ∧ c ≠ 34) :
    parseQuotedString (34 :: q ++ 34 :: r) = some (q, r) := by
  have h := span_exact (p := fun c => inLine c && c != 34) (x := q) (r := 34 :: r)
    (fun c hc => by simp [hq c hc]) (by simp)
  simp only [List.cons_append, parseQuotedString, consumeRune, if_true, h.1, h.2]

/-- Reading a currency as the line spells it. -/
theorem parseCCY_exact {l : PostLine} (hv : l.Valid) {bl r : List Nat} (hb : ∀ c ∈ bl, isBlank c = true)
    (hr : l.quoted = false → ∀ c, r.head? = some c → isCCYRune c = false) :
    parseCCY (bl ++ (l.ccyText ++ r)) = some (l.ccy, r) := by
  unfold parseCCY PostLine.ccyText
  cases hq : l.quoted with
  | true =>
    simp only [if_true]
    rw [ws_exact hb (by intro c hc; simp at hc; rw [← hc]; decide)]
    have := parseQuoted_exact (r := r) (hv.quote hq)
    rw [if_pos (by rfl)]
    simpa using this
  | false =>
    simp only [Bool.false_eq_true, if_false]
    obtain ⟨c, cs, hc⟩ := List.exists_cons_of_ne_nil hv.ccy
    have h1 := ccyRune_facts (hv.plain hq c (by rw [hc]; simp))
    rw [ws_exact hb (by intro c' hc'; rw [hc] at hc'; simp at hc'; rw [← hc']; exact h1.2.2.2.2.1)]
    rw [if_neg (by rw [hc]; exact (hv.start hq c cs hc).1)]
    have := span_exact (p := isCCYRune) (hv.plain hq) (hr hq)
    rw [this.1, this.2]

theorem numeral_head {n : Numeral} (h : ∃ c r, n.ip = c :: r ∧ isDigit c = true) (r : List Nat) :
    ∃ c, (n.text ++ r).head? = some c ∧ isBlank c = false ∧ c ≠ 34 ∧ isCCYRune c = false ∧ (n.neg = false → c ≠ 45) := by
  obtain ⟨c, ip, h1, h2⟩ := h
  unfold Numeral.text
  cases hn : n.neg with
  | true => exact ⟨45, by simp, by decide, by decide, by decide, by simp⟩
  | false =>
    have := digit_facts h2
    exact ⟨c, by simp [h1], this.1, this.2.2.1, this.2.2.2.1, fun _ => this.2.1⟩

/-- Reading currency and amount as the line spells them, in either order. -/
theorem parseCCYAmt_exact {l : PostLine} (hv : l.Valid) (n : Numeral) (hn : n.ip = l.num.ip ∧ n.frac = l.num.frac) {r : List Nat}
    (hr : ∀ c, r.head? = some c → isBlank c = true ∨ c = 10) :
    parseCCYAmt ((if l.ccyFirst then l.ccyText ++ l.sp2 ++ n.text else n.text ++ l.sp2 ++ l.ccyText) ++ r) =
      some ((l.ccy, n.value), r) := by
  have nfd : n.fracDigits = l.num.fracDigits := by simp [Numeral.fracDigits, hn.2]
  have nmant : n.mantissa = l.num.mantissa := by simp [Numeral.mantissa, nfd, hn.1]
  have nv : n.Valid := by unfold Numeral.Valid; rw [hn.1, hn.2]; exact hv.num.1
  have ndig : ∃ c r, n.ip = c :: r ∧ isDigit c = true := by rw [hn.1]; exact hv.digit
  have hb2 : ∀ c ∈ l.sp2, isBlank c = true := fun c hc => hv.blanks c (by simp [hc])
  have nne : n.ip ≠ [] ∨ n.frac ≠ none := by
    obtain ⟨c, r, h, _⟩ := ndig; left; rw [h]; simp
  have amt := fun bl (hb : ∀ c ∈ bl, isBlank c = true) r' (hr' : n.EndsAt r') =>
    c54_amount_exact_partial bl hb n nv nne (by rw [nmant]; exact hv.num.2.1) (by rw [nfd]; exact hv.num.2.2) r' hr'
  have rend : n.EndsAt r := by
    intro c hc
    rcases hr c hc with h | h
    · obtain ⟨_, h2, h3, h4, _⟩ := blank_not_ccy h; exact ⟨h2, h3, fun _ => h4⟩
    · subst h; exact ⟨by decide, by decide, fun _ => by decide⟩
  unfold parseCCYAmt
  cases hf : l.ccyFirst with
  | true =>
    simp only [if_true]
    have hstart : Reader.ch (l.ccyText ++ l.sp2 ++ n.text ++ r) = 34 ∨ isCCYRune (Reader.ch (l.ccyText ++ l.sp2 ++ n.text ++ r)) = true := by
      unfold PostLine.ccyText
      cases hq : l.quoted with
      | true => left; rfl
      | false =>
        right
        obtain ⟨c, cs, hc⟩ := List.exists_cons_of_ne_nil hv.ccy
        simp only [Bool.false_eq_true, if_false, hc, List.cons_append]
        exact hv.plain hq c (by rw [hc]; simp)
    rw [if_pos hstart]
    have h1 := parseCCY_exact hv (bl := []) (r := l.sp2 ++ n.text ++ r) (by simp) (by
      intro _ c hc
      cases hsp : l.sp2 with
      | nil =>
        obtain ⟨c', h1, _, _, h4, _⟩ := numeral_head ndig r
        rw [hsp] at hc
        simp only [List.nil_append] at hc
        rw [h1] at hc; cases hc; exact h4
      | cons x xs =>
        rw [hsp] at hc
        simp at hc
        subst hc
        exact (blank_not_ccy (hb2 x (by rw [hsp]; simp))).1)
    simp only [List.nil_append, ← List.append_assoc] at h1
    rw [h1]
    simp only
    rw [amt l.sp2 hb2 r rend]
  | false =>
    simp only [Bool.false_eq_true, if_false]
    obtain ⟨c, h1, h2, h3, h4, _⟩ := numeral_head ndig (l.sp2 ++ l.ccyText ++ r)
    have hch : Reader.ch (n.text ++ l.sp2 ++ l.ccyText ++ r) = c := by
      unfold Reader.ch
      rw [List.headD_eq_head?_getD]
      have : n.text ++ l.sp2 ++ l.ccyText ++ r = n.text ++ (l.sp2 ++ l.ccyText ++ r) := by simp
      rw [this, h1]; rfl
    rw [hch, if_neg (by rw [h4]; simp [h3])]
    have h5 := amt [] (by simp) (l.sp2 ++ l.ccyText ++ r) (by
      intro c hc
      cases hsp : l.sp2 with
      | cons x xs =>
        rw [hsp] at hc
        simp at hc
        subst hc
        obtain ⟨_, h2, h3, h4, _⟩ := blank_not_ccy (hb2 x (by rw [hsp]; simp))
        exact ⟨h2, h3, fun _ => h4⟩
      | nil =>
        rw [hsp] at hc
        unfold PostLine.ccyText at hc
        cases hq : l.quoted with
        | true =>
          rw [hq] at hc
          simp at hc
          subst hc
          exact ⟨by decide, by decide, fun _ => by decide⟩
        | false =>
          obtain ⟨x, xs, hx⟩ := List.exists_cons_of_ne_nil hv.ccy
          rw [hq, hx] at hc
          simp at hc
          subst hc
          have := ccyRune_facts (hv.plain hq x (by rw [hx]; simp))
          exact ⟨this.2.2.2.2.2.2.2, (hv.start hq x xs hx).2 hf hsp, fun _ => this.2.2.2.2.2.2.1⟩)
    simp only [List.nil_append, ← List.append_assoc] at h5
    rw [h5]
    simp only
    have h6 := parseCCY_exact hv (bl := l.sp2) (r := r) hb2 (by
      intro _ c hc
      rcases hr c hc with h | h
      · exact (blank_not_ccy h).1
      · subst h; decide)
    rw [List.append_assoc, h6]

theorem parseNote_exact {l : PostLine} (hv : l.Valid) (rest : List Nat) :
    parseNote (l.noteText ++ 10 :: rest) = (l.note.getD [], 10 :: rest) := by
  have hb3 : ∀ c ∈ l.sp3, isBlank c = true := fun c hc => hv.blanks c (by simp [hc])
  have hb4 : ∀ c ∈ l.sp4, isBlank c = true := fun c hc => hv.blanks c (by simp [hc])
  unfold parseNote PostLine.noteText
  cases hn : l.note with
  | none =>
    simp only
    rw [ws_exact hb3 (by intro c hc; simp at hc; rw [← hc]; decide)]
    rw [if_pos (by simp [Reader.ch])]
    rfl
  | some n =>
    obtain ⟨h1, h2⟩ := hv.note n hn
    simp only [List.append_assoc, List.cons_append]
    rw [ws_exact hb3 (by intro c hc; simp at hc; rw [← hc]; decide)]
    rw [if_neg (by simp [Reader.ch])]
    have h3 : consumeWS (l.sp4 ++ (n ++ 10 :: rest)) = n ++ 10 :: rest := by
      apply ws_exact hb4
      intro c hc
      cases n with
      | nil => simp at hc; subst hc; decide
      | cons x xs => simp at hc; subst hc; exact h2 x xs rfl
    simp only [Reader.next, List.tail_cons, h3]
    have := span_exact (p := inLine) (x := n) (r := 10 :: rest) h1 (by simp; decide)
    rw [this.1, this.2]; rfl

theorem noteText_head {l : PostLine} (hv : l.Valid) (rest : List Nat)
    (h : ∀ n, l.note = some n → l.sp3 ≠ []) :
    ∀ c, (l.noteText ++ 10 :: rest).head? = some c → isBlank c = true ∨ c = 10 := by
  intro c hc
  have hb3 : ∀ c ∈ l.sp3, isBlank c = true := fun c hc => hv.blanks c (by simp [hc])
  unfold PostLine.noteText at hc
  cases hs : l.sp3 with
  | cons x xs =>
    left
    have hx := hb3 x (by rw [hs]; simp)
    cases hn : l.note with
    | none => rw [hn, hs] at hc; simp at hc; subst hc; exact hx
    | some n => rw [hn, hs] at hc; simp at hc; subst hc; exact hx
  | nil =>
    right
    cases hn : l.note with
    | none => rw [hn, hs] at hc; simp at hc; exact hc.symm
    | some n => exact absurd hs (h n hn)

theorem acct_facts {c : Nat} (h : isAcctRune c = true) : isBlank c = false ∧ c ≠ 33 ∧ c ≠ 91 ∧ c ≠ 59 ∧ c ≠ 10 ∧ c ≠ 0 := by
  have hc : (97 ≤ c ∧ c ≤ 122) ∨ (65 ≤ c ∧ c ≤ 90) ∨ c = 38 ∨ c = 39 ∨ (48 ≤ c ∧ c ≤ 57) ∨ c = 58 ∨ c = 95 := by
    simp only [isAcctRune, isDigit, Bool.or_eq_true, decide_eq_true_eq, beq_iff_eq, Bool.and_eq_true] at h
    tauto
  refine ⟨?_, by omega, by omega, by omega, by omega, by omega⟩
  simp only [isBlank, isSpace, Bool.and_eq_false_iff]
  left
  simp only [Bool.or_eq_false_iff, decide_eq_false_iff_not, beq_eq_false_iff_ne]
  omega

theorem blank_not_acct {c : Nat} (h : isBlank c = true) : isAcctRune c = false ∧ c ≠ 93 := by
  refine ⟨?_, by rintro rfl; revert h; decide⟩
  cases hd : isAcctRune c with
  | false => rfl
  | true => have := (acct_facts hd).1; rw [h] at this; cases this

/-- Reading an account name followed by a blank or the end of the line. -/
theorem parseAccount_exact {a r : List Nat} (ha : a ≠ []) (hr : ∀ c ∈ a, isAcctRune c = true)
    (hend : ∀ c, r.head? = some c → isBlank c = true ∨ c = 10) : parseAccount (a ++ r) = (a, r) := by
  obtain ⟨x, xs, hx⟩ := List.exists_cons_of_ne_nil ha
  have h1 := acct_facts (hr x (by rw [hx]; simp))
  have hws : consumeWS (a ++ r) = a ++ r := by
    have := ws_exact (bl := []) (x := a ++ r) (by simp) (by intro c hc; rw [hx] at hc; simp at hc; rw [← hc]; exact h1.1)
    simpa using this
  unfold parseAccount
  simp only [hws]
  rw [if_neg (by rw [hx]; simp [Reader.ch]; exact ⟨h1.2.1, h1.2.2.1⟩)]
  have := span_exact (p := isAcctRune) (x := a) (r := r) hr (by
    intro c hc
    rcases hend c hc with h | h
    · exact (blank_not_acct h).1
    · subst h; decide)
  rw [this.1, this.2]
  rw [if_neg]
  cases r with
  | nil => decide
  | cons c r =>
    rcases hend c rfl with h | h
    · exact (blank_not_acct h).2
    · subst h; simp [Reader.ch]

/-- Reading a posting line up to its amount: what follows the amount is left to the note. -/
theorem parsePostingLine_tail (als : Aliases) {l : PostLine} (hv : l.Valid) {tail : List Nat}
    (htail : ∀ c, tail.head? = some c → isBlank c = true ∨ c = 10) :
    parsePostingLine als (l.acct ++ l.sp1 ++ (if l.minus then [45] else []) ++ l.amtText ++ tail) =
      (skipAtPrice (consumeWS tail)).map fun s =>
        ((als.resolve l.acct, l.ccy, l.amount, (parseNote s).1), skipEOL (parseNote s).2) := by
  have hb1 : ∀ c ∈ l.sp1, isBlank c = true := fun c hc => hv.blanks c (by simp [hc])
  obtain ⟨x, xs, hx⟩ := List.exists_cons_of_ne_nil hv.acct.1
  obtain ⟨y, ys, hy⟩ := List.exists_cons_of_ne_nil hv.gap
  have hxf := acct_facts (hv.acct.2 x (by rw [hx]; simp))
  -- first rune of currency and amount
  have hamt : ∃ c, (l.amtText ++ tail).head? = some c ∧ isBlank c = false ∧
      (c = 45 → l.ccyFirst = false ∧ l.num.neg = true) := by
    unfold PostLine.amtText
    cases hf : l.ccyFirst with
    | false =>
      obtain ⟨c, h1, h2, _, _, h5⟩ := numeral_head hv.digit (l.sp2 ++ l.ccyText ++ tail)
      refine ⟨c, ?_, h2, fun h => ⟨rfl, ?_⟩⟩
      · simpa using h1
      · cases hneg : l.num.neg with
        | true => rfl
        | false => exact absurd h (h5 hneg)
    | true =>
      simp only [if_true]
      unfold PostLine.ccyText
      cases hq : l.quoted with
      | true => exact ⟨34, by simp, by decide, by simp⟩
      | false =>
        obtain ⟨c, cs, hc⟩ := List.exists_cons_of_ne_nil hv.ccy
        have := ccyRune_facts (hv.plain hq c (by rw [hc]; simp))
        exact ⟨c, by simp [hc], this.2.2.2.2.1, fun h => absurd h this.2.2.2.2.2.1⟩
  obtain ⟨c0, hc0, hc1, hc2⟩ := hamt
  -- the sign taken by the posting parser, the numeral left over
  have key : ∃ (m : Bool) (n : Numeral), (n.ip = l.num.ip ∧ n.frac = l.num.frac) ∧
      optMinus ((if l.minus then [45] else []) ++ l.amtText ++ tail) =
        (m, (if l.ccyFirst then l.ccyText ++ l.sp2 ++ n.text else n.text ++ l.sp2 ++ l.ccyText) ++ tail) ∧
      (if m then -n.value else n.value) = l.amount := by
    cases hm : l.minus with
    | true =>
      refine ⟨true, l.num, ⟨rfl, rfl⟩, ?_, ?_⟩
      · simp [optMinus, Reader.ch, Reader.next, PostLine.amtText]
      · simp [PostLine.amount, hm]
    | false =>
      by_cases h45 : c0 = 45
      · obtain ⟨hf, hneg⟩ := hc2 h45
        refine ⟨true, ⟨false, l.num.ip, l.num.frac⟩, ⟨rfl, rfl⟩, ?_, ?_⟩
        · simp [optMinus, Reader.ch, Reader.next, PostLine.amtText, hf, Numeral.text, hneg, Numeral.fracText]
        · simp [PostLine.amount, hm, Numeral.value, hneg, Numeral.fracDigits]
      · refine ⟨false, l.num, ⟨rfl, rfl⟩, ?_, ?_⟩
        · simp only [Bool.false_eq_true, if_false, List.nil_append]
          unfold optMinus
          rw [if_neg]
          · rfl
          · unfold Reader.ch
            rw [List.headD_eq_head?_getD, hc0]; exact h45
        · simp [PostLine.amount, hm]
  obtain ⟨m, n, hn1, hn2, hn3⟩ := key
  have hacct : parseAccount (consumeWS (l.acct ++ l.sp1 ++ (if l.minus then [45] else []) ++ l.amtText ++ tail)) =
      (l.acct, l.sp1 ++ ((if l.minus then [45] else []) ++ l.amtText ++ tail)) := by
    have e1 : l.acct ++ l.sp1 ++ (if l.minus then [45] else []) ++ l.amtText ++ tail =
        l.acct ++ (l.sp1 ++ ((if l.minus then [45] else []) ++ l.amtText ++ tail)) := by simp
    rw [e1]
    have hws : ∀ z, consumeWS (l.acct ++ z) = l.acct ++ z := by
      intro z
      have := ws_exact (bl := []) (x := l.acct ++ z) (by simp) (by intro c hc; rw [hx] at hc; simp at hc; rw [← hc]; exact hxf.1)
      simpa using this
    rw [hws]
    exact parseAccount_exact hv.acct.1 hv.acct.2 (by
      intro c hc; rw [hy] at hc; simp at hc; left; rw [← hc]; exact hb1 y (by rw [hy]; simp))
  have hgap : consumeWS (l.sp1 ++ ((if l.minus then [45] else []) ++ l.amtText ++ tail)) =
      (if l.minus then [45] else []) ++ l.amtText ++ tail := by
    apply ws_exact hb1
    intro c hc
    cases hm : l.minus with
    | true => rw [hm] at hc; simp at hc; rw [← hc]; decide
    | false =>
      rw [hm] at hc
      simp only [Bool.false_eq_true, if_false, List.nil_append] at hc
      rw [hc0] at hc; cases hc; exact hc1
  have hca := parseCCYAmt_exact hv n hn1 (r := tail) htail
  unfold parsePostingLine
  simp only [hacct, hgap, hn2, hca, hn3]
  cases skipAtPrice (consumeWS tail) <;> rfl

theorem consumeWS_idem (x : List Nat) : consumeWS (consumeWS x) = consumeWS x := by
  unfold consumeWS
  induction x with
  | nil => rfl
  | cons c x ih =>
    rw [List.dropWhile_cons]
    split
    · exact ih
    · rename_i h; rw [List.dropWhile_cons, if_neg h]

theorem parseNote_ws (x : List Nat) : parseNote (consumeWS x) = parseNote x := by
  unfold parseNote
  rw [consumeWS_idem]

theorem postNote_ws {l : PostLine} (hv : l.Valid) (rest : List Nat) :
    Reader.ch (consumeWS (l.noteText ++ 10 :: rest)) ≠ 64 := by
  have hb3 : ∀ c ∈ l.sp3, isBlank c = true := fun c hc => hv.blanks c (by simp [hc])
  unfold PostLine.noteText
  cases l.note with
  | none =>
    simp only
    rw [ws_exact hb3 (by intro c hc; simp at hc; rw [← hc]; decide)]; simp [Reader.ch]
  | some z =>
    simp only [List.append_assoc, List.cons_append]
    rw [ws_exact hb3 (by intro c hc; simp at hc; rw [← hc]; decide)]; simp [Reader.ch]

/-- Reading a well-formed posting line. -/
theorem parsePostingLine_exact (als : Aliases) {l : PostLine} (hv : l.Valid) (hn : ∀ n, l.note = some n → l.sp3 ≠ [])
    (rest : List Nat) :
    parsePostingLine als (l.acct ++ l.sp1 ++ (if l.minus then [45] else []) ++ l.amtText ++ l.noteText ++ 10 :: rest) =
      some ((als.resolve l.acct, l.ccy, l.amount, l.note.getD []), rest) := by
  have h := parsePostingLine_tail als hv (noteText_head hv rest hn)
  rw [List.append_assoc _ l.noteText, h]
  unfold skipAtPrice
  rw [if_neg (postNote_ws hv rest)]
  simp only [Option.map_some, parseNote_ws, parseNote_exact hv rest]
  rfl

end Verif
