import Verif.Proofs.Loader3
import Verif.Props.Loader2
import Verif.Props.Import2
import Verif.Spec.Export
import Verif.Proofs.Float

/-! # Printing and reading back -/

namespace Verif
open Spec

theorem natDec_length {n : Nat} : ∀ d, 1 ≤ d → n < 10 ^ d → (natDec n).length ≤ d := by
  induction n using Nat.strong_induction_on with
  | _ n ih =>
    intro d hd h
    by_cases hn : n < 10
    · rw [natDec_lt hn]; simpa using hd
    · rw [natDec_ge (by omega), List.length_append, List.length_singleton]
      have hd2 : 2 ≤ d := by
        rcases Nat.lt_or_ge d 2 with h2 | h2
        · have : d = 1 := by omega
          subst this; omega
        · exact h2
      obtain ⟨k, rfl⟩ : ∃ k, d = k + 1 := ⟨d - 1, by omega⟩
      have := ih (n / 10) (by omega) k (by omega) (by rw [pow_succ] at h; omega)
      omega

theorem digitsVal_replicate (k : Nat) (s : Str) : digitsVal (List.replicate k 48 ++ s) = digitsVal s := by
  induction k with
  | zero => rfl
  | succ k ih =>
    rw [List.replicate_succ, List.cons_append, ← ih]
    simp [digitsVal]

theorem isDigit_natDec (n : Nat) : ∀ c ∈ natDec n, isDigit c = true := by
  intro c hc
  have := natDec_digits n c hc
  simp [isDigit, this.1, this.2]

theorem padZero_facts {d n : Nat} (hd : 1 ≤ d) (h : n < 10 ^ d) :
    (padZero d (natDec n)).length = d ∧ digitsVal (padZero d (natDec n)) = n ∧
      (∀ c ∈ padZero d (natDec n), isDigit c = true) := by
  refine ⟨?_, ?_, ?_⟩
  · have := natDec_length d hd h
    unfold padZero; rw [List.length_append, List.length_replicate]; omega
  · unfold padZero; rw [digitsVal_replicate, digitsVal_natDec]
  · intro c hc
    unfold padZero at hc
    rcases List.mem_append.1 hc with hc | hc
    · rw [List.eq_of_mem_replicate hc]; decide
    · exact isDigit_natDec n c hc

/-- The number printed, as a numeral. -/
def printedNumeral (grp : Str → Str) (dec : Nat) (v : Rat) (n : Nat) : Numeral :=
  ⟨decide (v < 0), grp (natDec (n / 10 ^ dec)),
    if dec = 0 then none else some (padZero dec (natDec (n % 10 ^ dec)))⟩

/-- In English a number has a dot. -/
theorem number_sound {f : Fmt} (h : f.point = 46) (ccy : Str) (v : Rat) :
    f.number ccy v = fmtFixed f.rd f.grp ((f.decs ccy).getD 2) (f.fl v) := by
  unfold Fmt.number fmtFixed; rw [h]

theorem printed_text (rd : Rat → Nat) (grp : Str → Str) (dec : Nat) (v : Rat) (n : Nat)
    (hn : rd (|v| * 10 ^ dec) = n) :
    fmtFixed rd grp dec v = (printedNumeral grp dec v n).text := by
  unfold fmtFixed fmtFixedAt printedNumeral Numeral.text Numeral.fracText
  rw [hn]
  by_cases hd : dec = 0
  · simp [hd]
  · simp [hd]

theorem printed_fracDigits (grp : Str → Str) (dec : Nat) (v : Rat) (n : Nat) :
    (printedNumeral grp dec v n).fracDigits = if dec = 0 then [] else padZero dec (natDec (n % 10 ^ dec)) := by
  unfold printedNumeral Numeral.fracDigits
  by_cases hd : dec = 0
  · simp [hd]
  · have := (padZero_facts (d := dec) (n := n % 10 ^ dec) (by omega) (Nat.mod_lt _ (by positivity))).2.2
    simp only [hd, if_false, Option.getD_some]
    exact List.filter_eq_self.2 this

theorem printed_facts {grp : Str → Str} (hg : GroupsDigits grp) (dec : Nat) (v : Rat) (n : Nat) :
    (printedNumeral grp dec v n).Valid ∧ (printedNumeral grp dec v n).mantissa = n ∧
    (printedNumeral grp dec v n).fracDigits.length = dec ∧
    (printedNumeral grp dec v n).value = (if v < 0 then -1 else 1) * ((n : Rat) / 10 ^ dec) ∧
    ∃ c r, (printedNumeral grp dec v n).ip = c :: r ∧ isDigit c = true := by
  obtain ⟨g1, g2, g3⟩ := hg (n / 10 ^ dec)
  have hfd := printed_fracDigits grp dec v n
  have hip : (printedNumeral grp dec v n).ip = grp (natDec (n / 10 ^ dec)) := rfl
  have hlen : (printedNumeral grp dec v n).fracDigits.length = dec := by
    rw [hfd]
    by_cases hd : dec = 0
    · simp [hd]
    · rw [if_neg hd]; exact (padZero_facts (by omega) (Nat.mod_lt _ (by positivity))).1
  have hval : digitsVal (printedNumeral grp dec v n).fracDigits = n % 10 ^ dec := by
    rw [hfd]
    by_cases hd : dec = 0
    · subst hd; simp [digitsVal, Nat.mod_one]
    · rw [if_neg hd]; exact (padZero_facts (by omega) (Nat.mod_lt _ (by positivity))).2.1
  refine ⟨⟨?_, ?_⟩, ?_, hlen, ?_, ?_⟩
  · rw [hip]; exact g2
  · intro f hf c hc
    left
    unfold printedNumeral at hf
    by_cases hd : dec = 0
    · simp [hd] at hf
    · simp only [hd, if_false, Option.some.injEq] at hf
      rw [← hf] at hc
      exact (padZero_facts (by omega) (Nat.mod_lt _ (by positivity))).2.2 c hc
  · unfold Numeral.mantissa
    rw [hip, g1]
    have : digitsVal (natDec (n / 10 ^ dec) ++ (printedNumeral grp dec v n).fracDigits) =
        digitsFrom (digitsVal (natDec (n / 10 ^ dec))) (printedNumeral grp dec v n).fracDigits := by
      unfold digitsVal digitsFrom
      rw [List.foldl_append]
    rw [this, digitsFrom_eq, digitsVal_natDec, hval, hlen]
    exact Nat.div_add_mod' n (10 ^ dec)
  · unfold Numeral.value
    rw [hip, g1, digitsVal_natDec, hval, hlen]
    have e : (if (printedNumeral grp dec v n).neg = true then (-1 : Rat) else 1) = if v < 0 then -1 else 1 := by
      unfold printedNumeral; simp
    rw [e]
    congr 1
    have h10 : (10 : Rat) ^ dec ≠ 0 := by positivity
    rw [eq_div_iff h10, add_mul, div_mul_cancel₀ _ h10]
    have := Nat.div_add_mod' n (10 ^ dec)
    exact_mod_cast this
  · rw [hip]; exact g3

/-- A number that fits is printed exactly. -/
theorem fits_value {dec : Nat} {v : Rat} {k : Int} (h : v * 10 ^ dec = k) :
    (if v < 0 then -1 else 1) * ((k.natAbs : Rat) / 10 ^ dec) = v := by
  have h10 : (0 : Rat) < 10 ^ dec := by positivity
  have hk : |v| * 10 ^ dec = (k.natAbs : Rat) := by
    rw [← abs_of_pos h10, ← abs_mul, h, Nat.cast_natAbs]; simp
  rw [← hk, mul_div_assoc, div_self h10.ne', mul_one]
  by_cases hv : v < 0
  · rw [if_pos hv, abs_of_neg hv]; ring
  · rw [if_neg hv, abs_of_nonneg (not_lt.1 hv)]; ring

theorem fmtFixed_exact {fl : Rat → Rat} (hf : DoubleRounding fl) {rd : Rat → Nat} (hr : NearestNat rd)
    {grp : Str → Str} (hg : GroupsDigits grp) {dec : Nat} {v : Rat} (h : FitsDecimals dec v) :
    ∃ num : Numeral, fmtFixed rd grp dec (fl v) = num.text ∧ num.Valid ∧ num.mantissa < 2 ^ 63 ∧ num.fracDigits.length ≤ 18 ∧
      num.value = v ∧ ∃ c r, num.ip = c :: r ∧ isDigit c = true := by
  obtain ⟨h18, k, hk, hb⟩ := h
  obtain ⟨e1, e2⟩ := rounded_units hf hr (by omega) hk hb
  obtain ⟨f1, f2, f3, f4, f5⟩ := printed_facts hg dec (fl v) k.natAbs
  refine ⟨_, printed_text rd grp dec (fl v) _ e1, f1, ?_, by omega, ?_, f5⟩
  · rw [f2]; rw [Int.abs_eq_natAbs] at hb; omega
  · rw [f4, if_congr e2 rfl rfl, fits_value hk]

/-! ## Posting lines -/

/-- What `FormatSymbol` adds. -/
def symbolGap (f : Fmt) (s : Str) : List Nat :=
  match s.getLast? with
  | none => []
  | some c => if f.letter c = true ∨ c = 34 then [32] else []

theorem symbol_eq (f : Fmt) {s : Str} (h : s ≠ []) : f.symbol s = some (s ++ symbolGap f s) := by
  unfold Fmt.symbol symbolGap
  cases hl : s.getLast? with
  | none => exact absurd (List.getLast?_eq_none_iff.1 hl) h
  | some c => simp only; split <;> simp

/-- The line printed for a posting, as a posting line. -/
def printedLine (f : Fmt) (p : Posting) (num : Numeral) : PostLine :=
  { acct := p.acct, minus := false, ccyFirst := true, quoted := !p.ccy.all isCCYRune, ccy := p.ccy, num := num,
    note := if p.note = [] then none else some p.note, sp0 := [32, 32], sp1 := [32, 32],
    sp2 := symbolGap f (ledgerCCY p.ccy), sp3 := if p.note = [] then [] else [32, 32], sp4 := if p.note = [] then [] else [32] }

theorem ledgerCCY_eq (f : Fmt) (p : Posting) (num : Numeral) : (printedLine f p num).ccyText = ledgerCCY p.ccy := by
  unfold PostLine.ccyText ledgerCCY printedLine
  cases h : p.ccy.all isCCYRune <;> simp

theorem ledgerCCY_ne {c : Str} (h : c ≠ []) : ledgerCCY c ≠ [] := by
  unfold ledgerCCY; split
  · exact h
  · simp

theorem symbolGap_blank (f : Fmt) (s : Str) : ∀ c ∈ symbolGap f s, isBlank c = true := by
  intro c hc
  unfold symbolGap at hc
  split at hc
  · simp at hc
  · split at hc
    · simp at hc; subst hc; decide
    · simp at hc

/-- The printed number is read as `v`. -/
def NumReads (f : Fmt) (ccy : Str) (x v : Rat) : Prop :=
  ∃ num : Numeral, f.number ccy x = num.text ∧ num.Valid ∧ num.mantissa < 2 ^ 63 ∧ num.fracDigits.length ≤ 18 ∧ num.value = v ∧
    ∃ c r, num.ip = c :: r ∧ isDigit c = true

/-- The texts of a posting can be expressed. -/
structure TextPost (p : Posting) : Prop where
  acct : p.acct ≠ [] ∧ ∀ c ∈ p.acct, acctChar c = true
  ccy : p.ccy ≠ [] ∧ ∀ c ∈ p.ccy, lineChar c = true ∧ c ≠ 34
  note : OneLine p.note

theorem numReads_exact {f : Fmt} (hg : SoundFmt f) {p : Posting} (h : PrintablePost f p) : NumReads f p.ccy p.val p.val := by
  obtain ⟨num, n1, n2⟩ := fmtFixed_exact hg.float hg.nearest hg.groups h.amount
  exact ⟨num, (number_sound hg.point _ _).trans n1, n2⟩

theorem showPosting_line {f : Fmt} {p : Posting} {v : Rat} (hnr : NumReads f p.ccy p.val v) (h : TextPost p) :
    ∃ l : PostLine, showPosting f p = some (l.text ++ [10]) ∧ l.Valid ∧ (∀ n, l.note = some n → l.sp3 ≠ []) ∧
      l.acct = p.acct ∧ l.ccy = p.ccy ∧ l.amount = v ∧ l.note.getD [] = p.note ∧ 0 ∉ l.text := by
  obtain ⟨num, this, n2, n3, n4, n5, n6⟩ := hnr
  have hne := ledgerCCY_ne h.ccy.1
  have hcc := ledgerCCY_eq f p num
  refine ⟨printedLine f p num, ?_, ?_, ?_, rfl, rfl, ?_, ?_, ?_⟩
  · unfold showPosting
    rw [symbol_eq f hne]
    simp only [Option.map_some, Option.some.injEq]
    rw [this]
    unfold PostLine.text PostLine.amtText PostLine.noteText
    rw [hcc]
    unfold printedLine noteSuffix
    by_cases hn : p.note = [] <;> simp [hn]
  · refine ⟨h.acct, by simp [printedLine], by simp [printedLine], ?_, ⟨n2, n3, n4⟩, n6, h.ccy.1, ?_, ?_, ?_, ?_⟩
    · intro c hc
      simp only [printedLine, List.mem_append] at hc
      rcases hc with (((hc | hc) | hc) | hc) | hc
      · simp at hc; subst hc; decide
      · simp at hc; subst hc; decide
      · exact symbolGap_blank f _ c hc
      · split at hc <;> simp at hc; subst hc; decide
      · split at hc <;> simp at hc; subst hc; decide
    · intro hq c hc
      simp only [printedLine, Bool.not_eq_false', List.all_eq_true] at hq
      exact hq c hc
    · intro _ c r hcr
      have : c ∈ p.ccy := by
        have : (printedLine f p num).ccy = p.ccy := rfl
        rw [this] at hcr; rw [hcr]; simp
      exact ⟨(h.ccy.2 c this).2, fun hx => by simp [printedLine] at hx⟩
    · intro _ c hc; exact h.ccy.2 c hc
    · intro n hn
      simp only [printedLine] at hn
      split at hn
      · cases hn
      · cases hn
        exact ⟨h.note.1, fun c r e => h.note.2 c (by rw [e]; rfl)⟩
  · intro n hn
    simp only [printedLine] at hn ⊢
    split at hn
    · cases hn
    · rename_i hx; simp [hx]
  · unfold PostLine.amount
    simp only [printedLine]; rw [n5]; simp
  · simp only [printedLine]
    by_cases hn : p.note = [] <;> simp [hn]
  · intro h0
    have hin : ∀ c, inLine c = true → c ≠ 0 := by intro c hc e; subst e; simp [inLine] at hc
    unfold PostLine.text PostLine.amtText PostLine.noteText at h0
    rw [hcc] at h0
    have hl0 : 0 ∉ ledgerCCY p.ccy := by
      unfold ledgerCCY
      have : 0 ∉ p.ccy := fun hm => hin 0 (h.ccy.2 0 hm).1 rfl
      split <;> simp [this]
    have hg0 : 0 ∉ symbolGap f (ledgerCCY p.ccy) := fun hm => by
      have := symbolGap_blank f _ 0 hm; revert this; decide
    have ha0 : 0 ∉ p.acct := fun hm => (acct_facts (h.acct.2 0 hm)).2.2.2.2.2 rfl
    have hnum : 0 ∉ num.text := by
      unfold Numeral.text Numeral.fracText
      have d0 : ∀ c, isDigit c = true ∨ c = 44 → c ≠ 0 := by
        rintro c hc rfl; rcases hc with hc | hc <;> revert hc <;> decide
      have i0 : 0 ∉ num.ip := fun hm => d0 0 (n2.1 0 hm) rfl
      cases hf : num.frac with
      | none => simp [i0]
      | some fr =>
        have : 0 ∉ fr := fun hm => d0 0 (n2.2 fr hf 0 hm) rfl
        simp [i0, this]
    have hn0 : 0 ∉ p.note := fun hm => hin 0 (h.note.1 0 hm) rfl
    unfold printedLine at h0
    by_cases hn : p.note = [] <;> simp [hn, ha0, hl0, hg0, hnum] at h0
    exact hn0 h0

/-! ## Transactions -/

theorem trimSpace_pad {x bl : List Nat} (h1 : ∀ c, x.head? = some c → isSpace c = false)
    (h2 : ∀ c, x.getLast? = some c → isSpace c = false) (hb : ∀ c ∈ bl, isSpace c = true) : trimSpace (x ++ bl) = x := by
  have hd : ∀ l : List Nat, (∀ c ∈ l, isSpace c = true) → l.dropWhile isSpace = [] := by
    intro l hl; 
      induction l with
      | nil => rfl
      | cons c l ih => rw [List.dropWhile_cons_of_pos (hl c (by simp))]; exact ih fun d hd => hl d (by simp [hd])
  unfold trimSpace
  cases x with
  | nil => simp [hd bl hb]
  | cons c x =>
    have hc := h1 c rfl
    have e1 : (c :: x ++ bl).dropWhile isSpace = c :: x ++ bl := by simp [List.dropWhile, hc]
    rw [e1, List.reverse_append]
    have e2 : (bl.reverse ++ (c :: x).reverse).dropWhile isSpace = (c :: x).reverse := by
      rw [List.dropWhile_append]
      rw [hd bl.reverse (by simpa using hb)]
      simp only [List.isEmpty_nil, if_true]
      cases hr : (c :: x).reverse with
      | nil => rfl
      | cons d r =>
        have : (c :: x).getLast? = some d := by rw [← List.head?_reverse, hr]; rfl
        simp [List.dropWhile, h2 d this]
    rw [e2, List.reverse_reverse]

/-- The header line, as printed. -/
def headerText (p : Posting) : Str := dateString p.date ++ [32] ++ p.payee ++ noteSuffix p.tnote

theorem blank_space {c : Nat} (h : isBlank c = true) : isSpace c = true := by
  unfold isBlank at h; simp at h; exact h.1

/-- The note with its semicolon. -/
def noteTail (n : Str) : Str := if n = [] then [] else 59 :: 32 :: n

/-- The blanks before the semicolon. -/
def noteGap (n : Str) : Str := if n = [] then [] else [32, 32]

theorem noteSuffix_eq (n : Str) : noteSuffix n = noteGap n ++ noteTail n := by
  unfold noteSuffix noteGap noteTail; split <;> simp

theorem noteTail_head (n rest : List Nat) : ∀ c, (noteTail n ++ 10 :: rest).head? = some c → c = 59 ∨ c = 10 := by
  intro c hc
  unfold noteTail at hc
  split at hc <;> simp at hc <;> simp [hc]

theorem parseNote_tail {n : Str} (h : OneLine n) (rest : List Nat) :
    parseNote (noteTail n ++ 10 :: rest) = (n, 10 :: rest) := by
  unfold parseNote noteTail
  by_cases hn : n = []
  · subst hn
    have : consumeWS (10 :: rest) = 10 :: rest := ws_exact (bl := []) (by simp) (by intro c hc; simp at hc; subst hc; decide)
    simp only [if_true, List.nil_append, this]
    simp [Reader.ch]
  · have e1 : consumeWS ((59 :: 32 :: n) ++ 10 :: rest) = (59 :: 32 :: n) ++ 10 :: rest :=
      ws_exact (bl := []) (by simp) (by intro c hc; simp at hc; subst hc; decide)
    have e2 : consumeWS (32 :: (n ++ 10 :: rest)) = n ++ 10 :: rest :=
      ws_exact (bl := [32]) (by decide) (by
        intro c hc
        cases n with
        | nil => exact absurd rfl hn
        | cons d n => simp at hc; subst hc; exact h.2 d rfl)
    obtain ⟨e3, e4⟩ := span_exact (p := inLine) (x := n) (r := 10 :: rest) h.1 (by intro c hc; simp at hc; subst hc; decide)
    simp only [hn, if_false, e1]
    simp only [List.cons_append, Reader.ch, List.headD_cons, ne_eq, not_true_eq_false, if_false, Reader.next, List.tail_cons, e2, e3, e4]

theorem parsePayee_exact {pay : Str} (hp : PrintablePayee pay) (n rest : List Nat) (bl : List Nat) (hb : ∀ c ∈ bl, isBlank c = true) :
    parsePayee (pay ++ bl ++ (noteTail n ++ 10 :: rest)) = some (pay, noteTail n ++ 10 :: rest) := by
  have hR := noteTail_head n rest
  generalize noteTail n ++ 10 :: rest = R at hR ⊢
  have hR' : ∀ c, R.head? = some c → isBlank c = false ∧ c ≠ 34 ∧ (inLine c && c != 59) = false := by
    intro c hc
    rcases hR c hc with e | e <;> subst e <;> decide
  unfold parsePayee
  have hbl : ∀ c ∈ bl, (inLine c && c != 59) = true := by
    intro c hc
    have := hb c hc
    have h0 : c ≠ 0 := by rintro rfl; revert this; decide
    have h1 : c ≠ 59 := by rintro rfl; revert this; decide
    have h2 : c ≠ 10 := by rintro rfl; revert this; decide
    simp [inLine, h0, h1, h2]
  cases pay with
  | nil =>
    have e1 : consumeWS ([] ++ bl ++ R) = R := ws_exact hb fun c hc => (hR' c hc).1
    obtain ⟨e3, e4⟩ := span_exact (p := fun c => inLine c && c != 59) (x := []) (r := R) (by simp) fun c hc => (hR' c hc).2.2
    simp only [List.nil_append] at e3 e4
    simp only [e1, e3, e4]
    have hq : ¬ Reader.ch R = 34 := by
      cases R with
      | nil => simp [Reader.ch]
      | cons c R => exact (hR' c rfl).2.1
    rw [if_neg hq]; rfl
  | cons c x =>
    have hc := hp.first c rfl
    rw [spaceChar_eq] at hc
    have e1 : consumeWS (c :: x ++ bl ++ R) = c :: x ++ bl ++ R :=
      ws_exact (bl := []) (by simp) (by
        intro d hd; simp at hd; subst hd
        unfold isBlank; simp [hc.1])
    obtain ⟨e3, e4⟩ := span_exact (p := fun c => inLine c && c != 59) (x := c :: x ++ bl) (r := R) (by
        intro d hd
        rcases List.mem_append.1 hd with hd | hd
        · have := hp.line d hd; rw [lineChar_eq] at this; simp [this.1, this.2]
        · exact hbl d hd) fun c hc => (hR' c hc).2.2
    simp only [e1, e3, e4]
    have hq : ¬ Reader.ch (c :: x ++ bl ++ R) = 34 := hc.2.1
    rw [if_neg hq]
    rw [trimSpace_pad (fun d hd => (hp.first d hd).1) hp.last fun d hd => blank_space (hb d hd)]

theorem parseTransaction_header {p : Posting} {y : YMD} (hy : y.Valid) (hy2 : y.y ≤ 9999) (hd : p.date = y.code)
    (hp : PrintablePayee p.payee) (ht : OneLine p.tnote) (rest : List Nat) :
    parseTransaction (headerText p ++ 10 :: rest) = some ((p.date, p.payee, p.tnote), rest) := by
  have hdate : parseDate (headerText p ++ 10 :: rest) = some (p.date, 32 :: (p.payee ++ noteGap p.tnote ++ (noteTail p.tnote ++ 10 :: rest))) := by
    have := c25_ledger_roundtrip y hy hy2 (32 :: (p.payee ++ noteGap p.tnote ++ (noteTail p.tnote ++ 10 :: rest)))
      (by intro c hc; simp at hc; subst hc; decide)
    rw [← hd] at this
    rw [← this]
    unfold headerText
    rw [noteSuffix_eq]
    simp
  have hgap : ∀ c ∈ noteGap p.tnote, isBlank c = true := by
    intro c hc; unfold noteGap at hc; split at hc
    · simp at hc
    · simp at hc; subst hc; decide
  -- what follows the blanks
  obtain ⟨bl, hws, hbl, h42⟩ : ∃ bl, consumeWS (32 :: (p.payee ++ noteGap p.tnote ++ (noteTail p.tnote ++ 10 :: rest))) =
      p.payee ++ bl ++ (noteTail p.tnote ++ 10 :: rest) ∧ (∀ c ∈ bl, isBlank c = true) ∧
      Reader.ch (p.payee ++ bl ++ (noteTail p.tnote ++ 10 :: rest)) ≠ 42 := by
    cases hpay : p.payee with
    | nil =>
      refine ⟨[], ?_, by simp, ?_⟩
      · have := ws_exact (bl := 32 :: noteGap p.tnote) (x := noteTail p.tnote ++ 10 :: rest)
          (by intro c hc; rcases List.mem_cons.1 hc with e | e
              · subst e; decide
              · exact hgap c e)
          (by intro c hc; rcases noteTail_head _ _ c hc with e | e <;> subst e <;> decide)
        simpa using this
      · have := noteTail_head p.tnote rest
        cases hx : noteTail p.tnote ++ 10 :: rest with
        | nil => simp at hx
        | cons c r =>
          rw [hx] at this
          simp only [List.nil_append, Reader.ch, List.headD_cons]
          rcases this c rfl with e | e <;> subst e <;> decide
    | cons c x =>
      have hc := hp.first c (by rw [hpay]; rfl)
      rw [spaceChar_eq] at hc
      refine ⟨noteGap p.tnote, ?_, hgap, ?_⟩
      · exact ws_exact (bl := [32]) (by decide) (by
          intro d hd; simp at hd; subst hd; unfold isBlank; simp [hc.1])
      · simpa [Reader.ch] using hc.2.2
  unfold parseTransaction
  rw [hdate]
  simp only [hws, if_neg h42]
  rw [parsePayee_exact hp _ _ _ hbl]
  simp only [parseNote_tail ht]
  simp [skipEOL, Reader.ch, Reader.next]

end Verif
