import Verif.Proofs.Loader2
import Verif.Spec.Loader
import Verif.Proofs.Chars
import Verif.Props.Builder
import Verif.Props.Date
import Verif.Proofs.Book

/-! # C25 (loader), C54–C60: loading ledger files -/

namespace Verif
open Spec

/-! ## A concrete environment for the examples -/

/-- ASCII letters and digits. -/
def asciiAlnum (c : Nat) : Bool := isDigit c || decide (65 ≤ c ∧ c ≤ 90) || decide (97 ≤ c ∧ c ≤ 122)

/-- Files given by a list, file names as written, ASCII letters, maps iterated in order of entry. -/
def demoEnv (files : List (Str × Str)) : Env where
  files := fun f => (files.find? fun x => decide (x.1 = f)).map (·.2)
  join := fun _ f => f
  letter := asciiAlnum
  upper := fun c => if 97 ≤ c ∧ c ≤ 122 then c - 32 else c
  ord := fun b => b.currAmts

theorem demoEnv_ok (files : List (Str × Str)) : (demoEnv files).Ok := fun _ => List.Perm.refl _

/-! ## C25: dates -/

theorem takeWhile_digits {ds : Str} (h : ∀ c ∈ ds, isDigit c = true) {r : List Nat}
    (hr : ∀ c, r.head? = some c → isDigit c = false) :
    (ds ++ r).takeWhile isDigit = ds ∧ (ds ++ r).dropWhile isDigit = r := by
  induction ds with
  | nil =>
    cases r with
    | nil => simp
    | cons c r => have := hr c rfl; simp [this]
  | cons c ds ih =>
    have hc := h c (by simp)
    have := ih fun c hc => h c (by simp [hc])
    simp [hc, this.1, this.2]

theorem parseNumber_digits {lo hi : Nat} {ds : Str} (h : ∀ c ∈ ds, isDigit c = true) (h1 : lo ≤ ds.length)
    (h2 : ds.length ≤ hi) {r : List Nat} (hr : ∀ c, r.head? = some c → isDigit c = false) :
    parseNumber lo hi (ds ++ r) = some ((digitsVal ds : Int), r) := by
  obtain ⟨e1, e2⟩ := takeWhile_digits h hr
  unfold parseNumber
  rw [e1, e2]
  simp only
  rw [if_neg (by omega)]

/-- C25 (loader half): the ledger reader reads the text of a date back as the date, whatever
follows (but a digit). -/
theorem c25_ledger_roundtrip (t : YMD) (h : t.Valid) (hy : t.y ≤ 9999) (r : List Nat)
    (hr : ∀ c, r.head? = some c → isDigit c = false) :
    parseDate (dateString t.code ++ r) = some (t.code, r) := by
  obtain ⟨h1, h2, h3, h4, h5⟩ := h
  have hd : t.d ≤ 31 := le_trans h5 (daysIn_le t.y t.m)
  have hYMD : t.Valid := ⟨h1, h2, h3, h4, h5⟩
  rw [dateString_code hYMD hy]
  have dig : ∀ n, n < 10 → isDigit (48 + n) = true := by intro n hn; simp [isDigit]; omega
  have hy' : t.y.natAbs ≤ 9999 := by omega
  have hm' : t.m.natAbs ≤ 12 := by omega
  have hd' : t.d.natAbs ≤ 31 := by omega
  have n1 := parseNumber_digits (lo := 1) (hi := 4)
    (ds := [48 + t.y.natAbs / 1000, 48 + t.y.natAbs / 100 % 10, 48 + t.y.natAbs / 10 % 10, 48 + t.y.natAbs % 10])
    (by simp only [List.mem_cons, List.not_mem_nil, or_false]; rintro c (rfl | rfl | rfl | rfl) <;> exact dig _ (by omega))
    (by simp) (by simp) (r := 47 :: [48 + t.m.natAbs / 10, 48 + t.m.natAbs % 10] ++
      (47 :: [48 + t.d.natAbs / 10, 48 + t.d.natAbs % 10] ++ r)) (by simp; decide)
  have n2 := parseNumber_digits (lo := 1) (hi := 2) (ds := [48 + t.m.natAbs / 10, 48 + t.m.natAbs % 10])
    (by simp only [List.mem_cons, List.not_mem_nil, or_false]; rintro c (rfl | rfl) <;> exact dig _ (by omega))
    (by simp) (by simp) (r := 47 :: [48 + t.d.natAbs / 10, 48 + t.d.natAbs % 10] ++ r) (by simp; decide)
  have n3 := parseNumber_digits (lo := 1) (hi := 2) (ds := [48 + t.d.natAbs / 10, 48 + t.d.natAbs % 10])
    (by simp only [List.mem_cons, List.not_mem_nil, or_false]; rintro c (rfl | rfl) <;> exact dig _ (by omega))
    (by simp) (by simp) hr
  unfold parseDate parseTriple
  simp only [List.cons_append, List.nil_append] at n1 n2 n3 ⊢
  simp only [n1, n2, n3, consumeRune, if_true]
  simp only [Option.some.injEq, Prod.mk.injEq, and_true]
  simp only [digitsVal, List.foldl_cons, List.foldl_nil]
  unfold YMD.code
  omega

example : (⟨2016, 4, 20⟩ : YMD).Valid ∧ parseDate b!"2016/04/20 Shop" = some (20160420, b!" Shop") := by decide +kernel

/-! ## C54: amounts -/

theorem wrap64_id {x : Int} (h1 : -2 ^ 63 ≤ x) (h2 : x < 2 ^ 63) : wrap64 x = x := by
  unfold wrap64; omega

/-- Digits read in base ten after `a`. -/
def digitsFrom (a : Nat) (s : Str) : Nat := s.foldl (fun a c => a * 10 + (c - 48)) a

theorem digitsFrom_ge (s : Str) : ∀ a, a ≤ digitsFrom a s := by
  induction s with
  | nil => intro a; exact le_refl _
  | cons c s ih =>
    intro a
    exact le_trans (by omega) (ih (a * 10 + (c - 48)))

theorem digitsFrom_eq (s : Str) : ∀ a, digitsFrom a s = a * 10 ^ s.length + digitsVal s := by
  induction s with
  | nil => intro a; simp [digitsFrom, digitsVal]
  | cons c s ih =>
    intro a
    have h1 : digitsVal (c :: s) = digitsFrom (c - 48) s := by simp [digitsVal, digitsFrom]
    have h2 : digitsFrom a (c :: s) = digitsFrom (a * 10 + (c - 48)) s := rfl
    rw [h1, h2, ih, ih (c - 48), List.length_cons, pow_succ]
    ring

theorem amtLoop_digits (d : Bool) (l : Str) (hl : ∀ c ∈ l, isDigit c = true ∨ c = 44) (rest : List Nat) :
    ∀ (n : Nat) (m : Nat), digitsFrom n (l.filter isDigit) < 2 ^ 63 →
      (d = true → m * 10 ^ (l.filter isDigit).length < 2 ^ 63) →
      amtLoop d n m (l ++ rest) = amtLoop d (digitsFrom n (l.filter isDigit) : Nat)
        (if d then ((m * 10 ^ (l.filter isDigit).length : Nat) : Int) else m) rest := by
  induction l with
  | nil => intro n m _ _; cases d <;> simp [digitsFrom]
  | cons c l ih =>
    intro n m hn hm
    have hl' : ∀ c ∈ l, isDigit c = true ∨ c = 44 := fun x hx => hl x (by simp [hx])
    by_cases hc : isDigit c = true
    · have hcd : 48 ≤ c ∧ c ≤ 57 := by simpa [isDigit] using hc
      simp only [List.filter_cons, hc, if_true] at hn hm ⊢
      have hn' : digitsFrom (n * 10 + (c - 48)) (l.filter isDigit) < 2 ^ 63 := hn
      have hlt := lt_of_le_of_lt (digitsFrom_ge (l.filter isDigit) (n * 10 + (c - 48))) hn'
      have w1 : wrap64 ((n : Int) * 10) = (n : Int) * 10 := wrap64_id (by omega) (by omega)
      have w2 : wrap64 ((n : Int) * 10 + ((c - 48 : Nat) : Int)) = ((n * 10 + (c - 48) : Nat) : Int) := by
        rw [wrap64_id (by omega) (by omega)]; push_cast; ring
      rw [List.cons_append, amtLoop, if_pos hc, w1, w2]
      cases d with
      | false =>
        have := ih hl' (n * 10 + (c - 48)) m hn' (by simp)
        have e1 : digitsFrom n (c :: l.filter isDigit) = digitsFrom (n * 10 + (c - 48)) (l.filter isDigit) := rfl
        rw [e1]
        simpa using this
      | true =>
        have hm' := hm rfl
        simp only [List.length_cons] at hm'
        have hle : m * 10 ≤ m * 10 ^ ((l.filter isDigit).length + 1) := by
          apply Nat.mul_le_mul_left
          calc 10 = 10 ^ 1 := by norm_num
            _ ≤ _ := Nat.pow_le_pow_right (by omega) (by omega)
        have w3 : wrap64 ((m : Int) * 10) = ((m * 10 : Nat) : Int) := by
          rw [wrap64_id (by omega) (by omega)]; push_cast; ring
        have := ih hl' (n * 10 + (c - 48)) (m * 10) hn' (by
          intro _
          calc m * 10 * 10 ^ (l.filter isDigit).length = m * 10 ^ ((l.filter isDigit).length + 1) := by
                rw [pow_succ]; ring
            _ < 2 ^ 63 := hm')
        simp only [if_true] at this ⊢
        rw [w3, this]
        have e1 : digitsFrom n (c :: l.filter isDigit) = digitsFrom (n * 10 + (c - 48)) (l.filter isDigit) := rfl
        have e2 : m * 10 * 10 ^ (l.filter isDigit).length = m * 10 ^ (c :: l.filter isDigit).length := by
          rw [List.length_cons, pow_succ]; ring
        rw [e1, e2]
    · have h44 : c = 44 := by
        rcases hl c (by simp) with h | h
        · exact absurd h hc
        · exact h
      simp only [List.filter_cons, hc] at hn hm ⊢
      rw [List.cons_append, amtLoop, if_neg hc, if_neg (by rw [h44]; cases d <;> decide), if_pos (by rw [h44]; decide)]
      exact ih hl' n m hn hm

theorem amtLoop_stop {d : Bool} {rest : List Nat}
    (h : ∀ c, rest.head? = some c → isDigit c = false ∧ c ≠ 44 ∧ (d = false → c ≠ 46)) (n m : Int) :
    amtLoop d n m rest = (n, m, rest) := by
  cases rest with
  | nil => rfl
  | cons c r =>
    obtain ⟨h1, h2, h3⟩ := h c rfl
    rw [amtLoop, if_neg (by rw [h1]; simp), if_neg, if_neg (by simpa using h2)]
    intro hc
    simp only [Bool.and_eq_true, Bool.not_eq_true', beq_iff_eq] at hc
    exact h3 hc.1 hc.2

/-- The loop of `parseAmt` on a numeral without its sign. -/
theorem amtLoop_numeral (n : Numeral) (hv : n.Valid) (hm : n.mantissa < 2 ^ 63) (hs : n.fracDigits.length ≤ 18)
    (rest : List Nat) (hr : n.EndsAt rest) :
    amtLoop false 0 1 (n.ip ++ n.fracText ++ rest) =
      ((n.mantissa : Int), ((10 ^ n.fracDigits.length : Nat) : Int), rest) := by
  have hle : digitsFrom 0 (n.ip.filter isDigit) ≤ n.mantissa := by
    show _ ≤ (n.ip.filter isDigit ++ n.fracDigits).foldl (fun a c => a * 10 + (c - 48)) 0
    rw [List.foldl_append]
    exact digitsFrom_ge _ _
  have h1 := fun rest => amtLoop_digits false n.ip hv.1 rest 0 1 (by omega) (by simp)
  rw [List.append_assoc, show ((0 : Int)) = ((0 : Nat) : Int) from rfl, show ((1 : Int)) = ((1 : Nat) : Int) from rfl, h1]
  unfold Numeral.fracText
  cases hf : n.frac with
  | none =>
    simp only [List.nil_append, Bool.false_eq_true, if_false]
    rw [amtLoop_stop (by intro c hc; obtain ⟨a, b, d⟩ := hr c hc; exact ⟨a, b, fun _ => d hf⟩)]
    simp [Numeral.mantissa, Numeral.fracDigits, hf, digitsFrom, digitsVal, digitChar_eq]
  | some f =>
    have hfd : n.fracDigits = f.filter isDigit := by simp [Numeral.fracDigits, hf, digitChar_eq]
    have hmant : n.mantissa = digitsFrom (digitsFrom 0 (n.ip.filter isDigit)) (f.filter isDigit) := by
      simp [Numeral.mantissa, hfd, digitsFrom, digitsVal, digitChar_eq]
    simp only [List.cons_append, Bool.false_eq_true, if_false]
    rw [amtLoop, if_neg (by decide), if_pos (by decide)]
    have h2 := amtLoop_digits true f (hv.2 f hf) rest (digitsFrom 0 (n.ip.filter isDigit)) 1
      (by rw [← hmant]; exact hm)
      (by
        intro _
        rw [← hfd]
        calc 1 * 10 ^ n.fracDigits.length ≤ 10 ^ 18 := by rw [one_mul]; exact Nat.pow_le_pow_right (by omega) hs
          _ < 2 ^ 63 := by norm_num)
    rw [h2, if_pos rfl, amtLoop_stop (by intro c hc; obtain ⟨a, b, d⟩ := hr c hc; exact ⟨a, b, by simp⟩), hmant, hfd]
    simp

theorem numeral_value_eq (n : Numeral) :
    n.value = (if n.neg then -1 else 1) * ((n.mantissa : Rat) / ((10 ^ n.fracDigits.length : Nat) : Rat)) := by
  unfold Numeral.value Numeral.mantissa
  rw [digitChar_eq]
  have : digitsVal (n.ip.filter isDigit ++ n.fracDigits) =
      digitsVal (n.ip.filter isDigit) * 10 ^ n.fracDigits.length + digitsVal n.fracDigits := by
    rw [← digitsFrom_eq]
    simp [digitsFrom, digitsVal]
  rw [this]
  have h10 : ((10 : Rat) ^ n.fracDigits.length) ≠ 0 := by positivity
  push_cast
  rw [add_div, mul_div_assoc, div_self h10, mul_one]

/-- C54, the part that holds: a numeral (optional sign, digits and thousands commas, optional
decimal point) is read as exactly the number it denotes, provided its digits, read without the
point, stay below 2^63 and it has at most 18 decimals. -/
theorem c54_amount_exact_partial (blanks : List Nat) (hb : ∀ c ∈ blanks, blankChar c = true) (n : Numeral) (hv : n.Valid)
    (hne : n.ip ≠ [] ∨ n.frac ≠ none) (hm : n.mantissa < 2 ^ 63) (hs : n.fracDigits.length ≤ 18) (rest : List Nat)
    (hr : n.EndsAt rest) :
    parseAmt (blanks ++ n.text ++ rest) = some (n.value, rest) := by
  have hloop := amtLoop_numeral n hv hm hs rest hr
  have hmag : newRat (if n.neg then wrap64 ((n.mantissa : Int) * -1) else (n.mantissa : Int)) ((10 ^ n.fracDigits.length : Nat) : Int) = some n.value := by
    have h10 : ((10 ^ n.fracDigits.length : Nat) : Int) ≠ 0 := by positivity
    rw [numeral_value_eq]
    unfold newRat
    rw [if_neg h10]
    cases n.neg with
    | false => simp
    | true => rw [if_pos rfl, wrap64_id (by omega) (by omega)]; simp; ring
  have hnb : ∀ c r, n.ip ++ n.fracText ++ rest = c :: r →
      isBlank c = false ∧ c ≠ 45 := by
    intro c r h
    have hdig : ∀ c, isDigit c = true ∨ c = 44 → isBlank c = false ∧ c ≠ 45 := by
      rintro c (h | rfl)
      · have : 48 ≤ c ∧ c ≤ 57 := by simpa [isDigit] using h
        refine ⟨?_, by omega⟩
        simp only [isBlank, isSpace, Bool.and_eq_false_iff]
        left
        simp only [Bool.or_eq_false_iff, decide_eq_false_iff_not, beq_eq_false_iff_ne]
        omega
      · decide
    cases hip : n.ip with
    | cons c' ip =>
      rw [hip] at h
      cases h
      exact hdig _ (hv.1 _ (by rw [hip]; simp))
    | nil =>
      cases hf : n.frac with
      | none => simp [hip, hf] at hne
      | some f =>
        rw [hip, Numeral.fracText, hf] at h
        cases h
        decide
  have hws : ∀ (x : List Nat), (∀ c r, x = c :: r → isBlank c = false) → consumeWS (blanks ++ x) = x := by
    intro x hx
    unfold consumeWS
    induction blanks with
    | nil =>
      cases x with
      | nil => rfl
      | cons c r => simp [hx c r rfl]
    | cons c bl ih =>
      have := hb c (by simp)
      rw [blankChar_eq] at this; simp only [List.cons_append, List.dropWhile_cons, this, if_true]
      exact ih fun c hc => hb c (by simp [hc])
  unfold parseAmt Numeral.text
  cases hneg : n.neg with
  | false =>
    rw [hneg] at hmag
    simp only [Bool.false_eq_true, if_false, List.nil_append] at hmag ⊢
    rw [List.append_assoc blanks, hws _ fun c r h => (hnb c r h).1]
    have : optMinus (n.ip ++ n.fracText ++ rest) =
        (false, n.ip ++ n.fracText ++ rest) := by
      unfold optMinus
      rw [if_neg]
      cases hx : n.ip ++ n.fracText ++ rest with
      | nil => decide
      | cons c r => exact (hnb c r hx).2
    rw [this]
    simp only [Bool.false_eq_true, if_false, hloop, hmag, Option.map_some]
  | true =>
    rw [hneg] at hmag
    simp only [if_true, List.cons_append, List.nil_append] at hmag ⊢
    rw [List.append_assoc blanks, hws _ (by intro c r h; cases h; decide)]
    simp only [List.cons_append]
    have : optMinus (45 :: (n.ip ++ n.fracText ++ rest)) =
        (true, n.ip ++ n.fracText ++ rest) := rfl
    rw [this]
    simp only [if_true, hloop, hmag, Option.map_some]

/-- Non-vacuity: "-1,234.50" followed by a line end. -/
example : (⟨true, b!"1,234", some b!"50"⟩ : Numeral).Valid ∧
    (⟨true, b!"1,234", some b!"50"⟩ : Numeral).mantissa < 2 ^ 63 ∧
    (⟨true, b!"1,234", some b!"50"⟩ : Numeral).value = -2469 / 2 ∧
    parseAmt b!"  -1,234.50\n" = some (-2469 / 2, [10]) := by
  refine ⟨⟨by decide, ?_⟩, by decide, by decide +kernel, by decide +kernel⟩
  intro f hf; cases hf; decide

/-- C54 is false of the code for large numerals: 9223372036854775808 (= 2^63) is read as its
negation. -/
theorem c54_large_amount_fails : ¬ ∀ (n : Numeral), n.Valid → n.ip ≠ [] → parseAmt (n.text ++ [10]) = some (n.value, [10]) := by
  intro h
  have := h ⟨false, b!"9223372036854775808", none⟩ ⟨by decide, by simp⟩ (by simp)
  revert this
  decide +kernel

end Verif
