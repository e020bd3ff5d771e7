import Verif.Model.Date
import Verif.Spec.Calendar

/-! Lemmas on day numbers. -/

namespace Verif
open Spec

theorem tdiv_nn {a b : Int} (h : 0 ≤ a) : a.tdiv b = a / b := Int.tdiv_eq_ediv_of_nonneg h
theorem tmod_nn {a b : Int} (h : 0 ≤ a) : a.tmod b = a % b := Int.tmod_eq_emod_of_nonneg h

theorem daysIn_le (y m : Int) : daysIn y m ≤ 31 := by
  unfold daysIn; split <;> split <;> omega

theorem daysIn_ge (y m : Int) : 28 ≤ daysIn y m := by
  unfold daysIn; split <;> split <;> omega

theorem code_fields {t : YMD} (h : t.Valid) :
    yearOf t.code = t.y ∧ monthOf t.code = t.m ∧ dayOf t.code = t.d := by
  obtain ⟨h1, h2, h3, h4, h5⟩ := h
  have h6 := daysIn_le t.y t.m
  have e : t.code = t.y * 10000 + t.m * 100 + t.d := rfl
  have hc : 0 ≤ t.code := by omega
  have hq : 0 ≤ t.code / 100 := by omega
  unfold yearOf monthOf dayOf
  rw [tdiv_nn hc, tdiv_nn hc, tmod_nn hq, tmod_nn hc]
  omega

theorem code_pos {t : YMD} (h : t.Valid) : 10101 ≤ t.code := by
  obtain ⟨h1, h2, h3, h4, h5⟩ := h
  unfold YMD.code; omega

theorem code_injective {s t : YMD} (hs : s.Valid) (ht : t.Valid) (h : s.code = t.code) : s = t := by
  have a := code_fields hs
  have b := code_fields ht
  rw [h] at a
  cases s; cases t; simp_all

theorem yearIsLeapYear_iff {y : Int} (h : 1 ≤ y) : yearIsLeapYear (y - 1) = decide (leap y) := by
  unfold yearIsLeapYear
  have e : y - 1 + 1 = y := by omega
  rw [e, tmod_nn (by omega), tmod_nn (by omega), tmod_nn (by omega)]
  rw [Bool.eq_iff_iff]
  rw [decide_eq_true_iff]
  simp [leap]

/-- Days of the year before month `m`. -/
def cum (y m : Int) : Int :=
  (if m = 1 then 0 else if m = 2 then 31 else if m = 3 then 59 else if m = 4 then 90
   else if m = 5 then 120 else if m = 6 then 151 else if m = 7 then 181 else if m = 8 then 212
   else if m = 9 then 243 else if m = 10 then 273 else if m = 11 then 304 else 334) +
  (if 2 < m ∧ leap y then 1 else 0)

/-- Closed form of the day number of a date. -/
def dayNum (t : YMD) : Int :=
  (t.y - 1) * 365 + (t.y - 1) / 4 + (t.y - 1) / 400 - (t.y - 1) / 100 + cum t.y t.m + (t.d - 1)

theorem month_cases {m : Int} (h1 : 1 ≤ m) (h2 : m ≤ 12) :
    m = 1 ∨ m = 2 ∨ m = 3 ∨ m = 4 ∨ m = 5 ∨ m = 6 ∨ m = 7 ∨ m = 8 ∨ m = 9 ∨ m = 10 ∨ m = 11 ∨ m = 12 := by
  omega

theorem monthLoop_eq (y m x : Int) (h1 : 1 ≤ m) (h2 : m ≤ 12) :
    monthLoop (decide (leap y)) (m - 1).toNat 0 x = some (x + cum y m) := by
  by_cases hl : leap y
  · rcases month_cases h1 h2 with h | h | h | h | h | h | h | h | h | h | h | h <;> subst h <;>
      simp [monthLoop, monthDays, cum, hl] <;> omega
  · rcases month_cases h1 h2 with h | h | h | h | h | h | h | h | h | h | h | h <;> subst h <;>
      simp [monthLoop, monthDays, cum, hl] <;> omega

theorem asDays_code {t : YMD} (h : t.Valid) : asDays t.code = some (dayNum t) := by
  obtain ⟨e1, e2, e3⟩ := code_fields h
  obtain ⟨h1, h2, h3, h4, h5⟩ := h
  unfold asDays
  simp only [e1, e2, e3]
  rw [yearIsLeapYear_iff h1, monthLoop_eq _ _ _ h2 h3]
  rw [tdiv_nn (by omega), tdiv_nn (by omega), tdiv_nn (by omega)]
  simp [dayNum]

theorem cum_nonneg (y m : Int) : 0 ≤ cum y m := by
  unfold cum
  apply Int.add_nonneg
  · repeat' (first | omega | split)
  · split <;> omega

theorem dayNum_nonneg {t : YMD} (h : t.Valid) : 0 ≤ dayNum t := by
  obtain ⟨h1, h2, h3, h4, h5⟩ := h
  have := cum_nonneg t.y t.m
  unfold dayNum
  omega

theorem cum_succ {y m : Int} (h1 : 1 ≤ m) (h2 : m < 12) : cum y (m + 1) = cum y m + daysIn y m := by
  by_cases hl : leap y
  · rcases month_cases h1 (by omega) with h | h | h | h | h | h | h | h | h | h | h | h <;> subst h <;>
      simp [cum, daysIn, hl] at *
  · rcases month_cases h1 (by omega) with h | h | h | h | h | h | h | h | h | h | h | h <;> subst h <;>
      simp [cum, daysIn, hl] at *

theorem cum_mono {y m m' : Int} (h1 : 1 ≤ m) (h : m < m') (h2 : m' ≤ 12) :
    cum y m + daysIn y m ≤ cum y m' := by
  have key : ∀ k : Nat, m + 1 + k ≤ 12 → cum y m + daysIn y m ≤ cum y (m + 1 + k) := by
    intro k
    induction k with
    | zero => intro hk; simp; rw [cum_succ h1 (by omega)]
    | succ k ih =>
      intro hk
      have := cum_succ (y := y) (m := m + 1 + k) (by omega) (by omega)
      have h3 := daysIn_ge y (m + 1 + k)
      have h4 := ih (by omega)
      push_cast
      rw [show m + 1 + ((k:Int) + 1) = m + 1 + k + 1 by omega]
      omega
  have := key (m' - m - 1).toNat (by omega)
  rwa [show m + 1 + ((m' - m - 1).toNat : Int) = m' by omega] at this

theorem cum_lt_year {y m d : Int} (h1 : 1 ≤ m) (h2 : m ≤ 12) (h4 : d ≤ daysIn y m) :
    cum y m + (d - 1) < 365 + (if leap y then 1 else 0) := by
  have h12 : cum y 12 + daysIn y 12 = 365 + (if leap y then 1 else 0) := by
    simp [cum, daysIn]; split <;> omega
  rcases Int.lt_or_eq_of_le h2 with h | h
  · have := cum_mono (y := y) h1 h (Int.le_refl 12)
    have := daysIn_ge y 12
    omega
  · subst h; omega

/-- Days of the years before year `y + 1`. -/
theorem yearDays_succ (y : Int) :
    (y * 365 + y / 4 + y / 400 - y / 100) =
      ((y - 1) * 365 + (y - 1) / 4 + (y - 1) / 400 - (y - 1) / 100) + 365 + (if leap y then 1 else 0) := by
  by_cases hl : leap y
  · rw [if_pos hl]; unfold leap at hl; omega
  · rw [if_neg hl]; unfold leap at hl; omega

theorem yearDays_mono {x y : Int} (h : x ≤ y) :
    (x * 365 + x / 4 + x / 400 - x / 100) ≤ (y * 365 + y / 4 + y / 400 - y / 100) := by
  omega

theorem dayNum_strictMono {s t : YMD} (hs : s.Valid) (ht : t.Valid) (h : s.code < t.code) :
    dayNum s < dayNum t := by
  obtain ⟨h1, h2, h3, h4, h5⟩ := hs
  obtain ⟨g1, g2, g3, g4, g5⟩ := ht
  have a1 := daysIn_le s.y s.m
  have a2 := daysIn_le t.y t.m
  have hcs := cum_lt_year h2 h3 h5
  have := cum_nonneg t.y t.m
  unfold YMD.code at h
  rcases Int.lt_trichotomy s.y t.y with hy | hy | hy
  · have e := yearDays_succ s.y
    have m := yearDays_mono (x := s.y) (y := t.y - 1) (by omega)
    unfold dayNum
    omega
  · rcases Int.lt_trichotomy s.m t.m with hm | hm | hm
    · have := cum_mono (y := s.y) h2 hm g3
      unfold dayNum
      rw [← hy]
      omega
    · unfold dayNum
      rw [← hy, ← hm]
      omega
    · omega
  · omega

theorem dayNum_injective {s t : YMD} (hs : s.Valid) (ht : t.Valid) (h : dayNum s = dayNum t) : s = t := by
  rcases Int.lt_trichotomy s.code t.code with hc | hc | hc
  · have := dayNum_strictMono hs ht hc; omega
  · exact code_injective hs ht hc
  · have := dayNum_strictMono ht hs hc; omega

theorem next_valid {t : YMD} (h : t.Valid) : t.next.Valid := by
  obtain ⟨h1, h2, h3, h4, h5⟩ := h
  unfold YMD.next
  split
  · exact ⟨h1, h2, h3, by simp; omega, by simp; omega⟩
  · split
    · refine ⟨h1, by simp; omega, by simp; omega, by simp, ?_⟩
      have := daysIn_ge t.y (t.m + 1); simp; omega
    · refine ⟨by simp; omega, by simp, by simp, by simp, ?_⟩
      have := daysIn_ge (t.y + 1) 1; simp; omega

theorem dayNum_next {t : YMD} (h : t.Valid) : dayNum t.next = dayNum t + 1 := by
  obtain ⟨h1, h2, h3, h4, h5⟩ := h
  unfold YMD.next
  split
  · simp [dayNum]; omega
  · split
    · have := cum_succ (y := t.y) h2 (by assumption)
      simp [dayNum, this]; omega
    · have hm : t.m = 12 := by omega
      have e := yearDays_succ t.y
      have h12 : cum t.y 12 + daysIn t.y 12 = 365 + (if leap t.y then 1 else 0) := by
        simp [cum, daysIn]; split <;> omega
      have c1 : cum (t.y + 1) 1 = 0 := by simp [cum]
      have hd : t.d = daysIn t.y 12 := by rw [← hm]; omega
      simp only [dayNum, c1, hm]
      rw [show t.y + 1 - 1 = t.y by omega]
      omega

theorem after_valid {t : YMD} (h : t.Valid) (n : Nat) : (t.after n).Valid := by
  induction n with
  | zero => exact h
  | succ n ih => exact next_valid ih

theorem dayNum_after {t : YMD} (h : t.Valid) (n : Nat) : dayNum (t.after n) = dayNum t + n := by
  induction n with
  | zero => simp [YMD.after]
  | succ n ih =>
    rw [YMD.after, dayNum_next (after_valid h n), ih]; push_cast; omega

/-! ### GetDateFromDays -/

theorem yearSearch_spec (f : Nat) (y days : Int) (hd : 0 ≤ days) (hy : 0 ≤ y) (hf : y < f)
    (hup : days < (y + 1) * 365 + (y + 1) / 4 + (y + 1) / 400 - (y + 1) / 100) :
    ∃ y0, 0 ≤ y0 ∧ yearSearch f y days = some (y0, days - (y0 * 365 + y0 / 4 + y0 / 400 - y0 / 100)) ∧
      y0 * 365 + y0 / 4 + y0 / 400 - y0 / 100 ≤ days ∧
      days < (y0 + 1) * 365 + (y0 + 1) / 4 + (y0 + 1) / 400 - (y0 + 1) / 100 := by
  induction f generalizing y with
  | zero => omega
  | succ f ih =>
    unfold yearSearch
    simp only
    rw [tdiv_nn hy, tdiv_nn hy, tdiv_nn hy]
    split
    · refine ⟨y, hy, ?_, by omega, hup⟩
      congr 2; omega
    · by_cases h0 : y = 0
      · subst h0; omega
      · exact ih (y - 1) (by omega) (by omega) (by rw [show y - 1 + 1 = y by omega]; omega)

theorem monthSearch_spec (y : Int) (f k : Nat) (left : Int) (h0 : cum y (k + 1) ≤ left) (hk : k ≤ 11)
    (hf : 12 ≤ f + k)
    (hu : left < 365 + (if leap y then 1 else 0)) :
    ∃ (mm : Nat) (dd : Int), monthSearch (decide (leap y)) f k (left - cum y (k + 1)) = some (mm, dd) ∧
      mm ≤ 11 ∧ 0 ≤ dd ∧ dd < daysIn y (mm + 1) ∧ left = cum y (mm + 1) + dd := by
  induction f generalizing k with
  | zero => omega
  | succ f ih =>
    have hdim : ∃ md, monthDays[k]? = some md ∧
        md + (if (decide (k = 1) && decide (leap y)) = true then 1 else 0) = daysIn y (k + 1) := by
      have : k = 0 ∨ k = 1 ∨ k = 2 ∨ k = 3 ∨ k = 4 ∨ k = 5 ∨ k = 6 ∨ k = 7 ∨ k = 8 ∨ k = 9 ∨ k = 10 ∨ k = 11 := by omega
      rcases this with h | h | h | h | h | h | h | h | h | h | h | h <;> subst h <;>
        simp [monthDays, daysIn] <;> split <;> omega
    obtain ⟨md, e1, e2⟩ := hdim
    unfold monthSearch
    simp only [e1, e2]
    split
    · exact ⟨k, left - cum y (k + 1), rfl, hk, by omega, by omega, by omega⟩
    · by_cases h11 : k = 11
      · exfalso
        have h12 : cum y 12 + daysIn y 12 = 365 + (if leap y then 1 else 0) := by
          simp [cum, daysIn]; split <;> omega
        subst h11
        norm_num at *
        omega
      · have hs := cum_succ (y := y) (m := k + 1) (by omega) (by omega)
        have := ih (k + 1) (by push_cast; omega) (by omega) (by omega)
        push_cast at this
        rw [hs] at this
        rw [show left - cum y (k + 1) - daysIn y (k + 1) = left - (cum y (k + 1) + daysIn y (k + 1)) by omega]
        exact this

theorem getDateFromDays_spec (days : Int) (h : 0 ≤ days) :
    ∃ t : YMD, t.Valid ∧ getDateFromDays days = some t.code ∧ dayNum t = days := by
  have hy : 0 ≤ days / 365 := by omega
  obtain ⟨y0, hy0, e, hlo, hhi⟩ := yearSearch_spec (days.natAbs + 2) (days / 365) days h hy (by omega) (by omega)
  have hs := yearDays_succ (y0 + 1)
  rw [show y0 + 1 - 1 = y0 by omega] at hs
  have c1 : cum (y0 + 1) 1 = 0 := by simp [cum]
  obtain ⟨mm, dd, e2, h1, h2, h3, h4⟩ := monthSearch_spec (y0 + 1) 13 0
    (days - (y0 * 365 + y0 / 4 + y0 / 400 - y0 / 100)) (by simp [c1]; omega) (by omega) (by omega) (by omega)
  simp [c1] at e2
  refine ⟨⟨y0 + 1, mm + 1, dd + 1⟩, ⟨by simp; omega, by simp, by simp; omega, by simp; omega, by simp; omega⟩, ?_, ?_⟩
  · unfold getDateFromDays
    rw [tdiv_nn h, e]
    simp only
    have := yearIsLeapYear_iff (y := y0 + 1) (by omega)
    rw [show y0 + 1 - 1 = y0 by omega] at this
    rw [this, e2]
    simp [getDate, YMD.code]
  · simp only [dayNum]
    rw [show y0 + 1 - 1 = y0 by omega, show dd + 1 - 1 = dd by omega]
    omega

theorem getDateFromDays_dayNum {t : YMD} (h : t.Valid) : getDateFromDays (dayNum t) = some t.code := by
  obtain ⟨s, hs, e, hd⟩ := getDateFromDays_spec (dayNum t) (dayNum_nonneg h)
  rw [e, dayNum_injective hs h hd]

end Verif

namespace Verif
open Spec

/-! ### Period floors -/

theorem normUp_spec (f : Nat) (y m : Int) (h : m ≤ 12 * f + 11) :
    12 * (normUp f y m).1 + (normUp f y m).2 = 12 * y + m ∧ (normUp f y m).2 ≤ 11 ∧
      (m ≤ 11 → (normUp f y m).2 = m) ∧ (11 < m → 0 ≤ (normUp f y m).2) := by
  induction f generalizing y m with
  | zero => simp [normUp]; omega
  | succ f ih =>
    unfold normUp
    split
    · have := ih (y + 1) (m - 12) (by push_cast at h; omega)
      omega
    · simp; omega

theorem normDown_spec (f : Nat) (y m : Int) (h : - (12 * f) ≤ m) (hu : m ≤ 11) :
    12 * (normDown f y m).1 + (normDown f y m).2 = 12 * y + m ∧ (normDown f y m).2 ≤ 11 ∧
      0 ≤ (normDown f y m).2 := by
  induction f generalizing y m with
  | zero => simp [normDown]; omega
  | succ f ih =>
    unfold normDown
    split
    · have := ih (y - 1) (m + 12) (by push_cast at h; omega) (by omega)
      omega
    · simp; omega

theorem normMonth_eq (y m : Int) : normMonth y m = (y + m / 12) * 10000 + (m % 12 + 1) * 100 + 1 := by
  unfold normMonth
  have h1 := normUp_spec m.natAbs y m (by omega)
  have h2 := normDown_spec (normUp m.natAbs y m).2.natAbs (normUp m.natAbs y m).1
    (normUp m.natAbs y m).2 (by omega) h1.2.1
  simp only
  omega

theorem floorMonth_code {t : YMD} (h : t.Valid) (k : Int) :
    floorMonth t.code k = (t.y + (t.m - 1 + k) / 12) * 10000 + ((t.m - 1 + k) % 12 + 1) * 100 + 1 := by
  obtain ⟨e1, e2, e3⟩ := code_fields h
  unfold floorMonth
  rw [e1, e2, normMonth_eq]

theorem floorQuarter_code {t : YMD} (h : t.Valid) (k : Int) :
    floorQuarter t.code k =
      (t.y + ((t.m - 1) / 3 + k) / 4) * 10000 + (((t.m - 1) / 3 + k) % 4 * 3 + 1) * 100 + 1 := by
  obtain ⟨e1, e2, e3⟩ := code_fields h
  obtain ⟨h1, h2, h3, h4, h5⟩ := h
  unfold floorQuarter
  rw [e1, e2, normMonth_eq, tdiv_nn (by omega)]
  omega

theorem floorYear_code {t : YMD} (h : t.Valid) (k : Int) :
    floorYear t.code k = (t.y + k) * 10000 + 101 := by
  obtain ⟨e1, e2, e3⟩ := code_fields h
  unfold floorYear
  rw [e1]

theorem first_valid {y m : Int} (h : 1 ≤ y) (h1 : 1 ≤ m) (h2 : m ≤ 12) : (YMD.mk y m 1).Valid := by
  have := daysIn_ge y m
  exact ⟨h, h1, h2, by simp, by simp; omega⟩

theorem floorDiff_yearly (today d k : Int) : floorDiff today d b!"yearly" k = floorYear d k := by
  simp [floorDiff]
theorem floorDiff_quarterly (today d k : Int) : floorDiff today d b!"quarterly" k = floorQuarter d k := by
  simp [floorDiff]
theorem floorDiff_monthly (today d k : Int) : floorDiff today d b!"monthly" k = floorMonth d k := by
  simp [floorDiff]

/-! ### Text -/

theorem intPad2 {n : Int} (h0 : 0 ≤ n) (h : n ≤ 99) :
    intPad 2 n = [48 + n.natAbs / 10, 48 + n.natAbs % 10] := by
  unfold intPad
  rw [if_neg (by omega)]
  generalize hn : n.natAbs = k
  by_cases h1 : k < 10
  · rw [natDec_lt h1]
    simp; omega
  · rw [natDec_ge (by omega), natDec_lt (by omega)]
    simp

theorem intPad4 {n : Int} (h0 : 0 ≤ n) (h : n ≤ 9999) :
    intPad 4 n = [48 + n.natAbs / 1000, 48 + n.natAbs / 100 % 10, 48 + n.natAbs / 10 % 10, 48 + n.natAbs % 10] := by
  unfold intPad
  rw [if_neg (by omega)]
  generalize hn : n.natAbs = k
  by_cases h1 : k < 10
  · rw [natDec_lt h1]
    simp; omega
  · by_cases h2 : k < 100
    · rw [natDec_ge (by omega), natDec_lt (by omega)]
      simp [List.replicate]; omega
    · by_cases h3 : k < 1000
      · rw [natDec_ge (by omega), natDec_ge (by omega), natDec_lt (by omega)]
        simp [List.replicate]; omega
      · rw [natDec_ge (by omega), natDec_ge (by omega), natDec_ge (by omega), natDec_lt (by omega)]
        simp
        omega

theorem isDigit_add {a : Nat} (h : a < 10) : isDigit (48 + a) = true := by
  simp [isDigit]; omega

theorem reYMD_digits {a b c d e f g i s1 s2 : Nat} (ha : a < 10) (hb : b < 10) (hc : c < 10) (hd : d < 10)
    (he : e < 10) (hf : f < 10) (hg : g < 10) (hi : i < 10)
    (h1 : s1 = 45 ∨ s1 = 47 ∨ s1 = 46) (h2 : s2 = 45 ∨ s2 = 47 ∨ s2 = 46) :
    reYMD [48+a, 48+b, 48+c, 48+d, s1, 48+e, 48+f, s2, 48+g, 48+i] =
      some ([48+a, 48+b, 48+c, 48+d], [48+e, 48+f], [48+g, 48+i]) := by
  simp [reYMD, pFour, pSeq, pDigit, pOpt, pSep, pOneTwo, isDigit_add, *]

theorem atoi0_two {a b : Nat} (ha : a < 10) (hb : b < 10) : atoi0 [48+a, 48+b] = a * 10 + b := by
  have e1 : ¬ (48 + a = 45) := by omega
  have e2 : ¬ (48 + a = 43) := by omega
  have hv : digitsVal [48+a, 48+b] = a * 10 + b := by simp [digitsVal]
  simp [atoi0, atoi, isDigit_add, ha, hb, e1, e2, hv]
  rw [if_pos (by omega)]
  simp

theorem atoi0_four {a b c d : Nat} (ha : a < 10) (hb : b < 10) (hc : c < 10) (hd : d < 10) :
    atoi0 [48+a, 48+b, 48+c, 48+d] = a * 1000 + b * 100 + c * 10 + d := by
  have e1 : ¬ (48 + a = 45) := by omega
  have e2 : ¬ (48 + a = 43) := by omega
  have hv : digitsVal [48+a, 48+b, 48+c, 48+d] = ((a * 10 + b) * 10 + c) * 10 + d := by simp [digitsVal]
  simp [atoi0, atoi, isDigit_add, ha, hb, hc, hd, e1, e2, hv]
  rw [if_pos (by omega)]
  simp
  omega

theorem dateString_code {t : YMD} (h : t.Valid) (hy : t.y ≤ 9999) :
    dateString t.code =
      [48 + t.y.natAbs / 1000, 48 + t.y.natAbs / 100 % 10, 48 + t.y.natAbs / 10 % 10, 48 + t.y.natAbs % 10, 47,
       48 + t.m.natAbs / 10, 48 + t.m.natAbs % 10, 47, 48 + t.d.natAbs / 10, 48 + t.d.natAbs % 10] := by
  have hp := code_pos h
  obtain ⟨e1, e2, e3⟩ := code_fields h
  obtain ⟨h1, h2, h3, h4, h5⟩ := h
  have := daysIn_le t.y t.m
  unfold dateString
  rw [if_neg (by omega), e1, e2, e3, intPad4 (by omega) (by omega), intPad2 (by omega) (by omega),
    intPad2 (by omega) (by omega)]
  simp

/-- Reading back `yyyy?mm?dd` with any of the separators. -/
theorem dateFromString_ymd (today : Int) {t : YMD} (h : t.Valid) (hy : t.y ≤ 9999) {s1 s2 : Nat}
    (h1 : s1 = 45 ∨ s1 = 47 ∨ s1 = 46) (h2 : s2 = 45 ∨ s2 = 47 ∨ s2 = 46) :
    dateFromString today
      [48 + t.y.natAbs / 1000, 48 + t.y.natAbs / 100 % 10, 48 + t.y.natAbs / 10 % 10, 48 + t.y.natAbs % 10, s1,
       48 + t.m.natAbs / 10, 48 + t.m.natAbs % 10, s2, 48 + t.d.natAbs / 10, 48 + t.d.natAbs % 10] = t.code := by
  obtain ⟨a1, a2, a3, a4, a5⟩ := h
  have := daysIn_le t.y t.m
  unfold dateFromString
  rw [reYMD_digits (by omega) (by omega) (by omega) (by omega) (by omega) (by omega) (by omega) (by omega) h1 h2]
  simp only
  rw [atoi0_four (by omega) (by omega) (by omega) (by omega), atoi0_two (by omega) (by omega),
    atoi0_two (by omega) (by omega)]
  rw [if_neg (by omega), if_neg (by omega)]
  unfold YMD.code
  omega

/-! ### AsYears -/

theorem asYears_code {t : YMD} (h : t.Valid) :
    asYears t.code = some (((t.y - 1 : Int) : Rat) + (cum t.y t.m : Rat) / (if leap t.y then 366 else 365)) := by
  obtain ⟨e1, e2, e3⟩ := code_fields h
  obtain ⟨h1, h2, h3, h4, h5⟩ := h
  unfold asYears
  simp only [e1, e2]
  rw [yearIsLeapYear_iff h1, monthLoop_eq _ _ _ h2 h3]
  simp

end Verif
