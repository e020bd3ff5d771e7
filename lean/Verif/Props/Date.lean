import Verif.Proofs.Date

/-! # C20–C27: dates -/

namespace Verif
open Spec

/-! ## C20 -/

/-- C20 (a): every real date survives the trip through its day number. -/
theorem c20_date_days_date (t : YMD) (h : t.Valid) :
    (asDays t.code).bind getDateFromDays = some t.code := by
  rw [asDays_code h]
  exact getDateFromDays_dayNum h

/-- C20 (b): every day number `n ≥ 0` is turned into a real date whose day number is `n`. -/
theorem c20_days_date_days (n : Int) (h : 0 ≤ n) :
    ∃ t : YMD, t.Valid ∧ getDateFromDays n = some t.code ∧ asDays t.code = some n := by
  obtain ⟨t, ht, e, hd⟩ := getDateFromDays_spec n h
  exact ⟨t, ht, e, by rw [asDays_code ht, hd]⟩

example : (⟨2020, 2, 29⟩ : YMD).Valid ∧ asDays 20200229 = some 737483 ∧
    getDateFromDays 737483 = some 20200229 := by decide +kernel

/-! ## C21 -/

/-- C21 (a): the next calendar day has the next day number. -/
theorem c21_next_day (t : YMD) (h : t.Valid) :
    t.next.Valid ∧ ∃ n, asDays t.code = some n ∧ asDays t.next.code = some (n + 1) :=
  ⟨next_valid h, dayNum t, asDays_code h, by rw [asDays_code (next_valid h), dayNum_next h]⟩

/-- C21 (b): the first day of year 1 is day 0. -/
theorem c21_day_zero : asDays (YMD.code ⟨1, 1, 1⟩) = some 0 := by decide +kernel

/-- C21 (c): day numbers are strictly increasing in the date. -/
theorem c21_strictly_increasing (s t : YMD) (hs : s.Valid) (ht : t.Valid) (h : s.code < t.code) :
    ∃ m n, asDays s.code = some m ∧ asDays t.code = some n ∧ m < n :=
  ⟨_, _, asDays_code hs, asDays_code ht, dayNum_strictMono hs ht h⟩

/-- C21 (d): `DaysSince` of a date `n` calendar days later is `n`. -/
theorem c21_daysSince_after (t : YMD) (h : t.Valid) (n : Nat) :
    daysSince (t.after n).code t.code = some (n : Int) := by
  unfold daysSince
  rw [asDays_code h, asDays_code (after_valid h n), dayNum_after h]
  simp

/-- C21 (e): and every later date is some number of calendar days later, so (d) determines
`DaysSince` on all pairs of real dates in order. -/
theorem c21_every_later_date (s t : YMD) (hs : s.Valid) (ht : t.Valid) (h : s.code ≤ t.code) :
    ∃ n : Nat, t = s.after n ∧ daysSince t.code s.code = some (n : Int) := by
  have hle : dayNum s ≤ dayNum t := by
    rcases Int.lt_or_eq_of_le h with h | h
    · exact Int.le_of_lt (dayNum_strictMono hs ht h)
    · rw [code_injective hs ht h]
  have e : t = s.after (dayNum t - dayNum s).toNat := by
    apply dayNum_injective ht (after_valid hs _)
    rw [dayNum_after hs]; omega
  refine ⟨(dayNum t - dayNum s).toNat, e, ?_⟩
  have := c21_daysSince_after s hs (dayNum t - dayNum s).toNat
  rwa [← e] at this

/-- C21 (f): `DaysSince` in the other direction is the negated count. -/
theorem c21_daysSince_before (s t : YMD) (hs : s.Valid) (ht : t.Valid) :
    ∃ n, daysSince t.code s.code = some n ∧ daysSince s.code t.code = some (-n) := by
  refine ⟨dayNum t - dayNum s, ?_, ?_⟩ <;> unfold daysSince <;>
    rw [asDays_code hs, asDays_code ht] <;> simp

example : (⟨1900, 2, 28⟩ : YMD).next = ⟨1900, 3, 1⟩ ∧ (⟨2000, 2, 28⟩ : YMD).next = ⟨2000, 2, 29⟩ ∧
    daysSince 20000301 20000228 = some 2 ∧ daysSince 19000301 19000228 = some 1 := by decide +kernel

/-! ## C22 -/

/-- C22 (a): `AddDays n` is the date `n` calendar days later. -/
theorem c22_addDays_later (t : YMD) (h : t.Valid) (n : Nat) :
    addDays t.code n = some (t.after n).code := by
  unfold addDays
  rw [asDays_code h]
  simp only
  rw [← dayNum_after h]
  exact getDateFromDays_dayNum (after_valid h n)

/-- C22 (b): `AddDays` with any number, also negative, that stays in the calendar gives a
real date that many days away. -/
theorem c22_addDays_daysSince (t : YMD) (h : t.Valid) (n : Int)
    (hn : ∃ a, asDays t.code = some a ∧ 0 ≤ a + n) :
    ∃ s : YMD, s.Valid ∧ addDays t.code n = some s.code ∧ daysSince s.code t.code = some n := by
  obtain ⟨a, ha, hn⟩ := hn
  obtain ⟨s, hs, e, hd⟩ := getDateFromDays_spec (a + n) hn
  refine ⟨s, hs, by unfold addDays; rw [ha]; exact e, ?_⟩
  unfold daysSince
  rw [asDays_code hs, ha, hd]; simp

/-- C22 (c): adding zero days changes nothing. -/
theorem c22_addDays_zero (t : YMD) (h : t.Valid) : addDays t.code 0 = some t.code := by
  simpa [YMD.after] using c22_addDays_later t h 0

/-- C22 (d): adding days twice is adding the sum, for positive and negative numbers, as
long as the intermediate date is in the calendar. -/
theorem c22_addDays_add (t : YMD) (a b : Int)
    (ha : ∃ n, asDays t.code = some n ∧ 0 ≤ n + a) :
    (addDays t.code a).bind (fun d => addDays d b) = addDays t.code (a + b) := by
  obtain ⟨n, hn, ha⟩ := ha
  obtain ⟨s, hs, e, hd⟩ := getDateFromDays_spec (n + a) ha
  have e1 : addDays t.code a = some s.code := by unfold addDays; rw [hn]; exact e
  rw [e1]
  show addDays s.code b = addDays t.code (a + b)
  unfold addDays
  rw [asDays_code hs, hn]
  simp only
  rw [hd, Int.add_assoc]

example : addDays 20200228 2 = some 20200301 ∧ addDays 20200301 (-2) = some 20200228 ∧
    (∃ n, asDays 20200301 = some n ∧ 0 ≤ n + (-2)) := by
  refine ⟨by decide +kernel, by decide +kernel, 737484, by decide +kernel, by decide⟩

/-! ## C23 -/

/-- C23 (a): `Floor` returns the first day of the enclosing year, quarter or month. -/
theorem c23_floor_is_period_start (today : Int) (t : YMD) (h : t.Valid) :
    floorBy today t.code b!"yearly" = t.yearStart.code ∧
    floorBy today t.code b!"quarterly" = t.quarterStart.code ∧
    floorBy today t.code b!"monthly" = t.monthStart.code := by
  have hy := floorYear_code h 0
  have hq := floorQuarter_code h 0
  have hm := floorMonth_code h 0
  obtain ⟨h1, h2, h3, h4, h5⟩ := h
  refine ⟨?_, ?_, ?_⟩
  · rw [floorBy, floorDiff_yearly, hy]; simp [YMD.yearStart, YMD.code]; omega
  · rw [floorBy, floorDiff_quarterly, hq]
    simp only [YMD.quarterStart, YMD.code]
    split
    · omega
    · split
      · omega
      · split <;> omega
  · rw [floorBy, floorDiff_monthly, hm]
    simp only [YMD.monthStart, YMD.code]
    omega

/-- The three proper periods. -/
def properPeriod (by_ : Str) : Prop := by_ = b!"yearly" ∨ by_ = b!"quarterly" ∨ by_ = b!"monthly"

/-- C23, other words: `today` is the current day, and a word that is no period leaves the date as it is. -/
theorem c23_other_words (today d diff : Int) (by_ : Str) :
    floorDiff today d b!"today" diff = today ∧ floorBy today d b!"today" = today ∧
    (by_ ∉ [b!"yearly", b!"quarterly", b!"monthly", b!"today"] → floorDiff today d by_ diff = d ∧ floorBy today d by_ = d) := by
  refine ⟨?_, ?_, fun h => ?_⟩
  · simp [floorDiff]
  · simp [floorBy, floorDiff]
  · simp only [List.mem_cons, List.not_mem_nil, or_false, not_or] at h
    simp [floorBy, floorDiff, h]

/-- C23 (b): the floor of a real date is a real date, not after it, the date lies before
the start of the next period, flooring again changes nothing, and flooring is monotone. -/
theorem c23_floor_laws (today : Int) (by_ : Str) (hb : properPeriod by_) (s t : YMD) (hs : s.Valid)
    (ht : t.Valid) :
    IsDate (floorBy today t.code by_) ∧
    floorBy today t.code by_ ≤ t.code ∧
    t.code < floorDiff today t.code by_ 1 ∧
    floorBy today (floorBy today t.code by_) by_ = floorBy today t.code by_ ∧
    (s.code ≤ t.code → floorBy today s.code by_ ≤ floorBy today t.code by_) := by
  obtain ⟨ey, eq, em⟩ := c23_floor_is_period_start today t ht
  obtain ⟨fy, fq, fm⟩ := c23_floor_is_period_start today s hs
  have h31 := daysIn_le t.y t.m
  have h31' := daysIn_le s.y s.m
  have ht' := ht
  have hs' := hs
  obtain ⟨h1, h2, h3, h4, h5⟩ := ht
  obtain ⟨g1, g2, g3, g4, g5⟩ := hs
  rcases hb with rfl | rfl | rfl
  · have hv : t.yearStart.Valid := first_valid h1 (by omega) (by omega)
    have e2 := (c23_floor_is_period_start today _ hv).1
    rw [ey, fy, e2]
    refine ⟨⟨_, hv, rfl⟩, ?_, ?_, rfl, ?_⟩
    · simp [YMD.yearStart, YMD.code]; omega
    · rw [floorDiff_yearly, floorYear_code ht']; simp only [YMD.code]; omega
    · simp only [YMD.yearStart, YMD.code]; omega
  · have hv : t.quarterStart.Valid := by
      unfold YMD.quarterStart
      refine first_valid h1 ?_ ?_ <;> (split; omega; split; omega; split <;> omega)
    have e2 := (c23_floor_is_period_start today _ hv).2.1
    have e3 : t.quarterStart.quarterStart = t.quarterStart := by
      unfold YMD.quarterStart
      congr 1
      simp only
      split <;> rename_i h6
      · rfl
      · split
        · rfl
        · split <;> rfl
    rw [eq, fq, e2, e3]
    refine ⟨⟨_, hv, rfl⟩, ?_, ?_, rfl, ?_⟩
    · simp only [YMD.quarterStart, YMD.code]; split; omega; split; omega; split <;> omega
    · rw [floorDiff_quarterly, floorQuarter_code ht']; simp only [YMD.code]; omega
    · intro hst
      simp only [YMD.quarterStart, YMD.code] at *
      split <;> split <;> (try split) <;> (try split) <;> (try split) <;> (try split) <;> omega
  · have hv : t.monthStart.Valid := first_valid h1 h2 h3
    have e2 := (c23_floor_is_period_start today _ hv).2.2
    rw [em, fm, e2]
    refine ⟨⟨_, hv, rfl⟩, ?_, ?_, rfl, ?_⟩
    · simp [YMD.monthStart, YMD.code]; omega
    · rw [floorDiff_monthly, floorMonth_code ht']; simp only [YMD.code]; omega
    · simp only [YMD.monthStart, YMD.code]; omega

example : floorBy 0 20200531 b!"quarterly" = 20200401 ∧ floorDiff 0 20201231 b!"quarterly" 1 = 20210101 ∧
    (⟨2020, 5, 31⟩ : YMD).Valid := by decide +kernel

/-! ## C24 -/

/-- Number of months per period. -/
def monthsPer (by_ : Str) : Int := if by_ = b!"yearly" then 12 else if by_ = b!"quarterly" then 3 else 1

/-- C24 (a): `FloorDiff(by, k)` is the first day of the period exactly `k` periods away
(counting periods from year 0), for every `k`. -/
theorem c24_floorDiff_moves_k_periods (today : Int) (by_ : Str) (hb : properPeriod by_) (t : YMD)
    (h : t.Valid) (k : Int) :
    let idx := (t.y * 12 + (t.m - 1)) / monthsPer by_ + k
    floorDiff today t.code by_ k =
      YMD.code ⟨idx * monthsPer by_ / 12, idx * monthsPer by_ % 12 + 1, 1⟩ := by
  have h' := h
  obtain ⟨h1, h2, h3, h4, h5⟩ := h
  rcases hb with rfl | rfl | rfl
  · rw [floorDiff_yearly, show monthsPer b!"yearly" = 12 by decide, floorYear_code h']
    simp only [YMD.code]; omega
  · rw [floorDiff_quarterly, show monthsPer b!"quarterly" = 3 by decide, floorQuarter_code h']
    simp only [YMD.code]; omega
  · rw [floorDiff_monthly, show monthsPer b!"monthly" = 1 by decide, floorMonth_code h']
    simp only [YMD.code]; omega

/-- C24 (b): stepping `a` and then `b` periods is stepping `a + b` periods, for positive and
negative `a` and `b` of any size, as long as the intermediate date is in the calendar. -/
theorem c24_floorDiff_additive (today : Int) (by_ : Str) (hb : properPeriod by_) (t : YMD)
    (h : t.Valid) (a b : Int) (ha : 10101 ≤ floorDiff today t.code by_ a) :
    floorDiff today (floorDiff today t.code by_ a) by_ b = floorDiff today t.code by_ (a + b) := by
  have e := c24_floorDiff_moves_k_periods today by_ hb t h a
  simp only at e
  have e' := c24_floorDiff_moves_k_periods today by_ hb t h (a + b)
  simp only at e'
  rw [e] at ha
  rw [e, e']
  have hp : monthsPer by_ = 12 ∨ monthsPer by_ = 3 ∨ monthsPer by_ = 1 := by
    rcases hb with rfl | rfl | rfl <;> decide
  have hv : (YMD.mk (((t.y * 12 + (t.m - 1)) / monthsPer by_ + a) * monthsPer by_ / 12)
      (((t.y * 12 + (t.m - 1)) / monthsPer by_ + a) * monthsPer by_ % 12 + 1) 1).Valid := by
    apply first_valid
    · simp only [YMD.code] at ha; rcases hp with hp | hp | hp <;> rw [hp] at ha ⊢ <;> omega
    · omega
    · omega
  rw [c24_floorDiff_moves_k_periods today by_ hb _ hv b]
  congr 2 <;> rcases hp with hp | hp | hp <;> rw [hp] <;> simp <;> omega

example : floorDiff 0 20200531 b!"monthly" (-17) = 20181201 ∧
    floorDiff 0 (floorDiff 0 20200531 b!"monthly" (-17)) b!"monthly" 30 = 20210601 ∧
    10101 ≤ floorDiff 0 20200531 b!"monthly" (-17) := by decide +kernel

/-! ## C25 (the loader's half is in Props/Loader) -/

/-- C25 (a): a real date up to year 9999 is read back from its text. -/
theorem c25_string_roundtrip (today : Int) (t : YMD) (h : t.Valid) (hy : t.y ≤ 9999) :
    dateFromString today (dateString t.code) = t.code := by
  rw [dateString_code h hy]
  exact dateFromString_ymd today h hy (by simp) (by simp)

example : (⟨2016, 4, 20⟩ : YMD).Valid ∧ dateString (YMD.code ⟨2016, 4, 20⟩) = b!"2016/04/20" ∧
    dateFromString 0 b!"2016/04/20" = 20160420 := by decide +kernel

/-! ## C26 -/

/-- C26 is false of the code: `DateFromString("2020-13-45")` returns 20201345, which is
neither 0 nor a date. -/
theorem c26_invalid_date_accepted_fails :
    ¬ ∀ (today : Int) (s : Str), dateFromString today s = 0 ∨ IsDate (dateFromString today s) := by
  intro h
  have e : dateFromString 0 b!"2020-13-45" = 20201345 := by decide +kernel
  rcases h 0 b!"2020-13-45" with h | ⟨t, ⟨h1, h2, h3, h4, h5⟩, h⟩
  · rw [e] at h; omega
  · have := daysIn_le t.y t.m
    rw [e] at h; unfold YMD.code at h; omega

/-! ## C27 -/

/-- C27 is false of the code: the day of the month is ignored. -/
theorem c27_asYears_ignores_day_fails :
    ¬ ∀ (s t : YMD), s.Valid → t.Valid → s.code < t.code →
      ∃ a b, asYears s.code = some a ∧ asYears t.code = some b ∧ a < b := by
  intro h
  obtain ⟨a, b, ha, hb, hab⟩ := h ⟨2020, 1, 1⟩ ⟨2020, 1, 2⟩ (by decide) (by decide) (by decide)
  have : asYears (YMD.code ⟨2020, 1, 1⟩) = asYears (YMD.code ⟨2020, 1, 2⟩) := by decide +kernel
  rw [this, hb] at ha
  simp at ha
  subst ha
  exact absurd hab (lt_irrefl _)

/-- C27, the part that holds: `AsYears` is monotone, and strictly so between different
months.  Missing: within a month it is constant. -/
theorem c27_asYears_monotone_partial (s t : YMD) (hs : s.Valid) (ht : t.Valid) (h : s.code ≤ t.code) :
    ∃ a b, asYears s.code = some a ∧ asYears t.code = some b ∧ a ≤ b ∧
      ((s.y, s.m) ≠ (t.y, t.m) → a < b) := by
  refine ⟨_, _, asYears_code hs, asYears_code ht, ?_⟩
  obtain ⟨h1, h2, h3, h4, h5⟩ := hs
  obtain ⟨g1, g2, g3, g4, g5⟩ := ht
  have a1 := daysIn_le s.y s.m
  have a2 := daysIn_le t.y t.m
  have hc1 := cum_nonneg s.y s.m
  have hc2 := cum_nonneg t.y t.m
  have hpos : ∀ y : Int, (0 : Rat) < (if leap y then 366 else 365) := by intro y; split <;> norm_num
  have hlt : (cum s.y s.m : Rat) / (if leap s.y then 366 else 365) < 1 := by
    rw [div_lt_one (hpos _)]
    have := cum_lt_year (y := s.y) (d := 1) h2 h3 (by omega)
    split
    · rename_i hl; rw [if_pos hl] at this; norm_num at this; exact_mod_cast this
    · rename_i hl; rw [if_neg hl] at this; norm_num at this; exact_mod_cast this
  have hnn : (0:Rat) ≤ (cum t.y t.m : Rat) / (if leap t.y then 366 else 365) :=
    div_nonneg (by exact_mod_cast hc2) (le_of_lt (hpos _))
  unfold YMD.code at h
  rcases Int.lt_trichotomy s.y t.y with hy | hy | hy
  · have h6 : ((s.y - 1 : Int) : Rat) + 1 ≤ ((t.y - 1 : Int) : Rat) := by
      have : s.y - 1 + 1 ≤ t.y - 1 := by omega
      exact_mod_cast this
    constructor
    · linarith
    · intro _; linarith
  · rcases Int.lt_trichotomy s.m t.m with hm | hm | hm
    · have h7 := cum_mono (y := s.y) h2 hm g3
      have h8 := daysIn_ge s.y s.m
      have h9 : (cum s.y s.m : Rat) < (cum t.y t.m : Rat) := by
        rw [← hy]
        have : cum s.y s.m < cum s.y t.m := by omega
        exact_mod_cast this
      have h10 : (cum s.y s.m : Rat) / (if leap s.y then 366 else 365) <
          (cum t.y t.m : Rat) / (if leap t.y then 366 else 365) := by
        rw [← hy] at h9 ⊢
        exact div_lt_div_of_pos_right h9 (hpos _)
      rw [← hy] at h10 ⊢
      constructor
      · linarith
      · intro _; linarith
    · rw [hy, hm]
      exact ⟨le_refl _, fun hn => absurd rfl hn⟩
    · omega
  · omega

example : (⟨2020, 1, 31⟩ : YMD).Valid ∧ (⟨2020, 2, 1⟩ : YMD).Valid ∧
    YMD.code ⟨2020, 1, 31⟩ ≤ YMD.code ⟨2020, 2, 1⟩ := by decide

end Verif
