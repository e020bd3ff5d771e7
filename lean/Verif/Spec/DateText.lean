import Verif.Spec.Calendar
import Verif.Spec.Chars

/-! # Specification: dates as options and scripts write them -/

namespace Verif.Spec

/-- The value of a string of digits. -/
def numberOf (ds : Str) : Int := (digitsVal ds : Int)

/-- A number of the given numbers of digits. -/
def Digits (lo hi : Nat) (ds : Str) : Prop := lo ≤ ds.length ∧ ds.length ≤ hi ∧ ∀ c ∈ ds, digitChar c = true

/-- `-`, `/` or `.`. -/
def DateSep (c : Nat) : Prop := c = 45 ∨ c = 47 ∨ c = 46

/-- `.`, `_`, blank or tab. -/
def WordSep (c : Nat) : Prop := c = 46 ∨ c = 95 ∨ c = 32 ∨ c = 9

/-- The words for the period before, the present one, and the next, with the number of periods meant. -/
def PeriodShift (w : Str) (k : Int) : Prop := (w = b!"last" ∧ k = -1) ∨ (w = b!"this" ∧ k = 0) ∨ (w = b!"next" ∧ k = 1)

/-- `d` is the first day of the period (`year`, `quarter` or `month`, these being 12, 3 and 1 months long) that is `k` periods after the
one that day `t` is in: months are counted from the year 0. -/
def FirstOf (u : Str) (t : YMD) (k : Int) (d : YMD) : Prop :=
  ∃ n : Int, ((u = b!"year" ∧ n = 12) ∨ (u = b!"quarter" ∧ n = 3) ∨ (u = b!"month" ∧ n = 1)) ∧
    d.d = 1 ∧ 1 ≤ d.m ∧ d.m ≤ 12 ∧ d.y * 12 + (d.m - 1) = ((t.y * 12 + (t.m - 1)) / n + k) * n

/-- Texts that mean a day, today being `t`. -/
inductive MeansDay (t : YMD) : Str → YMD → Prop
  | year (ys) : Digits 4 4 ys → MeansDay t ys ⟨numberOf ys, 1, 1⟩
  | month (ys s ms) : Digits 4 4 ys → DateSep s → Digits 1 2 ms → MeansDay t (ys ++ s :: ms) ⟨numberOf ys, numberOf ms, 1⟩
  | ymd (ys s ms s' ds) : Digits 4 4 ys → DateSep s → Digits 1 2 ms → DateSep s' → Digits 1 2 ds →
      MeansDay t (ys ++ s :: ms ++ s' :: ds) ⟨numberOf ys, numberOf ms, numberOf ds⟩
  | dmy (ds s ms s' ys) : Digits 1 2 ds → DateSep s → Digits 1 2 ms → DateSep s' → Digits 4 4 ys →
      MeansDay t (ds ++ s :: ms ++ s' :: ys) ⟨numberOf ys, numberOf ms, numberOf ds⟩
  | relative (w sp u k d) : PeriodShift w k → sp ≠ [] → (∀ c ∈ sp, WordSep c) → FirstOf u t k d → MeansDay t (w ++ sp ++ u) d

/-- Text with none but digits and separators in it. -/
def Figures (s : Str) : Prop := ∀ c ∈ s, digitChar c = true ∨ DateSep c

/-- A number as Go reads one: digits, perhaps after a sign. -/
def Number (s : Str) : Prop := ∃ ds, Digits 1 ds.length ds ∧ (s = ds ∨ s = 45 :: ds ∨ s = 43 :: ds)

/-- A period word, separators and a unit. -/
def PeriodWords (s : Str) : Prop :=
  ∃ w sp u, s = w ++ sp ++ u ∧ (w = b!"last" ∨ w = b!"this" ∨ w = b!"next") ∧ sp ≠ [] ∧ (∀ c ∈ sp, WordSep c) ∧
    (u = b!"year" ∨ u = b!"quarter" ∨ u = b!"month")

end Verif.Spec
