import Mathlib.Init

/-! # Specification: the (proleptic) Gregorian calendar

Written from the calendar's rules, without reference to the model. -/

namespace Verif.Spec

/-- A calendar date. -/
structure YMD where
  y : Int
  m : Int
  d : Int
deriving DecidableEq, Repr

/-- Gregorian leap years. -/
def leap (y : Int) : Prop := y % 4 = 0 ∧ (y % 100 ≠ 0 ∨ y % 400 = 0)

instance (y : Int) : Decidable (leap y) :=
  inferInstanceAs (Decidable (_ ∧ (_ ∨ _)))

/-- Length of month `m` of year `y`. -/
def daysIn (y m : Int) : Int :=
  if m = 2 then (if leap y then 29 else 28)
  else if m = 4 ∨ m = 6 ∨ m = 9 ∨ m = 11 then 30 else 31

/-- A date that exists, from year 1 on. -/
def YMD.Valid (t : YMD) : Prop :=
  1 ≤ t.y ∧ 1 ≤ t.m ∧ t.m ≤ 12 ∧ 1 ≤ t.d ∧ t.d ≤ daysIn t.y t.m

instance (t : YMD) : Decidable t.Valid :=
  inferInstanceAs (Decidable (_ ∧ _ ∧ _ ∧ _ ∧ _))

/-- The integer yyyymmdd by which goledger represents the date. -/
def YMD.code (t : YMD) : Int := t.y * 10000 + t.m * 100 + t.d

/-- The following calendar day. -/
def YMD.next (t : YMD) : YMD :=
  if t.d < daysIn t.y t.m then { t with d := t.d + 1 }
  else if t.m < 12 then ⟨t.y, t.m + 1, 1⟩
  else ⟨t.y + 1, 1, 1⟩

/-- `n` days later. -/
def YMD.after (t : YMD) : Nat → YMD
  | 0 => t
  | n + 1 => (t.after n).next

/-- An integer that is the yyyymmdd code of a real date. -/
def IsDate (n : Int) : Prop := ∃ t : YMD, t.Valid ∧ n = t.code

/-- First day of the year containing the date. -/
def YMD.yearStart (t : YMD) : YMD := ⟨t.y, 1, 1⟩
/-- First day of the quarter containing the date. -/
def YMD.quarterStart (t : YMD) : YMD :=
  ⟨t.y, if t.m ≤ 3 then 1 else if t.m ≤ 6 then 4 else if t.m ≤ 9 then 7 else 10, 1⟩
/-- First day of the month containing the date. -/
def YMD.monthStart (t : YMD) : YMD := ⟨t.y, t.m, 1⟩

end Verif.Spec
