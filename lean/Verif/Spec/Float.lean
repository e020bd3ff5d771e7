import Verif.Basic
import Mathlib.Algebra.Order.Field.Power

/-! # Specification: `float64` and rounding to an integer

What printing relies on: `big.Rat.Float64` gives the nearest `float64`, and formatting with a fixed number of
decimals rounds to a nearest integer multiple.  Nothing else about floating point is assumed. -/

namespace Verif.Spec

/-- A number with a 53 bit significand. -/
def IsDouble (x : Rat) : Prop := ∃ m e : Int, |m| ≤ 2 ^ 53 ∧ x = m * (2 : Rat) ^ e

/-- Rounding to `float64`, for numbers of ordinary size (the exponent range of `float64` goes beyond). -/
structure DoubleRounding (fl : Rat → Rat) : Prop where
  double : ∀ x, |x| ≤ 10 ^ 300 → IsDouble (fl x)
  close : ∀ x, |x| ≤ 10 ^ 300 → (x = 0 ∨ 1 / 10 ^ 300 ≤ |x|) → |fl x - x| ≤ |x| / 2 ^ 53

/-- Rounding of a non-negative number to a nearest whole number; halves may go either way. -/
def NearestNat (rd : Rat → Nat) : Prop := ∀ x, 0 ≤ x → |(rd x : Rat) - x| ≤ 1 / 2

end Verif.Spec
