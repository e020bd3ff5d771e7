import Verif.Model.IRR
import Mathlib.Analysis.SpecialFunctions.Pow.Real

namespace Verif.Spec

/-- The real numbers. -/
noncomputable def realArith : Arith ℝ where
  add := (· + ·)
  sub := (· - ·)
  mul := (· * ·)
  div := (· / ·)
  pow := (· ^ ·)
  abs := fun x => |x|
  lt := fun x y => @decide (x < y) (Classical.dec _)
  zero := 0
  one := 1
  start := 1 / 10
  epsilon := 1 / 10000
  minusOne := -1
  floor := -999999999 / 1000000000
  years := fun q => (q : ℝ)

/-- The present value, at rate `r`, of the cash flow `c0` now and `c` in `y` years for every `(y, c)`. -/
noncomputable def presentValue (c0 : ℝ) (flows : List (ℝ × ℝ)) (r : ℝ) : ℝ :=
  c0 + (flows.map fun yc => yc.2 / (1 + r) ^ yc.1).sum

/-- Its derivative. -/
noncomputable def presentValue' (flows : List (ℝ × ℝ)) (r : ℝ) : ℝ :=
  -(flows.map fun yc => yc.1 * yc.2 / (1 + r) ^ (yc.1 + 1)).sum

end Verif.Spec
