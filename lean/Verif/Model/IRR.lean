import Verif.Model.Date

/-! # Internal rate of return: /repo/book/irr.go

The arithmetic is a parameter, so that IEEE-754 `float64` (with its infinities, NaN and rounding) and the real
numbers are both instances. -/

namespace Verif

/-- The arithmetic of irr.go: the operations and constants it uses. -/
structure Arith (F : Type) where
  add : F → F → F
  sub : F → F → F
  mul : F → F → F
  div : F → F → F
  pow : F → F → F
  abs : F → F
  lt : F → F → Bool
  zero : F
  one : F
  start : F      -- 0.10
  epsilon : F    -- 0.0001
  minusOne : F   -- -1
  floor : F      -- -0.999999999
  years : Rat → F

/-- irr.go:10-15: the years since the first date; `none`: no dates, or `AsYears` panics. -/
def irrYears {F : Type} (A : Arith F) : List Int → Option (List F)
  | [] => none
  | d :: ds =>
    match asYears d with
    | none => none
    | some s => ((ds.mapM asYears).map fun ys => A.zero :: ys.map fun y => A.sub (A.years y) (A.years s))

/-- The loop bodies of irr.go:25-27 and 34-36 run over the pairs (years[i], cashflow[i]), i ≥ 1. -/
def residual {F : Type} (A : Arith F) (c0 : F) (flows : List (F × F)) (guess : F) : F :=
  flows.foldl (fun r yc => A.add r (A.div yc.2 (A.pow (A.add A.one guess) yc.1))) c0

def residualAdj {F : Type} (A : Arith F) (flows : List (F × F)) (guess : F) : F :=
  flows.foldl (fun r yc => A.sub r (A.div (A.mul yc.1 yc.2) (A.pow (A.add A.one guess) (A.add yc.1 A.one)))) A.zero

/-- irr.go:21-48: the loop; the first argument is `limit - i`. -/
def irrLoop {F : Type} (A : Arith F) (c0 : F) (flows : List (F × F)) : Nat → F → F
  | 0, guess => guess
  | k + 1, guess =>
    let res := residual A c0 flows guess
    if A.lt (A.abs res) A.epsilon then guess
    else
      let newRate := A.sub guess (A.div res (residualAdj A flows guess))
      if A.lt (A.abs (A.sub newRate guess)) A.epsilon then guess
      else irrLoop A c0 flows k (if A.lt newRate A.minusOne then A.floor else newRate)

/-- irr.go:7-51 `CalculateIRR`; `none`: an index out of range (no dates, no cash flow, more cash flows than dates) or
a panic of `AsYears`. -/
def calculateIRR {F : Type} (A : Arith F) (dates : List Int) (cashflow : List F) : Option F :=
  match irrYears A dates with
  | none => none
  | some years =>
    match cashflow with
    | [] => none
    | c0 :: cs =>
      if years.length < cashflow.length then none
      else some (irrLoop A c0 (years.tail.zip cs) 10000 A.start)

end Verif
