import Verif.Spec.Repriced
import Verif.Spec.Price

/-! # Specification: a ledger with one more price line -/

namespace Verif.Spec

/-- One of the prices lies between the two days (perhaps on the second one). -/
def PriceBetween (l : List Price) (D d : Int) : Prop := ∃ q ∈ l, (d ≤ q.date ∧ q.date < D) ∨ (D < q.date ∧ q.date ≤ d)

/-- The second ledger has one price line more: a price of `u` in `c` for the day `D`. -/
def OneMorePrice (D : Int) (u c : Str) (cs cs' : List Call) : Prop := ∃ pre post v, cs = pre ++ post ∧ cs' = pre ++ .addPrice D u c v :: post

end Verif.Spec
