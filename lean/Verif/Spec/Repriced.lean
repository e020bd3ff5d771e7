import Verif.Spec.Scaled
import Verif.Spec.OnDay

/-! # Specification: a ledger with all its prices multiplied -/

namespace Verif.Spec

/-- A price in the base currency multiplied by `k`; other prices and bookings stay. -/
def repriceCall (k : Rat) (base : Str) : Call → Call
  | .addPrice d u c v => .addPrice d u c (if c = base then k * v else v)
  | x => x

/-- The currency is the base currency, or no price line gives its price in the base currency. -/
def Standing (base : Str) (cs : List Call) (c : Str) : Prop := c = base ∨ ∀ x ∈ priceLines cs, x.2.2.1 = base → x.2.1 ≠ c

instance (base : Str) (cs : List Call) (c : Str) : Decidable (Standing base cs c) := inferInstanceAs (Decidable (_ ∨ _))

/-- The operation renames currencies. -/
def RenamesCCY (op : Str) : Prop := ∃ s, op = b!"mapccy=" ++ s

end Verif.Spec
