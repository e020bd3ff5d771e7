import Verif.Spec.Again

/-! # Specification: a ledger with all its amounts multiplied -/

namespace Verif.Spec

/-- The booking with its amount multiplied by `k`; prices stay. -/
def timesCall (k : Rat) : Call → Call
  | .addPosting a c v n => .addPosting a c (k * v) n
  | x => x

end Verif.Spec
