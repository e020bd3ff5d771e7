import Verif.Spec.Again

/-! # Specification: a ledger with its currencies renamed -/

namespace Verif.Spec

/-- The booking, or the price, with other names of currencies. -/
def recoined (g : Str → Str) : Call → Call
  | .addPosting a c v n => .addPosting a (g c) v n
  | .addPrice d u c v => .addPrice d (g u) (g c) v
  | x => x

/-- What `mapccy=/SEARCH/REPLACE/` makes of a currency: if it matches, what matches is replaced. -/
def mapccyRule (e : OpEnv) (search replace : Str) (c : Str) : Str := if e.mat search c then e.rep search replace c else c

end Verif.Spec
