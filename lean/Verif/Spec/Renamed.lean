import Verif.Spec.Included

/-! # Specification: a ledger with its accounts renamed -/

namespace Verif.Spec

/-- The booking with another account name. -/
def renamed (g : Str → Str) : Call → Call
  | .addPosting a c v n => .addPosting (g a) c v n
  | x => x

/-- What `map=/SEARCH/REPLACE/ALT/` makes of an account: an account that does not match becomes ALT, if ALT is given; any other account has what
matches replaced, if REPLACE is given. -/
def mapRule (e : OpEnv) (search replace alt : Str) (a : Str) : Str :=
  if alt ≠ [] ∧ e.mat search a = false then alt else if replace ≠ [] then e.rep search replace a else a

/-- The account `short` becomes `long`; other accounts stay. -/
def becomes (short long : Str) (a : Str) : Str := if a = short then long else a

/-- The alias lines of the file, and of those that it may include, have to do with other accounts than `s`. -/
def OtherAliases (s : Str) (ls : List FileLine) : Prop := ∀ x ∈ aliasesOf ls, x.1 ≠ s ∧ x.2 ≠ s

end Verif.Spec
