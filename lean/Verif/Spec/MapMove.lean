import Verif.Model.BookOp

/-! # Specification: to which account a renaming takes an account -/

namespace Verif.Spec

/-- `map=/s/r/alt/`: the account with the matches replaced; an account without a match stays, or becomes the alternate account if there is one. -/
def mapped (e : OpEnv) (s r alt A : Str) : Str := if e.mat s A = true then e.rep s r A else if alt = [] then A else alt

/-- Replacing the matches in a text without a match leaves it as it is. -/
def NoMatchStays (e : OpEnv) : Prop := ∀ s r A, e.mat s A = false → e.rep s r A = A

end Verif.Spec
