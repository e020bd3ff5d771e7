import Verif.Spec.File
import Verif.Model.Commands

/-! # Specification: lines that say nothing, alias lines -/

namespace Verif.Spec

/-- Lines that say nothing: empty lines, comments, and lines that begin with `=` or `D`. -/
def FileLine.silent : FileLine → Bool
  | .blank _ => true
  | .comment _ _ => true
  | .unused _ _ => true
  | _ => false

/-- The aliases that the lines define, in order. -/
def aliasesOf : List FileLine → List (Str × Str)
  | [] => []
  | .short _ s _ _ l _ :: ls => (s, l) :: aliasesOf ls
  | _ :: ls => aliasesOf ls

/-- The ledger loads. -/
def Loads (srt : List Posting → List Posting) (le : Env) (f : Str) : Prop := ∃ depth bk, loadBook srt le depth f = .ok bk

end Verif.Spec
