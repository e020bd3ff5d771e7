import Verif.Model.Pager

/-! # Specification: what the reader sees of the output -/

namespace Verif.Spec

/-- The text of something printed. -/
def said : Out → Str
  | .text s => s
  | .table _ s => s

/-- All that was printed, in order. -/
def saidAll (os : List Out) : Str := (os.map said).flatten

/-- A table with more rows than the terminal. -/
def Tall (t : Term) : Out → Prop
  | .text _ => False
  | .table n _ => t.height < n

/-- The output is a terminal, of known size, and `less` can be started. -/
def CanPage (t : Term) : Prop := t.isStdout = true ∧ t.width ≠ -1 ∧ ∀ k, t.starts k = true

end Verif.Spec
