import Verif.Model.ImportCmd
import Verif.Spec.ExportCmd
import Verif.Spec.Import

/-! # Specification: appending what an import printed -/

namespace Verif.Spec

/-- The files with the text `more` added to the end of the file `fn`. -/
def appendTo (le : Env) (fn : Str) (more : Str) : Env :=
  { le with files := fun g => if g = fn then (le.files fn).map (· ++ more) else le.files g }

/-- A message a comment line can hold. -/
def OneLineMsg (m : Str) : Prop := 0 ∉ m ∧ 10 ∉ m

/-- The import files could be read, and their scripts end well, with `add` calls that come to these books. -/
def ScriptsGive (srt : List Posting → List Posting) (ss : List Source) (bs : List Book) : Prop :=
  List.Forall₂ (fun s b => s.readable = true ∧ s.ok = true ∧ ∃ bb, runAdds Builder.new s.adds = .ok bb ∧ bb.build srt = some b) ss bs

end Verif.Spec
