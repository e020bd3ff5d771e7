import Verif.Spec.File
import Verif.Model.Loader

/-! # Specification: files that include each other, files that are moved -/

namespace Verif.Spec

/-- The file `f` has a line that includes the file `g`. -/
def Includes (fs : Str → Option (List FileLine)) (join : Str → Str → Str) (f g : Str) : Prop :=
  ∃ ls sp q n, fs f = some ls ∧ FileLine.incl sp q n ∈ ls ∧ g = join f n

/-- The includes end: following them from `f`, whichever way one goes, one comes to a file without includes. -/
def IncludesEnd (fs : Str → Option (List FileLine)) (join : Str → Str → Str) (f : Str) : Prop :=
  Acc (fun g f => Includes fs join f g) f

/-- The files `P` of one disk are found under other names on another disk: the file `f` as `φ f`, with the same text; and what `f` calls `g`
(any part of its text), it still finds, under its new name. -/
structure MovedTo (φ : Str → Str) (P : Str → Prop) (e e' : Env) : Prop where
  texts : ∀ f, P f → e'.files (φ f) = e.files f
  names : ∀ f text g, P f → e.files f = some text → g <:+: text → P (e.join f g) ∧ e'.join (φ f) g = φ (e.join f g)
  letter : e'.letter = e.letter
  upper : e'.upper = e.upper
  ord : e'.ord = e.ord

end Verif.Spec
