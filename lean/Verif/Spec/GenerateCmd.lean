import Verif.Model.GenerateCmd
import Verif.Spec.Generate
import Verif.Spec.ImportCmd

/-! # Specification: the generate command -/

namespace Verif.Spec

/-- The script restricts the ledger only to periods in which all it adds lies (for one that only reads the ledger and adds: always so). -/
def KeepsDates (today : Int) (acts : List GenAct) : Prop :=
  ∀ a ∈ acts, ∀ x ∈ adds acts, KeepsDate today (dateFromString today x.date) a

/-- The steps can all be done. -/
def EndsWell (e : OpEnv) (setString : Str → Option Rat) (main : Book) (r : GenRun) : Prop :=
  r.ok = true ∧ ∃ ts, generate e setString true main r.acts = .shown ts

/-- The import file that makes the same `add` calls. -/
def asSource (setString : Str → Option Rat) (today : Int) (r : GenRun) : Source :=
  ⟨true, r.msgs, (adds r.acts).map (ScriptAdd.args setString today), r.ok⟩

end Verif.Spec
