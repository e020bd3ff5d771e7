import Verif.Spec.Main
import Verif.Spec.BookOp

/-! # Specification: a configuration file without its macros -/

namespace Verif.Spec

/-- A key of the table of macros. -/
def macroKey : List Str → Bool
  | [t, _] => decide (smallStr t = b!"macros")
  | _ => false

/-- The file without its macros. -/
def withoutMacros (keys : Keys) : Keys := keys.filter fun x => !macroKey x.1

end Verif.Spec
