import Verif.Model.BookOp
import Verif.Spec.DateText

/-! # Specification: commands that name the present day -/

namespace Verif.Spec

/-- The operation ends in the word `today`, in capital or small letters. -/
def EndsToday (op : Str) : Prop := ∃ front s, op = front ++ s ∧ s.map lower = b!"today"

/-- The operation ends in words for a period near the present one (`this month`, `last year`, …). -/
def EndsPeriodWords (op : Str) : Prop := ∃ front s, op = front ++ s ∧ PeriodWords s

/-- The words of a command line and those of the macros used there. -/
inductive Used (macros : Str → Option (List Str)) (args : List Str) : Str → Prop
  | given {op : Str} : op ∈ args → Used macros args op
  | within {m op : Str} {ms : List Str} : Used macros args m → macros m = some ms → op ∈ ms → Used macros args op

/-- The same computer on another day. -/
def _root_.Verif.OpEnv.onDay (e : OpEnv) (day : Int) : OpEnv := { e with today := day }

end Verif.Spec
