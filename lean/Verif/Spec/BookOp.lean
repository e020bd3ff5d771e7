import Verif.Model.BookOp

/-! # What a list of operations and macros means -/

namespace Verif

/-- `Expansion mac ops flat`: replacing every macro in `ops` by its operations, until none is
left, gives `flat`. -/
inductive Expansion (mac : Str → Option (List Str)) : List Str → List Str → Prop
  | nil : Expansion mac [] []
  | prim {op : Str} {ops flat : List Str} : mac op = none → Expansion mac ops flat →
      Expansion mac (op :: ops) (op :: flat)
  | expand {op : Str} {ms ops flat flat' : List Str} : mac op = some ms → Expansion mac ms flat →
      Expansion mac ops flat' → Expansion mac (op :: ops) (flat ++ flat')

/-- What a caller sees: the book and whether the call failed. -/
inductive Seen
  | ok (b : Book)
  | failed (b : Book)
  | panic
  | diverge

def OpEnd.seen : OpEnd → Seen
  | .ok b => .ok b
  | .err b _ => .failed b
  | .panic => .panic
  | .diverge => .diverge

/-- Macro-free operations one after the other: the first invalid one ends the run with the
book as it is then. -/
def runFlat (e : OpEnv) : List Str → Book → Seen
  | [], b => .ok b
  | op :: ops, b =>
    match parsePrim e op with
    | none => .failed b
    | some p =>
      match p.apply e b with
      | none => .panic
      | some b' => runFlat e ops b'

/-- `op` is `bad`, or a macro from which the macros of `path`, each used in the one before, lead to `bad`. -/
inductive LeadsTo (mac : Str → Option (List Str)) : Str → List Str → Str → Prop
  | prim {bad : Str} : mac bad = none → LeadsTo mac bad [] bad
  | expand {op m bad : Str} {ms path : List Str} : mac op = some ms → m ∈ ms → LeadsTo mac m path bad → LeadsTo mac op (op :: path) bad

/-- `m` is used directly in the macro `op`. -/
def UsedIn (mac : Str → Option (List Str)) (m op : Str) : Prop := ∃ ms, mac op = some ms ∧ m ∈ ms

/-- No macro uses itself, directly or indirectly. -/
def Acyclic (mac : Str → Option (List Str)) : Prop := ∀ op, ¬ Relation.TransGen (UsedIn mac) op op

end Verif
