import Verif.Model.Web

/-! # What a web request should get -/

namespace Verif.Spec

/-- The value of a flag after some flags have been set: the last one given, else what it was. -/
def lastSet (l : List (Str × Str)) (k : Str) : Option Str := (l.reverse.find? fun kv => decide (kv.1 = k)).map (·.2)

/-- The settings a command sees after the flags `l` have been set. -/
def withFlags (base : Settings) (l : List (Str × Str)) : Settings := fun k => (lastSet l k).getD (base k)

/-- The answer to the arguments `args` when the flags in `before` were set earlier. -/
def answer (c : WebCmds) (base : Settings) (before : List (Str × Str)) (args : List Str) : Str :=
  match (c.parse args).2 with
  | some a => c.run (withFlags base (before ++ (c.parse args).1)) a
  | none => c.error args

/-- The answer of the command line program, started with these arguments. -/
def alone (c : WebCmds) (base : Settings) (args : List Str) : Str := answer c base [] args

/-- Requests answered one after the other. -/
def oneByOne (l : List Nat) : List Nat := l.flatMap fun i => [i, i, i, i]

end Verif.Spec
