import Verif.Model.BookOp

/-! # Option strings: /repo/cmd/utils/cli_config.go -/

namespace Verif

/-- A Go `map[string]string`. -/
abbrev Params := List (Str × Str)

def Params.get (m : Params) (k : Str) : Option Str := (m.find? fun kv => decide (kv.1 = k)).map (·.2)

/-- `m[k] = v` -/
def Params.put (m : Params) (k v : Str) : Params := (k, v) :: m.filter fun kv => decide (kv.1 ≠ k)

/-- cli_config.go:9-12 `CLIConfig` -/
structure CLIConfig where
  typ : Str
  params : Params

/-- `strings.SplitN(s, sep, 2)`: before the first separator, and what follows it if there is one. -/
def cut (c : Nat) : Str → Str × Option Str
  | [] => ([], none)
  | x :: xs => if x = c then ([], some xs) else (x :: (cut c xs).1, (cut c xs).2)

/-- cli_config.go:61-75: the loop over the arguments; `none` = the error of line 71. -/
def setArgs (m : Params) : List Str → Option Params
  | [] => some m
  | arg :: args =>
    match cut 61 arg with
    | (k, none) => setArgs (m.put k b!"true") args
    | (k, some v) =>
      match m.get k with
      | some _ => none
      | none => setArgs (m.put k v) args

/-- cli_config.go:49-78 `Set`; `none` = error. -/
def cliSet (config : Str) : Option CLIConfig :=
  match cut 58 config with
  | (t, none) => some ⟨t, []⟩
  | (t, some rest) => (setArgs [] (splitB 44 rest)).map fun m => ⟨t, m⟩

/-- `strings.Join(l, ",")` -/
def joinArgs (c : Nat) : List Str → Str
  | [] => []
  | [f] => f
  | f :: g :: fs => f ++ c :: joinArgs c (g :: fs)

/-- cli_config.go:80-97 `String`; `ord` is the order in which the map is walked. -/
def cliString (ord : Params → Params) (e : CLIConfig) : Str :=
  if e.typ = [] then []
  else if e.params = [] then e.typ
  else e.typ ++ b!":" ++ joinArgs 44 ((ord e.params).map fun kv => kv.1 ++ b!"=" ++ kv.2)

/-- `strings.ToUpper` on ASCII input. -/
def upperA (c : Nat) : Nat := if 97 ≤ c ∧ c ≤ 122 then c - 32 else c

/-- cli_config.go:14-27 `GetBoolDefault`; `none` = error. -/
def CLIConfig.bool (cfg : CLIConfig) (k : Str) (dflt : Bool) : Option Bool :=
  match cfg.params.get k with
  | none => some dflt
  | some s => if s.map upperA = b!"TRUE" then some true else if s.map upperA = b!"FALSE" then some false else none

/-- cli_config.go:29-39 `GetIntDefault`; `none` = error. -/
def CLIConfig.int (cfg : CLIConfig) (k : Str) (dflt : Int) : Option Int :=
  match cfg.params.get k with
  | none => some dflt
  | some s => atoi s

/-- cli_config.go:41-47 `GetStringDefault` -/
def CLIConfig.str (cfg : CLIConfig) (k : Str) (dflt : Str) : Str := (cfg.params.get k).getD dflt

end Verif
