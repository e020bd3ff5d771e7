import Verif.Model.ReportCmd
import Verif.Model.RegisterFull
import Verif.Model.ListCmds
import Verif.Model.ConfigFile
import Verif.Model.Flags

/-! # From the command line to the exit status: /repo/main.go, /repo/cmd/root.go, /repo/cmd/app/app.go, and the `Add` functions of the commands

The commands `report`, `register`, `export`, `accts` and `ccy`; the other commands are a parameter.  The command comes first on the
command line (cobra also looks for it behind flags).  The flag library (spf13/pflag, spf13/cobra 1.6.1) is modelled by its documented
behaviour. -/

namespace Verif

/-- root.go:20-30 `Config`, as far as the five commands use it, and their flags without a place in it (`accts --json`, `--help`). -/
structure Conf where
  app : AppConf
  lang : Str
  verbose : Bool
  colour : Bool
  report : ReportConf
  css : Str
  reportPretty : Bool
  register : RegisterConf
  regType : Str
  zeroStart : Bool
  expType : Str
  expPretty : Bool
  json : Bool
  help : Bool

/-- app.go:42-56 `DefaultApp` with the environment variable LANG, and root.go:33-35: the other settings are zero values. -/
def defaultConf (lang : Option Str) : Conf where
  app := { ledger := b!"main.ledger", baseCCY := [], divider := b!":", all := false, macros := fun _ => none }
  lang := lang.getD b!"en"
  verbose := false
  colour := true
  report := { credit := [], hidden := [], convert := false, sum := false, typ := [], combineby := [] }
  css := []
  reportPretty := false
  register := { beginDate := [], endDate := [], count := 0, asc := false, combined := false, convert := false, split := false }
  regType := []
  zeroStart := false
  expType := []
  expPretty := false
  json := false
  help := false

/-- A value in the configuration file. -/
inductive TomlVal
  | str (s : Str)
  | bool (b : Bool)
  | int (i : Int)
  | strs (l : List Str)
  | other

/-- app.go:30-37, report.go:14-21, register.go:18-21, export.go:12: the settings that are texts, by key. -/
def strKeys : List (List Str × (Conf → Str → Conf)) := [
  ([b!"ledger"], fun c v => { c with app := { c.app with ledger := v } }),
  ([b!"baseccy"], fun c v => { c with app := { c.app with baseCCY := v } }),
  ([b!"divider"], fun c v => { c with app := { c.app with divider := v } }),
  ([b!"lang"], fun c v => { c with lang := v }),
  ([b!"report", b!"credit"], fun c v => { c with report := { c.report with credit := v } }),
  ([b!"report", b!"hidden"], fun c v => { c with report := { c.report with hidden := v } }),
  ([b!"report", b!"htmlcss"], fun c v => { c with css := v }),
  ([b!"report", b!"type"], fun c v => { c with report := { c.report with typ := v } }),
  ([b!"report", b!"combineby"], fun c v => { c with report := { c.report with combineby := v } }),
  ([b!"register", b!"begindate"], fun c v => { c with register := { c.register with beginDate := v } }),
  ([b!"register", b!"enddate"], fun c v => { c with register := { c.register with endDate := v } }),
  ([b!"register", b!"type"], fun c v => { c with regType := v }),
  ([b!"export", b!"type"], fun c v => { c with expType := v })]

/-- app.go:32-36, report.go:16-19, register.go:22-28, export.go:11: the settings that are switches. -/
def boolKeys : List (List Str × (Conf → Bool → Conf)) := [
  ([b!"verbose"], fun c v => { c with verbose := v }),
  ([b!"colour"], fun c v => { c with colour := v }),
  ([b!"all"], fun c v => { c with app := { c.app with all := v } }),
  ([b!"report", b!"convert"], fun c v => { c with report := { c.report with convert := v } }),
  ([b!"report", b!"jsonpretty"], fun c v => { c with reportPretty := v }),
  ([b!"report", b!"sum"], fun c v => { c with report := { c.report with sum := v } }),
  ([b!"register", b!"asc"], fun c v => { c with register := { c.register with asc := v } }),
  ([b!"register", b!"combined"], fun c v => { c with register := { c.register with combined := v } }),
  ([b!"register", b!"zerostart"], fun c v => { c with zeroStart := v }),
  ([b!"register", b!"convert"], fun c v => { c with register := { c.register with convert := v } }),
  ([b!"register", b!"split"], fun c v => { c with register := { c.register with split := v } }),
  ([b!"export", b!"jsonpretty"], fun c v => { c with expPretty := v })]

/-- The first entry of a table. -/
def entry {α : Type} (k : List Str) : List (List Str × α) → Option α
  | [] => none
  | (k', x) :: l => if k' = k then some x else entry k l

/-- config.go:46-54: one key of the file (`toml.Decode` sets the field, whatever the case of its name; a value of another type is an
error, and so is a key that has no field).  The keys of the other commands change nothing here, and their types are not checked. -/
def setKey1 (c : Conf) (k : List Str) (v : TomlVal) : Option Conf :=
  let key := k.map lowerStr
  match entry key strKeys, entry key boolKeys with
  | some f, _ =>
    match v with
    | .str s => some (f c s)
    | _ => none
  | none, some f =>
    match v with
    | .bool b => some (f c b)
    | _ => none
  | none, none =>
    if key = [b!"register", b!"count"] then
      match v with
      | .int i => some { c with register := { c.register with count := i } }
      | _ => none
    else
      match k, v with
      | [t, n], v =>
        if lowerStr t = b!"macros" then
          match v with
          | .strs l => some { c with app := { c.app with macros := fun m => if m = n then some l else c.app.macros m } }
          | _ => none
        else if knownKey k then some c else none
      | _, _ => if knownKey k then some c else none

/-- The keys of the file one after another. -/
def setKeys : Conf → List (List Str × TomlVal) → Option Conf
  | c, [] => some c
  | c, (k, v) :: l => (setKey1 c k v).bind fun c => setKeys c l

/-- A flag of a command: its name, its letter, what stands for a missing value (pflag `NoOptDefVal`), what declaring it does to the
settings, and what setting it does (`none`: the value is refused). -/
structure FlagOf (σ : Type) where
  name : Str
  short : Option Nat
  bare : Option Str
  declare : σ → σ
  set : σ → Str → Option σ

/-- The flags of the five commands. -/
abbrev Flag := FlagOf Conf

/-- pflag `StringVarP(p, name, shorthand, value)`: `*p = value`, later `*p` = the text given. -/
def stringVar {σ : Type} (name : Str) (short : Option Nat) (value : σ → Str) (p : σ → Str → σ) : FlagOf σ :=
  ⟨name, short, none, fun c => p c (value c), fun c v => some (p c v)⟩

/-- `strconv.ParseBool`. -/
def parseBool (s : Str) : Option Bool :=
  if s ∈ [b!"1", b!"t", b!"T", b!"TRUE", b!"true", b!"True"] then some true
  else if s ∈ [b!"0", b!"f", b!"F", b!"FALSE", b!"false", b!"False"] then some false
  else none

/-- pflag `BoolVarP`. -/
def boolVar {σ : Type} (name : Str) (short : Option Nat) (value : σ → Bool) (p : σ → Bool → σ) : FlagOf σ :=
  ⟨name, short, some b!"true", fun c => p c (value c), fun c v => (parseBool v).map (p c)⟩

/-- pflag `IntVar`; `num` is `strconv.ParseInt(s, 0, 64)`. -/
def intVar {σ : Type} (num : Str → Option Int) (name : Str) (value : σ → Int) (p : σ → Int → σ) : FlagOf σ :=
  ⟨name, none, none, fun c => p c (value c), fun c v => (num v).map (p c)⟩

/-- pflag `Var` with a utils.Enum (types.go:48-82): declaring it changes nothing. -/
def enumVar {σ : Type} (eqf : Str → Str → Bool) (name : Str) (valid : List Str) (value : σ → Str) (p : σ → Str → σ) : FlagOf σ :=
  ⟨name, none, none, id, fun c v => if (enumSet eqf valid (value c) v).2 then some (p c (enumSet eqf valid (value c) v).1) else none⟩

/-- What the flags take from outside: the comparison of texts without case and the reading of numbers. -/
structure FlagEnv where
  eqf : Str → Str → Bool
  num : Str → Option Int

/-- app.go:161-167, and cobra's help flag (app.go:184). -/
def appFlags : List Flag := [
  stringVar b!"ledger" (some 108) (·.app.ledger) fun c v => { c with app := { c.app with ledger := v } },
  stringVar b!"ccy" none (·.app.baseCCY) fun c v => { c with app := { c.app with baseCCY := v } },
  stringVar b!"divider" none (·.app.divider) fun c v => { c with app := { c.app with divider := v } },
  stringVar b!"lang" none (·.lang) fun c v => { c with lang := v },
  boolVar b!"verbose" none (·.verbose) fun c v => { c with verbose := v },
  boolVar b!"colour" none (·.colour) fun c v => { c with colour := v },
  boolVar b!"all" none (·.app.all) fun c v => { c with app := { c.app with all := v } },
  boolVar b!"help" (some 104) (fun _ => false) fun c v => { c with help := v }]

/-- report.go:73-82. -/
def reportFlags (f : FlagEnv) : List Flag := [
  enumVar f.eqf b!"splitby" splitTypes (·.report.combineby) fun c v => { c with report := { c.report with combineby := v } },
  enumVar f.eqf b!"type" reportTypes (·.report.typ) fun c v => { c with report := { c.report with typ := v } },
  boolVar b!"sum" none (·.report.sum) fun c v => { c with report := { c.report with sum := v } },
  boolVar b!"convert" none (·.report.convert) fun c v => { c with report := { c.report with convert := v } },
  boolVar b!"jsonpretty" none (·.reportPretty) fun c v => { c with reportPretty := v },
  stringVar b!"htmlcss" none (·.css) fun c v => { c with css := v },
  stringVar b!"credit" none (·.report.credit) fun c v => { c with report := { c.report with credit := v } },
  stringVar b!"hidden" none (·.report.hidden) fun c v => { c with report := { c.report with hidden := v } }]

/-- show_register.go:10-14 -/
def registerTypes : List Str := [b!"Text", b!"JSON", b!"CSV"]

/-- register.go:48-57. -/
def registerFlags (f : FlagEnv) : List Flag := [
  enumVar f.eqf b!"type" registerTypes (·.regType) fun c v => { c with regType := v },
  boolVar b!"combined" none (·.register.combined) fun c v => { c with register := { c.register with combined := v } },
  stringVar b!"begin" none (·.register.beginDate) fun c v => { c with register := { c.register with beginDate := v } },
  stringVar b!"asof" none (·.register.endDate) fun c v => { c with register := { c.register with endDate := v } },
  intVar f.num b!"count" (·.register.count) fun c v => { c with register := { c.register with count := v } },
  boolVar b!"asc" none (·.register.asc) fun c v => { c with register := { c.register with asc := v } },
  boolVar b!"zero" none (·.zeroStart) fun c v => { c with zeroStart := v },
  boolVar b!"split" none (·.register.split) fun c v => { c with register := { c.register with split := v } },
  boolVar b!"convert" none (·.register.convert) fun c v => { c with register := { c.register with convert := v } }]

/-- export.go:30-33. -/
def exportFlags (f : FlagEnv) : List Flag := [
  enumVar f.eqf b!"type" exportTypes (·.expType) fun c v => { c with expType := v },
  boolVar b!"jsonpretty" none (·.expPretty) fun c v => { c with expPretty := v }]

/-- accounts.go:20-21: the flag begins as false. -/
def acctsFlags : List Flag := [boolVar b!"json" none (fun _ => false) fun c v => { c with json := v }]

/-- The flag of a name. -/
def longFlag {σ : Type} (fs : List (FlagOf σ)) (n : Str) : Option (FlagOf σ) := fs.find? fun f => decide (f.name = n)

/-- The flag of a letter. -/
def shortFlag {σ : Type} (fs : List (FlagOf σ)) (c : Nat) : Option (FlagOf σ) := fs.find? fun f => decide (f.short = some c)

/-- pflag `parseSingleShortArg` in the loop of `parseShortArg`: the letters after one dash; the value of the last one may be the next
argument; what begins with `test.` is skipped.  `none` = error. -/
def parseShorts {σ : Type} (fs : List (FlagOf σ)) : Str → List Str → σ → Option (σ × List Str)
  | [], rest, c => some (c, rest)
  | x :: xs, rest, c =>
    if b!"test." <+: x :: xs then some (c, rest)
    else match shortFlag fs x with
    | none => none
    | some f =>
      if xs.length > 1 ∧ xs.head? = some 61 then (f.set c xs.tail).map fun c => (c, rest)
      else
        match f.bare with
        | some v => (f.set c v).bind fun c => parseShorts fs xs rest c
        | none =>
          if xs ≠ [] then (f.set c xs).map fun c => (c, rest)
          else
            match rest with
            | [] => none
            | v :: rest => (f.set c v).map fun c => (c, rest)

/-- pflag `parseLongArg`: what follows two dashes. -/
def parseLong {σ : Type} (fs : List (FlagOf σ)) (s : Str) (rest : List Str) (c : σ) : Option (σ × List Str) :=
  if s.head? = some 45 ∨ s.head? = some 61 then none
  else
    match longFlag fs (s.takeWhile fun x => decide (x ≠ 61)) with
    | none => none
    | some f =>
      if 61 ∈ s then (f.set c (s.dropWhile fun x => decide (x ≠ 61)).tail).map fun c => (c, rest)
      else
        match f.bare with
        | some v => (f.set c v).map fun c => (c, rest)
        | none =>
          match rest with
          | [] => none
          | v :: rest => (f.set c v).map fun c => (c, rest)

/-- pflag `parseArgs` with interspersed arguments; the first argument bounds the number of steps.  The result: the settings and the
arguments that are not flags; `none` = error. -/
def parseArgs {σ : Type} (fs : List (FlagOf σ)) : Nat → List Str → σ → Option (σ × List Str)
  | 0, _, _ => none
  | _ + 1, [], c => some (c, [])
  | n + 1, s :: rest, c =>
    match s with
    | 45 :: 45 :: [] => some (c, rest)
    | 45 :: 45 :: x :: xs => (parseLong fs (x :: xs) rest c).bind fun r => parseArgs fs n r.2 r.1
    | 45 :: x :: xs => (parseShorts fs (x :: xs) rest c).bind fun r => parseArgs fs n r.2 r.1
    | s => (parseArgs fs n rest c).map fun r => (r.1, s :: r.2)

/-- How the program ends: with a status and what it printed, or never. -/
inductive Exit
  | done (status : Nat) (out : List Exported)
  | never

/-- main.go:10-15 and the Go runtime: an error ends with status 1, a panic with 2, `log.Fatal` with 1.  (What was printed before is left
out; the message goes to the standard error output.) -/
def CmdEnd.exit : CmdEnd (List Exported) → Exit
  | .ok out => .done 0 out
  | .err => .done 1 []
  | .crash => .done 2 []
  | .fatal => .done 1 []
  | .diverge => .never

/-- What a run takes from the outside. -/
structure World where
  files : Env
  depth : Nat
  ops : OpEnv
  fuel : Nat
  order : Int → Str → List Str → List Str
  ccyOrder : List (Str × Nat) → List (Str × Nat)
  lang : Str → Lang
  print : PrintEnv
  screen : ScreenEnv
  flags : FlagEnv
  usage : Str → Str

/-- The screen with the colour setting (print.go:68). -/
def World.coloured (w : World) (c : Conf) : ScreenEnv := { w.screen with colour := c.colour }

/-- The commands, by name and alias: report.go:64-65, register.go:43, export.go:22-23, accounts.go:10-11, currencies.go:11. -/
inductive Cmd
  | report | register | export | accts | ccy
deriving DecidableEq

/-- cobra's `findNext`. -/
def findCmd (n : Str) : Option Cmd :=
  if n ∈ [b!"report", b!"trans", b!"transactions"] then some .report
  else if n = b!"register" then some .register
  else if n = b!"export" then some .export
  else if n ∈ [b!"accts", b!"accounts"] then some .accts
  else if n = b!"ccy" then some .ccy
  else none

/-- The flags of a command: its own and those of the application. -/
def Cmd.flags (f : FlagEnv) : Cmd → List Flag
  | .report => reportFlags f ++ appFlags
  | .register => registerFlags f ++ appFlags
  | .export => exportFlags f ++ appFlags
  | .accts => acctsFlags ++ appFlags
  | .ccy => appFlags

/-- cobra.MinimumNArgs(1) (register.go:40), MaximumNArgs(1) (accounts.go:16), NoArgs (currencies.go:16). -/
def Cmd.takes (n : Nat) : Cmd → Bool
  | .register => decide (1 ≤ n)
  | .accts => decide (n ≤ 1)
  | .ccy => decide (n = 0)
  | _ => true

/-- The `RunE` of the commands. -/
def Cmd.run (w : World) (c : Conf) (args : List Str) : Cmd → CmdEnd (List Exported)
  | .report =>
    (reportFull w.files w.depth w.ops w.fuel c.app c.report w.order (w.lang c.lang) w.print (w.coloured c) c.css args).bind fun x => .ok [x]
  | .register =>
    registerFull w.files w.depth w.ops w.fuel c.app c.register (w.lang c.lang) w.print (w.coloured c) c.regType args.dropLast (args.getLast?.getD [])
  | .export => (exportCmd w.files w.depth w.ops w.fuel c.app (w.lang c.lang) w.print c.expType args).bind fun x => .ok [x]
  | .accts =>
    (acctsCmd w.files w.depth w.ops c.app args.head?).bind fun l =>
      if c.json then .ok [.json (acctsJSON l)]
      else .orCrash ((acctsText w.screen.prt w.screen.width c.colour l).map fun x => [.text x.flatten])
  | .ccy => (ccyCmd w.files w.depth w.ops c.app w.ccyOrder).bind fun s => .ok [.text s]

/-- root.go:44-66: every command declares its flags, whichever is run. -/
def declareAll (f : FlagEnv) (c : Conf) : Conf :=
  (appFlags ++ acctsFlags ++ reportFlags f ++ registerFlags f ++ exportFlags f).foldl (fun c fl => fl.declare c) c

/-- cobra `Command.execute`: parse the flags, help, number of arguments, run. -/
def Cmd.execute (w : World) (name : Str) (args : List Str) (c : Conf) (k : Cmd) : Exit :=
  match parseArgs (k.flags w.flags) (args.length + 1) args c with
  | none => .done 1 []
  | some (c, args) =>
    if c.help then .done 0 [.text (w.usage name)]
    else if k.takes args.length = false then .done 1 []
    else (k.run w c args).exit

/-- root.go:32-78 `Execute` and main.go:9-15: `keys` is what the configuration file says, `none` if loading it failed (config.go:13-84).
`other` stands for the other commands. -/
def mainCmd (w : World) (lang : Option Str) (keys : Option (List (List Str × TomlVal))) (other : List Str → Conf → Exit) (args : List Str) : Exit :=
  match keys.bind (setKeys (defaultConf lang)) with
  | none => .done 1 []
  | some c =>
    let c := declareAll w.flags c
    match args with
    | [] => other args c
    | name :: rest =>
      match findCmd name with
      | none => other args c
      | some k => k.execute w name rest c

end Verif
