import Verif.Model.Main
import Verif.Model.ImportCmd
import Verif.Model.GenerateCmd

/-! # The import and generate commands, from the command line: /repo/cmd/importer/import.go, import_op.go, starlark.go, /repo/cmd/generate -/

namespace Verif

/-- import.go:14-34 `ImportDef`, as far as it is used. -/
structure ImpDef where
  fmt : CLIConfig
  code : Str
  acct : Str
  cacct : Str
  ccy : Str
  dedup : Bool
  reclassify : Bool

/-- A definition in the configuration file begins with zero values (`toml.Decode` into a `map[string]*ImportDef`). -/
def ImpDef.zero : ImpDef := ⟨⟨[], []⟩, [], [], [], [], false, false⟩

/-- import.go:156-160 -/
def ImpDef.dflt : ImpDef := { ImpDef.zero with dedup := true, reclassify := true }

/-- config.go:46-54: one key of a definition; `none` = there is no such field, or the value is of another type. -/
def impField (d : ImpDef) (f : List Str) (v : TomlVal) : Option ImpDef :=
  match f, v with
  | [f], .str s =>
    if lowerStr f = b!"configtype" then some { d with fmt := { d.fmt with typ := s } }
    else if lowerStr f = b!"code" then some { d with code := s }
    else if lowerStr f = b!"account" then some { d with acct := s }
    else if lowerStr f = b!"counteraccount" then some { d with cacct := s }
    else if lowerStr f = b!"ccy" then some { d with ccy := s }
    else if lowerStr f = b!"name" ∨ lowerStr f = b!"description" then some d
    else none
  | [f], .bool b =>
    if lowerStr f = b!"dedup" then some { d with dedup := b }
    else if lowerStr f = b!"reclassify" then some { d with reclassify := b }
    else none
  | [p, k], .str s => if lowerStr p = b!"params" then some { d with fmt := { d.fmt with params := d.fmt.params.put k s } } else none
  | _, _ => none

/-- generate.go:10-14 `Generate`, as far as it is used. -/
structure GenDef where
  code : Str
  dedup : Bool

/-- A definition in the configuration file begins with zero values. -/
def GenDef.zero : GenDef := ⟨[], false⟩

/-- generate.go:70-73 -/
def GenDef.dflt : GenDef := ⟨[], true⟩

/-- config.go:46-54: one key of a definition. -/
def genField (d : GenDef) (f : List Str) (v : TomlVal) : Option GenDef :=
  match f, v with
  | [f], .str s =>
    if lowerStr f = b!"code" then some { d with code := s }
    else if lowerStr f = b!"description" then some d
    else none
  | [f], .bool b => if lowerStr f = b!"dedup" then some { d with dedup := b } else none
  | _, _ => none

/-- The definition of a name. -/
def getDef {δ : Type} (n : Str) : List (Str × δ) → Option δ
  | [] => none
  | (m, d) :: ds => if m = n then some d else getDef n ds

/-- `m[n] = d` -/
def putDef {δ : Type} (n : Str) (d : δ) : List (Str × δ) → List (Str × δ)
  | [] => [(n, d)]
  | (m, e) :: ds => if m = n then (m, d) :: ds else (m, e) :: putDef n d ds

/-- config.go:46-54 for a table of definitions.  (A definition without any key is left out.) -/
def readDefs {δ : Type} (table : Str) (zero : δ) (field : δ → List Str → TomlVal → Option δ) :
    List (Str × δ) → List (List Str × TomlVal) → Option (List (Str × δ))
  | ds, [] => some ds
  | ds, (k, v) :: l =>
    match k with
    | t :: n :: f =>
      if lowerStr t = table then (field ((getDef n ds).getD zero) f v).bind fun d => readDefs table zero field (putDef n d ds) l
      else readDefs table zero field ds l
    | _ => readDefs table zero field ds l

/-- root.go:24 -/
def impDefs : List (List Str × TomlVal) → Option (List (Str × ImpDef)) := readDefs b!"importdefs" ImpDef.zero impField []

/-- root.go:25 -/
def genDefs : List (List Str × TomlVal) → Option (List (Str × GenDef)) := readDefs b!"generate" GenDef.zero genField []

/-- The settings while the flags of `import` or `generate` are read; `given` are the flags found so far (pflag's `Changed`). -/
structure CmdState (δ : Type) where
  conf : Conf
  d : δ
  given : List Str

abbrev ImpState := CmdState ImpDef

/-- A flag of the application. -/
def liftFlag {δ : Type} (f : Flag) : FlagOf (CmdState δ) :=
  ⟨f.name, f.short, f.bare, fun s => { s with conf := f.declare s.conf }, fun s v => (f.set s.conf v).map fun c => { s with conf := c }⟩

/-- pflag `Set`: `flag.Changed = true`. -/
def markFlag {δ : Type} (f : FlagOf (CmdState δ)) : FlagOf (CmdState δ) :=
  { f with set := fun s v => (f.set s v).map fun s => { s with given := f.name :: s.given } }

/-- pflag `Var` with a utils.CLIConfig (cli_config.go:49). -/
def formatVar : FlagOf ImpState :=
  ⟨b!"format", none, none, id, fun s v => (cliSet v).map fun x => { s with d := { s.d with fmt := x } }⟩

/-- import.go:128-146: the flags of the command of a definition, with those of the application.  (Declaring them writes back the settings they
have.) -/
def impFlags (d : ImpDef) : List (FlagOf ImpState) :=
  [boolVar b!"dedup" (some 100) (·.d.dedup) fun s v => { s with d := { s.d with dedup := v } },
    boolVar b!"reclassify" (some 114) (·.d.reclassify) fun s v => { s with d := { s.d with reclassify := v } }] ++
  (if d.code = [] then [markFlag (stringVar b!"code" none (·.d.code) fun s v => { s with d := { s.d with code := v } })] else []) ++
  (if d.fmt.typ = [] then [markFlag formatVar] else []) ++
  [markFlag (stringVar b!"acct" (some 97) (·.d.acct) fun s v => { s with d := { s.d with acct := v } }),
    markFlag (stringVar b!"cacct" (some 99) (·.d.cacct) fun s v => { s with d := { s.d with cacct := v } })] ++
  appFlags.map liftFlag

/-- import.go:130-146: the flags that must be given. -/
def impRequired (d : ImpDef) : List Str :=
  (if d.code = [] then [b!"code"] else []) ++ (if d.fmt.typ = [] then [b!"format"] else []) ++ (if d.acct = [] then [b!"acct"] else []) ++
    (if d.cacct = [] then [b!"cacct"] else [])

/-- generate.go:56-60: the flags of the command of a definition, with those of the application. -/
def genFlags (d : GenDef) : List (FlagOf (CmdState GenDef)) :=
  [boolVar b!"dedup" (some 100) (·.d.dedup) fun s v => { s with d := { s.d with dedup := v } }] ++
  (if d.code = [] then [markFlag (stringVar b!"code" none (·.d.code) fun s v => { s with d := { s.d with code := v } })] else []) ++
  appFlags.map liftFlag

/-- generate.go:57-60: the flags that must be given. -/
def genRequired (d : GenDef) : List Str := if d.code = [] then [b!"code"] else []

/-- A call of `add` as the script writes it: `none` for what it does not give. -/
structure RawAdd where
  date : Str
  desc : Str
  amt : SVal
  ccy : Option Str
  denom : Option Int
  account : Option Str
  amt2 : Option SVal
  ccy2 : Option Str
  denom2 : Option Int
  account2 : Option Str
  caccount : Option Str
  note : Option Str
  lnote : Option Str

/-- script/starlark.go:33-62: what is not given has its default. -/
def RawAdd.fill (acct ccy cacct : Str) (a : RawAdd) : ScriptAdd where
  date := a.date
  desc := a.desc
  amt := a.amt
  ccy := a.ccy.getD ccy
  denom := a.denom.getD 1
  account := a.account.getD acct
  amt2 := a.amt2.getD .none
  ccy2 := a.ccy2.getD ccy
  denom2 := a.denom2.getD 1
  account2 := a.account2.getD []
  caccount := a.caccount.getD cacct
  note := a.note.getD []
  lnote := a.lnote.getD []

/-- What a script does: the messages it prints, its calls, and whether it ends without an error. -/
structure ScriptRun where
  msgs : List Str
  adds : List RawAdd
  ok : Bool

/-- What a generating script does to the ledger (`data`), and its calls. -/
inductive RawAct
  | read
  | since (date : Str)
  | asof (date : Str)
  | map (from_ to_ alt : Str)
  | add (a : RawAdd)

/-- generate/starlark.go:12: the defaults of `add` in a generating script. -/
def RawAct.fill : RawAct → GenAct
  | .read => .read
  | .since d => .since d
  | .asof d => .asof d
  | .map f t a => .map f t a
  | .add a => .add (a.fill b!"acct" b!"ccy" b!"cacct")

/-- What a generating script does: the messages it prints, its steps, and whether it ends without an error. -/
structure RawGenRun where
  msgs : List Str
  acts : List RawAct
  ok : Bool

/-- What import and generate take from outside: the files (a file, or `-` for the standard input, after those read before), the decoders, the
scripts (also generating ones), the reading of numbers, how Go walks its maps, and the likeness of names. -/
structure ImpWorld where
  read : List Str → Str → Option Str
  codeFile : Str → Option Str
  decode : Str → Option (Json × Str)
  split : Nat → Str → Option (List (List Str))
  exec : Str → SVal → Str → ScriptRun
  setString : Str → Option Rat
  gen : Str → Book → RawGenRun
  order : List (Str × ImpDef) → List (Str × ImpDef)
  genOrder : List (Str × GenDef) → List (Str × GenDef)
  o1 : List (Str × Nat) → List (Str × Nat)
  o2 : List (Str × Str) → List (Str × Str)
  dist : Str → Str → Rat

/-- import.go:62-80, importer/starlark.go:9-26, script/starlark.go:115-119: what one file comes to. -/
def sourceOf (im : ImpWorld) (today : Int) (d : ImpDef) (rd : Str → ReadRes SVal) (before : List Str) (file : Str) : Source :=
  match im.read before file with
  | none => ⟨false, [], [], false⟩
  | some text =>
    match rd text with
    | .ok v =>
      match fileOrStr im.codeFile d.code with
      | none => ⟨true, [], [], false⟩
      | some code =>
        ⟨true, (im.exec code v file).msgs, (im.exec code v file).adds.map fun a => (a.fill d.acct d.ccy d.cacct).args im.setString today,
          (im.exec code v file).ok⟩
    | _ => ⟨false, [], [], false⟩

/-- The files one after another. -/
def sourcesOf (im : ImpWorld) (today : Int) (d : ImpDef) (rd : Str → ReadRes SVal) : List Str → List Str → List Source
  | _, [] => []
  | before, f :: fs => sourceOf im today d rd before f :: sourcesOf im today d rd (before ++ [f]) fs

/-- How the program ends after a command that prints as it goes. -/
def Printed.exit (p : Printed) : Exit :=
  match p.fin with
  | .ok _ => .done 0 [.text p.text]
  | .err => .done 1 [.text p.text]
  | .fatal => .done 1 [.text p.text]
  | .crash => .done 2 [.text p.text]
  | .diverge => .never

/-- import.go:36-118 `run`. -/
def importFull (w : World) (im : ImpWorld) (a : AppConf) (lang : Str) (d : ImpDef) (args : List Str) : Exit :=
  let d := if d.ccy = [] then { d with ccy := a.baseCCY } else d
  match importReader im.decode im.split d.fmt with
  | none => .done 1 []
  | some rd =>
    (importCmd w.files w.depth w.ops.srt a (w.lang lang) w.print d.dedup (if d.reclassify then some ⟨im.o1, im.o2, im.dist, d.acct⟩ else none)
      (sourcesOf im w.ops.today d rd [] args)).exit

/-- cobra `Command.execute` for `import` and the definitions: flags, help, number of arguments (import.go:125), required flags, run. -/
def impExecute (w : World) (im : ImpWorld) (name : Str) (d : ImpDef) (args : List Str) (c : Conf) : Exit :=
  match parseArgs (impFlags d) (args.length + 1) args ⟨c, d, []⟩ with
  | none => .done 1 []
  | some (s, args) =>
    if s.conf.help then .done 0 [.text (w.usage name)]
    else if args = [] then .done 1 []
    else if (impRequired d).all (fun n => decide (n ∈ s.given)) then importFull w im s.conf.app s.conf.lang s.d args
    else .done 1 []

/-- generate/starlark.go:9-27, script/starlark.go:115-119: the script of a definition. -/
def genScript (im : ImpWorld) (d : GenDef) (main : Book) : GenRun :=
  match fileOrStr im.codeFile d.code with
  | none => ⟨[], [], false⟩
  | some code => ⟨(im.gen code main).msgs, (im.gen code main).acts.map RawAct.fill, (im.gen code main).ok⟩

/-- generate.go:16-45 `run`. -/
def generateFull (w : World) (im : ImpWorld) (a : AppConf) (lang : Str) (d : GenDef) : Exit :=
  (generateCmd w.files w.depth w.ops im.setString a (w.lang lang) w.print d.dedup (genScript im d)).exit

/-- cobra `Command.execute` for `generate` and the definitions: flags, help, no arguments (generate.go:52), required flags, run. -/
def genExecute (w : World) (im : ImpWorld) (name : Str) (d : GenDef) (args : List Str) (c : Conf) : Exit :=
  match parseArgs (genFlags d) (args.length + 1) args ⟨c, d, []⟩ with
  | none => .done 1 []
  | some (s, args) =>
    if s.conf.help then .done 0 [.text (w.usage name)]
    else if args ≠ [] then .done 1 []
    else if (genRequired d).all (fun n => decide (n ∈ s.given)) then generateFull w im s.conf.app s.conf.lang s.d
    else .done 1 []

/-- cobra `Command.Name`: the definition's name up to the first blank (import.go:121, generate.go:49 `Use`). -/
def cmdName (n : Str) : Str := n.takeWhile fun c => decide (c ≠ 32)

/-- import.go:153-168, generate.go:67-82 `Add`: a command and those of the definitions, in the order of the map; the first with the name is
taken (cobra `findNext`).  cobra also looks for a definition's name behind flags: that is left to `other`. -/
def defsMain {δ : Type} (cmd : Str) (dflt : δ) (execute : Str → δ → List Str → Conf → Exit) (defs : List (Str × δ))
    (other : List Str → Conf → Exit) (args : List Str) (c : Conf) : Exit :=
  match args with
  | [] => other args c
  | name :: rest =>
    if name = cmd then
      match rest.head? with
      | none => execute name dflt rest c
      | some n =>
        if n = [] ∨ n.head? = some 45 then
          if rest.any (fun a => defs.any fun x => decide (cmdName x.1 = a)) then other args c
          else execute name dflt rest c
        else
          match defs.find? (fun x => decide (cmdName x.1 = n)) with
          | some x => execute n x.2 rest.tail c
          | none => execute name dflt rest c
    else other args c

/-- root.go:32-78 with the import and generate commands. -/
def goledgerMain (w : World) (im : ImpWorld) (lang : Option Str) (keys : Option (List (List Str × TomlVal))) (other : List Str → Conf → Exit)
    (args : List Str) : Exit :=
  match keys.bind impDefs, keys.bind genDefs with
  | some defs, some gens =>
    mainCmd w lang keys (defsMain b!"import" ImpDef.dflt (impExecute w im) (im.order defs)
      (defsMain b!"generate" GenDef.dflt (genExecute w im) (im.genOrder gens) other)) args
  | _, _ => .done 1 []

end Verif
