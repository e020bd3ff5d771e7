import Verif.Spec.Main
import Verif.Model.MainImport

/-! # Specification: import definitions of the configuration file, and the flags of `import` -/

namespace Verif.Spec

/-- What the file says in the table `<table>.<name>`. -/
def tablePart (table : Str) (keys : Keys) (n : Str) : Keys :=
  keys.filterMap fun x =>
    match x.1 with
    | t :: m :: f => if smallStr t = table ∧ m = n then some (f, x.2) else none
    | _ => none

/-- What the file says in `importdefs.<name>`. -/
def defPart (keys : Keys) (n : Str) : Keys := tablePart b!"importdefs" keys n

/-- A parameter of the format. -/
def paramOf : List Str × TomlVal → Option (Str × Str)
  | ([t, k], .str s) => if smallStr t = b!"params" then some (k, s) else none
  | _ => none

/-- The definition of a name: the last value of each key; what is not said is empty or off. -/
def defOf (keys : Keys) (n : Str) : ImpDef where
  fmt := ⟨fileStr (defPart keys n) [b!"configtype"] [], ((defPart keys n).filterMap paramOf).reverse⟩
  code := fileStr (defPart keys n) [b!"code"] []
  acct := fileStr (defPart keys n) [b!"account"] []
  cacct := fileStr (defPart keys n) [b!"counteraccount"] []
  ccy := fileStr (defPart keys n) [b!"ccy"] []
  dedup := fileBool (defPart keys n) [b!"dedup"] false
  reclassify := fileBool (defPart keys n) [b!"reclassify"] false

/-- There is a definition of this name. -/
def Defined (keys : Keys) (n : Str) : Prop := defPart keys n ≠ []

/-- A key of a definition and its value: a text, a switch, or a parameter of the format. -/
def DefKeyGood (f : List Str) (v : TomlVal) : Prop :=
  (∃ x s, f = [x] ∧ v = .str s ∧
    smallStr x ∈ [b!"configtype", b!"code", b!"account", b!"counteraccount", b!"ccy", b!"name", b!"description"]) ∨
  (∃ x b, f = [x] ∧ v = .bool b ∧ smallStr x ∈ [b!"dedup", b!"reclassify"]) ∨
  (∃ t k s, f = [t, k] ∧ v = .str s ∧ smallStr t = b!"params")

/-- What the file says in `generate.<name>`. -/
def genPart (keys : Keys) (n : Str) : Keys := tablePart b!"generate" keys n

/-- The generate definition of a name. -/
def genOf (keys : Keys) (n : Str) : GenDef := ⟨fileStr (genPart keys n) [b!"code"] [], fileBool (genPart keys n) [b!"dedup"] false⟩

/-- There is a generate definition of this name. -/
def GenDefined (keys : Keys) (n : Str) : Prop := genPart keys n ≠ []

/-- A key of a generate definition and its value. -/
def GenKeyGood (f : List Str) (v : TomlVal) : Prop :=
  (∃ x s, f = [x] ∧ v = .str s ∧ smallStr x ∈ [b!"code", b!"description"]) ∨ (∃ x b, f = [x] ∧ v = .bool b ∧ smallStr x = b!"dedup")

/-- A configuration file that can be loaded. -/
def FileGood (keys : Keys) : Prop :=
  (∀ x ∈ keys, KeyGood x.1 x.2) ∧ (∀ n, ∀ x ∈ defPart keys n, DefKeyGood x.1 x.2) ∧ ∀ n, ∀ x ∈ genPart keys n, GenKeyGood x.1 x.2

/-- The plain `import`: nothing is set but deduplication and reclassification. -/
def plainDef : ImpDef := ⟨⟨[], []⟩, [], [], [], [], true, true⟩

/-- The flags of an import command: `--code` and `--format` only where the definition does not say them. -/
def importFlagTable (d : ImpDef) : Table :=
  [(b!"dedup", some 100, .switch), (b!"reclassify", some 114, .switch)] ++ (if d.code = [] then [(b!"code", none, .text)] else []) ++
  (if d.fmt.typ = [] then [(b!"format", none, .form fun v => cliSet v ≠ none)] else []) ++
  [(b!"acct", some 97, .text), (b!"cacct", some 99, .text)] ++ appFlagTable

/-- The format: as on the line, or else as in the definition. -/
def lineFormat (line : List (Str × Str)) (d : CLIConfig) : CLIConfig :=
  match lastOf b!"format" line with
  | none => d
  | some v => (cliSet v).getD ⟨[], []⟩

/-- The settings of an import: the command line, or else the definition. -/
def importOf (line : List (Str × Str)) (d : ImpDef) : ImpDef where
  fmt := lineFormat line d.fmt
  code := lineStr line b!"code" d.code
  acct := lineStr line b!"acct" d.acct
  cacct := lineStr line b!"cacct" d.cacct
  ccy := d.ccy
  dedup := lineBool line b!"dedup" d.dedup
  reclassify := lineBool line b!"reclassify" d.reclassify

/-- A flag is given. -/
def Given (line : List (Str × Str)) (n : Str) : Prop := ∃ v, (n, v) ∈ line

/-- Nothing is missing: code, format, account and counter-account are in the definition or on the line. -/
def Complete (line : List (Str × Str)) (d : ImpDef) : Prop :=
  (d.code = [] → Given line b!"code") ∧ (d.fmt.typ = [] → Given line b!"format") ∧ (d.acct = [] → Given line b!"acct") ∧
    (d.cacct = [] → Given line b!"cacct")

/-- A name that can be given as a command: no blanks, not empty, no dash in front. -/
def NameGood (n : Str) : Prop := 32 ∉ n ∧ n ≠ [] ∧ n.head? ≠ some 45

/-- How Go walks a map: all the entries, in some order. -/
def WalksMap (im : ImpWorld) : Prop := (∀ l, (im.order l).Perm l) ∧ ∀ l, (im.genOrder l).Perm l

/-- Two formats with the same type and the same parameters. -/
def SameFormat (f g : CLIConfig) : Prop := f.typ = g.typ ∧ ∀ k, f.params.get k = g.params.get k

/-- The options of a definition, written out on the line. -/
def writtenOut (d : ImpDef) (format : Str) : List LinePart := [
  .eq b!"format" format, .eq b!"code" d.code, .eq b!"acct" d.acct, .eq b!"cacct" d.cacct,
  .eq b!"dedup" (if d.dedup then b!"true" else b!"false"), .eq b!"reclassify" (if d.reclassify then b!"true" else b!"false")]

/-- A call of `add` with everything written out: what it leaves out is the account, the currency and the counter-account given, the amount
undivided, no second account, no notes. -/
def addWritten (acct ccy cacct : Str) (a : RawAdd) : RawAdd := ⟨a.date, a.desc, a.amt, some (a.ccy.getD ccy), some (a.denom.getD 1),
  some (a.account.getD acct), some (a.amt2.getD .none), some (a.ccy2.getD ccy), some (a.denom2.getD 1), some (a.account2.getD []),
  some (a.caccount.getD cacct), some (a.note.getD []), some (a.lnote.getD [])⟩

/-- The same script with everything written out. -/
def runWritten (acct ccy cacct : Str) (r : ScriptRun) : ScriptRun := ⟨r.msgs, r.adds.map (addWritten acct ccy cacct), r.ok⟩

/-- The plain `generate`. -/
def plainGen : GenDef := ⟨[], true⟩

/-- The flags of a generate command: `--code` only where the definition does not say it. -/
def genFlagTable (d : GenDef) : Table :=
  [(b!"dedup", some 100, .switch)] ++ (if d.code = [] then [(b!"code", none, .text)] else []) ++ appFlagTable

/-- The settings of a generate: the command line, or else the definition. -/
def generateOf (line : List (Str × Str)) (d : GenDef) : GenDef := ⟨lineStr line b!"code" d.code, lineBool line b!"dedup" d.dedup⟩

/-- The same generating script with everything written out. -/
def actWritten (acct ccy cacct : Str) : RawAct → RawAct
  | .add a => .add (addWritten acct ccy cacct a)
  | x => x

/-- The options of a generate definition, written out on the line. -/
def genWrittenOut (d : GenDef) : List LinePart := [.eq b!"code" d.code, .eq b!"dedup" (if d.dedup then b!"true" else b!"false")]

end Verif.Spec
