import Verif.Model.Main
import Mathlib.Data.List.Forall2

/-! # Specification: command lines, configuration files, and which of them decides a setting -/

namespace Verif.Spec

/-! ## Command lines -/

/-- What a flag takes: a text, nothing (or a truth value after `=`), a whole number, one of some words, a text of some form. -/
inductive Kind
  | text
  | switch
  | number
  | choice (words : List Str)
  | form (good : Str → Prop)

/-- The flags of a command: name, letter, kind. -/
abbrev Table := List (Str × Option Nat × Kind)

/-- The kind of a flag. -/
def kindOf : Table → Str → Option Kind
  | [], _ => none
  | (n, _, k) :: t, m => if n = m then some k else kindOf t m

/-- The flag of a letter. -/
def ofLetter : Table → Nat → Option (Str × Kind)
  | [], _ => none
  | (n, s, k) :: t, c => if s = some c then some (n, k) else ofLetter t c

/-- How the value of a flag given by its letter is written: behind the letter, behind `=`, or as the next argument. -/
inductive LetterForm
  | glued
  | eq
  | next

/-- A part of a command line. -/
inductive LinePart
  | word (s : Str)
  | eq (name value : Str)                                              -- --name=value
  | next (name value : Str)                                            -- --name value
  | alone (name : Str)                                                 -- --name
  | letters (switches : List Nat) (last : Option (Nat × Str × LetterForm))   -- -abc, -abcvalue, -abc=value, -abc value
  | testing (switches : List Nat) (s : Str)                            -- -abctest.s, skipped

/-- How it is written. -/
def LinePart.text : LinePart → List Str
  | .word s => [s]
  | .eq n v => [b!"--" ++ n ++ b!"=" ++ v]
  | .next n v => [b!"--" ++ n, v]
  | .alone n => [b!"--" ++ n]
  | .testing bs s => [b!"-" ++ bs ++ b!"test." ++ s]
  | .letters bs none => [b!"-" ++ bs]
  | .letters bs (some (c, v, .glued)) => [b!"-" ++ bs ++ c :: v]
  | .letters bs (some (c, v, .eq)) => [b!"-" ++ bs ++ c :: b!"=" ++ v]
  | .letters bs (some (c, v, .next)) => [b!"-" ++ bs ++ [c], v]

/-- A letter of a switch. -/
def IsSwitch (t : Table) (c : Nat) : Prop := ∃ n, ofLetter t c = some (n, .switch)

/-- A letter of a flag with a value. -/
def IsValued (t : Table) (c : Nat) : Prop := ∃ n k, ofLetter t c = some (n, k) ∧ k ≠ .switch

/-- Whether a part can be read with the flags of a command. -/
def LinePart.Fits (t : Table) : LinePart → Prop
  | .word s => s.head? = some 45 → s = b!"-"
  | .eq n _ => kindOf t n ≠ none
  | .next n _ => ∃ k, kindOf t n = some k ∧ k ≠ .switch
  | .alone n => kindOf t n = some .switch
  | .testing bs _ => ∀ c ∈ bs, IsSwitch t c
  | .letters bs none => bs ≠ [] ∧ ∀ c ∈ bs, IsSwitch t c
  | .letters bs (some (c, v, .glued)) => (∀ c ∈ bs, IsSwitch t c) ∧ IsValued t c ∧ v ≠ [] ∧ ¬ (1 < v.length ∧ v.head? = some 61)
  | .letters bs (some (c, v, .eq)) => (∀ c ∈ bs, IsSwitch t c) ∧ ofLetter t c ≠ none ∧ v ≠ []
  | .letters bs (some (c, _, .next)) => (∀ c ∈ bs, IsSwitch t c) ∧ IsValued t c

/-- The name of a letter's flag. -/
def letterName (t : Table) (c : Nat) : Str := ((ofLetter t c).map (·.1)).getD []

/-- The flags given, with their values. -/
def LinePart.flags (t : Table) : LinePart → List (Str × Str)
  | .word _ => []
  | .eq n v => [(n, v)]
  | .next n v => [(n, v)]
  | .alone n => [(n, b!"true")]
  | .testing bs _ => bs.map fun c => (letterName t c, b!"true")
  | .letters bs last => bs.map (fun c => (letterName t c, b!"true")) ++
      match last with
      | none => []
      | some (c, v, _) => [(letterName t c, v)]

/-- The words that are not flags. -/
def LinePart.words : LinePart → List Str
  | .word s => [s]
  | _ => []

/-- A command line after the command: its parts, and what follows `--`, if that is there. -/
structure CmdLine where
  parts : List LinePart
  rest : Option (List Str)

/-- How it is written. -/
def CmdLine.text (l : CmdLine) : List Str :=
  l.parts.flatMap LinePart.text ++ (match l.rest with | none => [] | some r => b!"--" :: r)

/-- The flags given, in order. -/
def CmdLine.flags (t : Table) (l : CmdLine) : List (Str × Str) := l.parts.flatMap (LinePart.flags t)

/-- The arguments. -/
def CmdLine.words (l : CmdLine) : List Str := l.parts.flatMap LinePart.words ++ l.rest.getD []

/-- The words for true. -/
def yesWords : List Str := [b!"1", b!"t", b!"T", b!"TRUE", b!"true", b!"True"]

/-- The words for false. -/
def noWords : List Str := [b!"0", b!"f", b!"F", b!"FALSE", b!"false", b!"False"]

/-- Whether a value is one the flag takes. -/
def Kind.takes (f : FlagEnv) (v : Str) : Kind → Prop
  | .text => True
  | .switch => v ∈ yesWords ∨ v ∈ noWords
  | .number => f.num v ≠ none
  | .choice ws => ∃ w ∈ ws, f.eqf w v = true
  | .form good => good v

/-- Whether the command line can be read: its parts fit the flags, and the values are of their kind. -/
def CmdLine.Good (f : FlagEnv) (t : Table) (l : CmdLine) : Prop :=
  (∀ p ∈ l.parts, p.Fits t) ∧ ∀ x ∈ l.flags t, ∀ k, kindOf t x.1 = some k → k.takes f x.2

/-! ## The flags -/

/-- The flags of every command. -/
def appFlagTable : Table := [
  (b!"ledger", some 108, .text), (b!"ccy", none, .text), (b!"divider", none, .text), (b!"lang", none, .text), (b!"verbose", none, .switch),
  (b!"colour", none, .switch), (b!"all", none, .switch), (b!"help", some 104, .switch)]

/-- The flags of `report`. -/
def reportFlagTable : Table := [
  (b!"splitby", none, .choice [b!"yearly", b!"quarterly", b!"monthly", b!"today", b!"none", b!"skip"]),
  (b!"type", none, .choice [b!"Text", b!"Ledger", b!"Json", b!"HTML", b!"Beancount"]),
  (b!"sum", none, .switch), (b!"convert", none, .switch), (b!"jsonpretty", none, .switch), (b!"htmlcss", none, .text), (b!"credit", none, .text),
  (b!"hidden", none, .text)] ++ appFlagTable

/-- The flags of `register`. -/
def registerFlagTable : Table := [
  (b!"type", none, .choice [b!"Text", b!"JSON", b!"CSV"]), (b!"combined", none, .switch), (b!"begin", none, .text), (b!"asof", none, .text),
  (b!"count", none, .number), (b!"asc", none, .switch), (b!"zero", none, .switch), (b!"split", none, .switch), (b!"convert", none, .switch)] ++ appFlagTable

/-- The flags of `export`. -/
def exportFlagTable : Table := [
  (b!"type", none, .choice [b!"Ledger", b!"Json", b!"Beancount", b!"CSV"]), (b!"jsonpretty", none, .switch)] ++ appFlagTable

/-- The flags of `accts`. -/
def acctsFlagTable : Table := [(b!"json", none, .switch)] ++ appFlagTable

/-! ## Which source decides -/

/-- The last value given to a flag. -/
def lastOf (n : Str) : List (Str × Str) → Option Str
  | [] => none
  | (m, v) :: l => (lastOf n l).or (if m = n then some v else none)

/-- A text setting: the last value on the line, or else the given one. -/
def lineStr (line : List (Str × Str)) (n : Str) (d : Str) : Str := (lastOf n line).getD d

/-- A switch. -/
def lineBool (line : List (Str × Str)) (n : Str) (d : Bool) : Bool :=
  match lastOf n line with
  | none => d
  | some v => decide (v ∈ yesWords)

/-- A number. -/
def lineInt (f : FlagEnv) (line : List (Str × Str)) (n : Str) (d : Int) : Int :=
  match lastOf n line with
  | none => d
  | some v => (f.num v).getD 0

/-- A choice: the word of the list that is the one given, whatever the case. -/
def lineChoice (f : FlagEnv) (ws : List Str) (line : List (Str × Str)) (n : Str) (d : Str) : Str :=
  match lastOf n line with
  | none => d
  | some v => (ws.find? fun w => f.eqf w v).getD []

/-- What the configuration file says: its keys (with the tables they are in), and their values. -/
abbrev Keys := List (List Str × TomlVal)

/-- English capitals made small. -/
def smallStr (s : Str) : Str := s.map fun c => ((b!"ABCDEFGHIJKLMNOPQRSTUVWXYZ".zip b!"abcdefghijklmnopqrstuvwxyz").lookup c).getD c

/-- Whether a key of the file is this one: the case of its letters does not matter. -/
def sameKey (k' k : List Str) : Bool := decide (k'.map smallStr = k)

/-- The last text the file gives to a key, or else the given one. -/
def fileStr : Keys → List Str → Str → Str
  | [], _, d => d
  | (k', .str s) :: l, k, d => fileStr l k (if sameKey k' k then s else d)
  | _ :: l, k, d => fileStr l k d

/-- A switch in the file. -/
def fileBool : Keys → List Str → Bool → Bool
  | [], _, d => d
  | (k', .bool b) :: l, k, d => fileBool l k (if sameKey k' k then b else d)
  | _ :: l, k, d => fileBool l k d

/-- A number in the file. -/
def fileInt : Keys → List Str → Int → Int
  | [], _, d => d
  | (k', .int i) :: l, k, d => fileInt l k (if sameKey k' k then i else d)
  | _ :: l, k, d => fileInt l k d

/-- The keys that take texts. -/
def textKeys : List (List Str) := [
  [b!"ledger"], [b!"baseccy"], [b!"divider"], [b!"lang"], [b!"report", b!"credit"], [b!"report", b!"hidden"], [b!"report", b!"htmlcss"],
  [b!"report", b!"type"], [b!"report", b!"combineby"], [b!"register", b!"begindate"], [b!"register", b!"enddate"], [b!"register", b!"type"],
  [b!"export", b!"type"]]

/-- The keys that take truth values. -/
def switchKeys : List (List Str) := [
  [b!"verbose"], [b!"colour"], [b!"all"], [b!"report", b!"convert"], [b!"report", b!"jsonpretty"], [b!"report", b!"sum"], [b!"register", b!"asc"],
  [b!"register", b!"combined"], [b!"register", b!"zerostart"], [b!"register", b!"convert"], [b!"register", b!"split"], [b!"export", b!"jsonpretty"]]

/-- The names a file may have: a fixed word, one of some words, or any word. -/
inductive KeyWord
  | any
  | of (ws : List Str)

/-- Whether a word is one of these. -/
def KeyWord.fits (s : Str) : KeyWord → Prop
  | .any => True
  | .of ws => s ∈ ws

/-- All keys with a meaning: the application's, the macros, and those of the commands. -/
def keyPatterns : List (List KeyWord) := [
  [.of [b!"ledger", b!"baseccy", b!"verbose", b!"divider", b!"colour", b!"macros", b!"all", b!"lang"]],
  [.of [b!"macros"], .any],
  [.of [b!"report"], .of [b!"credit", b!"hidden", b!"convert", b!"jsonpretty", b!"htmlcss", b!"sum", b!"type", b!"combineby"]],
  [.of [b!"register"], .of [b!"name", b!"short", b!"long", b!"begindate", b!"enddate", b!"count", b!"asc", b!"type", b!"combined", b!"zerostart",
    b!"convert", b!"macros", b!"accounts", b!"split"]],
  [.of [b!"export"], .of [b!"jsonpretty", b!"type"]],
  [.of [b!"importdefs"], .any, .of [b!"name", b!"description", b!"configtype", b!"code", b!"account", b!"counteraccount", b!"ccy", b!"dedup", b!"reclassify"]],
  [.of [b!"generate"], .any, .of [b!"description", b!"code", b!"dedup"]],
  [.of [b!"download"], .of [b!"monzo", b!"starling", b!"nordigen"], .any],
  [.of [b!"importdefs"], .any, .of [b!"params"], .any]]

/-- Whether a key has a meaning. -/
def HasMeaning (k : List Str) : Prop := ∃ p ∈ keyPatterns, List.Forall₂ KeyWord.fits (k.map smallStr) p

/-- Whether the file may have this key with this value: there is a setting of this name, and the value is of its kind. -/
def KeyGood (k : List Str) (v : TomlVal) : Prop :=
  HasMeaning k ∧
  (k.map smallStr ∈ textKeys → ∃ s, v = .str s) ∧ (k.map smallStr ∈ switchKeys → ∃ b, v = .bool b) ∧
  (k.map smallStr = [b!"register", b!"count"] → ∃ i, v = .int i) ∧ (∀ t n, k = [t, n] → smallStr t = b!"macros" → ∃ l, v = .strs l)

/-- The macro an entry of the file defines: an entry of the table `macros`. -/
def macroOf : List Str → TomlVal → Option (Str × List Str)
  | [t, n], .strs x => if smallStr t = b!"macros" then some (n, x) else none
  | _, _ => none

/-- The macros of the file: the last list given to the name. -/
def fileMacros : Keys → Str → Option (List Str)
  | [], _ => none
  | (k, v) :: l, m => (fileMacros l m).or ((macroOf k v).bind fun x => if x.1 = m then some x.2 else none)

/-- The settings of the application: the command line, or else the configuration file, or else what is built in. -/
def appOf (keys : Keys) (line : List (Str × Str)) : AppConf where
  ledger := lineStr line b!"ledger" (fileStr keys [b!"ledger"] b!"main.ledger")
  baseCCY := lineStr line b!"ccy" (fileStr keys [b!"baseccy"] [])
  divider := lineStr line b!"divider" (fileStr keys [b!"divider"] b!":")
  all := lineBool line b!"all" (fileBool keys [b!"all"] false)
  macros := fileMacros keys

/-- The language: also from the environment. -/
def langOf (env : Option Str) (keys : Keys) (line : List (Str × Str)) : Str :=
  lineStr line b!"lang" (fileStr keys [b!"lang"] (env.getD b!"en"))

/-- Colours. -/
def colourOf (keys : Keys) (line : List (Str × Str)) : Bool := lineBool line b!"colour" (fileBool keys [b!"colour"] true)

/-- The settings of `report`. -/
def reportOf (f : FlagEnv) (keys : Keys) (line : List (Str × Str)) : ReportConf where
  credit := lineStr line b!"credit" (fileStr keys [b!"report", b!"credit"] [])
  hidden := lineStr line b!"hidden" (fileStr keys [b!"report", b!"hidden"] [])
  convert := lineBool line b!"convert" (fileBool keys [b!"report", b!"convert"] false)
  sum := lineBool line b!"sum" (fileBool keys [b!"report", b!"sum"] false)
  typ := lineChoice f [b!"Text", b!"Ledger", b!"Json", b!"HTML", b!"Beancount"] line b!"type" (fileStr keys [b!"report", b!"type"] [])
  combineby := lineChoice f [b!"yearly", b!"quarterly", b!"monthly", b!"today", b!"none", b!"skip"] line b!"splitby"
    (fileStr keys [b!"report", b!"combineby"] [])

/-- The style sheet of `report`. -/
def cssOf (keys : Keys) (line : List (Str × Str)) : Str := lineStr line b!"htmlcss" (fileStr keys [b!"report", b!"htmlcss"] [])

/-- The settings of `register`. -/
def registerOf (f : FlagEnv) (keys : Keys) (line : List (Str × Str)) : RegisterConf where
  beginDate := lineStr line b!"begin" (fileStr keys [b!"register", b!"begindate"] [])
  endDate := lineStr line b!"asof" (fileStr keys [b!"register", b!"enddate"] [])
  count := lineInt f line b!"count" (fileInt keys [b!"register", b!"count"] 0)
  asc := lineBool line b!"asc" (fileBool keys [b!"register", b!"asc"] false)
  combined := lineBool line b!"combined" (fileBool keys [b!"register", b!"combined"] false)
  convert := lineBool line b!"convert" (fileBool keys [b!"register", b!"convert"] false)
  split := lineBool line b!"split" (fileBool keys [b!"register", b!"split"] false)

/-- The type of `register`. -/
def regTypeOf (f : FlagEnv) (keys : Keys) (line : List (Str × Str)) : Str :=
  lineChoice f [b!"Text", b!"JSON", b!"CSV"] line b!"type" (fileStr keys [b!"register", b!"type"] [])

/-- The type of `export`. -/
def expTypeOf (f : FlagEnv) (keys : Keys) (line : List (Str × Str)) : Str :=
  lineChoice f [b!"Ledger", b!"Json", b!"Beancount", b!"CSV"] line b!"type" (fileStr keys [b!"export", b!"type"] [])

/-- Help is asked for. -/
def asksHelp (line : List (Str × Str)) : Bool := lineBool line b!"help" false

/-- The commands: their names and their flags. -/
def commandTables : List (List Str × Table) := [
  ([b!"report", b!"trans", b!"transactions"], reportFlagTable), ([b!"register"], registerFlagTable), ([b!"export"], exportFlagTable),
  ([b!"accts", b!"accounts"], acctsFlagTable), ([b!"ccy"], appFlagTable)]

end Verif.Spec
