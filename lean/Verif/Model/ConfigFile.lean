import Verif.Model.Config

/-! # The default configuration file and what a configuration file may contain: /repo/cmd/config.go, /repo/cmd/root.go -/

namespace Verif

/-- config.go:112-162 `DEFAULT_CONFIG_FILE` (the damaged pound signs in a comment and a value are written `GBP`). -/
def defaultConfig : Str := b!"

#
# Main defaults
#
#ledger =  \"default_ledger_file\"
#baseccy = \"GBP\"

#
# Defaults for the report command
#
[report]
combineby = \"today\"
type =      \"Ansi\"
sum =       true
convert =   true
credit =    \"^(Income|Trading|Liability|Equity)(:.*)?$\"

[report.macros]
macroA = [
	\"book operation A\",
	\"book operation B\",
]

#
# Defaults for the register command
#

[register]
accounts = [
  \"Asset:Default\",
]
count = -100
type = \"Text\"
asc = true

[importdefs.bankformat]
description = \"Bank Format\"
configtype = \"csv\"
account = \"Asset:BankDefaultAccount\"
counteraccount = \"Expense:DefaultExpenseAccount\"
dedup = true
reclassify = true

[importdefs.bankformat.params]
ccy = \"GBP\"
date = \"0\"
amount = \"2\"
payee = \"1\"

"

/-- Splitting at a character. -/
def splitOn (c : Nat) : Str → List Str
  | [] => [[]]
  | x :: xs =>
    if x = c then [] :: splitOn c xs
    else match splitOn c xs with
      | [] => [[x]]
      | w :: ws => (x :: w) :: ws

/-- Blanks and tabs at both ends removed. -/
def trimBlanks (s : Str) : Str :=
  ((s.dropWhile fun x => decide (x = 32 ∨ x = 9)).reverse.dropWhile fun x => decide (x = 32 ∨ x = 9)).reverse

/-- ASCII lower case (`toml` matches the names of fields whatever the case). -/
def lowerStr (s : Str) : Str := s.map fun x => if 65 ≤ x ∧ x ≤ 90 then x + 32 else x

/-- The keys of a TOML file, with their table, as far as the format is used here: comment lines, `[table]` lines, `key = value` lines
with bare keys, and values that may go over several lines if these contain no `=`. -/
def tomlKeysFrom : List Str → List Str → List (List Str)
  | _, [] => []
  | table, l :: ls =>
    match trimBlanks l with
    | 35 :: _ => tomlKeysFrom table ls
    | 91 :: r => tomlKeysFrom (splitOn 46 (r.takeWhile fun x => x ≠ 93)) ls
    | t => (if 61 ∈ t then [table ++ [trimBlanks (t.takeWhile fun x => x ≠ 61)]] else []) ++ tomlKeysFrom table ls

/-- The keys of a file. -/
def tomlKeys (s : Str) : List (List Str) := tomlKeysFrom [] (splitOn 10 s)

/-- Whether the `Config` structure has a place for a key: root.go:19-30, app.go:29-39, report.go:13-22, register.go:14-29,
import.go:14-36, cli_config.go:9-12, generate.go:10-14, download.go:7-11 (the settings of the banks: anything), export.go:10-13. -/
def knownKey (k : List Str) : Bool :=
  match k.map lowerStr with
  | [a] => decide (a ∈ [b!"ledger", b!"baseccy", b!"verbose", b!"divider", b!"colour", b!"macros", b!"all", b!"lang"])
  | [t, a] =>
    if t = b!"macros" then true
    else if t = b!"report" then decide (a ∈ [b!"credit", b!"hidden", b!"convert", b!"jsonpretty", b!"htmlcss", b!"sum", b!"type", b!"combineby"])
    else if t = b!"register" then decide (a ∈ [b!"name", b!"short", b!"long", b!"begindate", b!"enddate", b!"count", b!"asc", b!"type", b!"combined",
      b!"zerostart", b!"convert", b!"macros", b!"accounts", b!"split"])
    else if t = b!"export" then decide (a ∈ [b!"jsonpretty", b!"type"])
    else false
  | [t, n, a] =>
    if t = b!"importdefs" then decide (a ∈ [b!"name", b!"description", b!"configtype", b!"code", b!"account", b!"counteraccount", b!"ccy", b!"dedup", b!"reclassify"])
    else if t = b!"generate" then decide (a ∈ [b!"description", b!"code", b!"dedup"])
    else if t = b!"download" then decide (n ∈ [b!"monzo", b!"starling", b!"nordigen"])
    else false
  | [t, _, p, _] => decide (t = b!"importdefs" ∧ p = b!"params")
  | _ => false

/-- config.go:46-54: `toml.Decode` and `Undecoded`, for files whose syntax and values are valid. -/
def tomlDecode (s : Str) : Option (List Str) :=
  some (((tomlKeys s).filter fun k => !knownKey k).map fun k => List.intercalate [46] k)

end Verif
