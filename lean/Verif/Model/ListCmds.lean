import Verif.Model.Commands
import Verif.Model.RegText
import Verif.Model.JsonOut

/-! # The commands `accts` and `ccy`: /repo/cmd/accounts/accounts.go, /repo/cmd/currencies/currencies.go -/

namespace Verif

/-- accounts.go:23-31, 37, 44: load, then the accounts for the expression given or `^.*$`; `Accounts` panics on an invalid expression
(book.go:200). -/
def acctsCmd (le : Env) (depth : Nat) (e : OpEnv) (a : AppConf) (arg : Option Str) : CmdEnd (List Str) :=
  (loadCmd le depth e.srt a).bind fun b =>
    let regex := arg.getD b!"^.*$"
    if e.valid regex then .ok (b.accounts (e.mat regex) (!a.all)) else .crash

/-- accounts.go:42-47: the table; `none` = panic in `PrintColumns`. -/
def acctsText (prt : Nat → Bool) (termWidth : Int) (colour : Bool) (accts : List Str) : Option (List (List Nat)) :=
  printColumns prt termWidth (some [some (.str (ansi colour ansiBlueUL b!"Account"))] :: accts.map fun a => some [some (.str a)]) [false]

/-- accounts.go:35-40 with `--json`: the value handed to the encoder. -/
def acctsJSON (accts : List Str) : Json := .arr (accts.map .str)

/-- currencies.go:19-31: a line per entry of the table of decimals, in the order in which the map is walked. -/
def ccyCmd (le : Env) (depth : Nat) (e : OpEnv) (a : AppConf) (walk : List (Str × Nat) → List (Str × Nat)) : CmdEnd Str :=
  (loadCmd le depth e.srt a).bind fun b => .ok ((walk b.ccy).flatMap fun kv => kv.1 ++ b!" => " ++ natDec kv.2 ++ b!" decimals\n")

end Verif
