import Verif.Model.Register
import Verif.Model.Export
import Verif.Model.Print

/-! # The register as text: /repo/cmd/register/show_register.go, /repo/cmd/app/print.go -/

namespace Verif

/-- print.go:446 -/
def ansiBlue : Str := 27 :: b!"[0;34m"
/-- print.go:447 -/
def ansiRed : Str := 27 :: b!"[0;31m"
/-- print.go:448 -/
def ansiBlueUL : Str := 27 :: b!"[4;34m"
/-- print.go:451 -/
def ansiUL : Str := 27 :: b!"[4m"
/-- print.go:452 -/
def ansiReset : Str := 27 :: b!"[0m"

/-- print.go:437-442 `Ansi`. -/
def ansi (colour : Bool) (code s : Str) : Str := if colour then code ++ s ++ ansiReset else s

/-- print.go:136-152 `GetColumnMoney`; `none` = panic (empty symbol). -/
def columnMoney (f : Fmt) (colour : Bool) (symbol : Str) (amount : Rat) : Option Cell :=
  (f.symbol symbol).map fun sym =>
    .money (ansi colour ansiBlue sym) (ansi colour (if 0 ≤ amount then ansiBlue else ansiRed) (f.number symbol amount))

/-- show_register.go:58-69: the columns that may shrink. -/
def registerShrink (withAcct withBal : Bool) : List Bool :=
  [false, true] ++ (if withAcct then [true] else []) ++ [true, false] ++ (if withBal then [false] else [])

/-- show_register.go:74-87: the headings. -/
def registerHead (colour withAcct withBal : Bool) : List (Option Cell) :=
  [some (.str (ansi colour ansiUL b!"Date")), some (.str (ansi colour ansiUL b!"Payee"))] ++
    (if withAcct then [some (.str (ansi colour ansiUL b!"Account"))] else []) ++
    [some (.str (ansi colour ansiUL b!"Counteraccount")), some (.right (ansi colour ansiUL b!"Amount"))] ++
    (if withBal then [some (.right (ansi colour ansiUL b!"Balance"))] else [])

/-- show_register.go:90-104: the row of an entry; `none` = panic. -/
def registerRow (f : Fmt) (colour withAcct withBal : Bool) (p : RegEntry) : Option (List (Option Cell)) :=
  (columnMoney f colour p.ccy p.amount).bind fun amt =>
    (if withBal then (columnMoney f colour p.ccy p.balance).map fun b => [some b] else some []).map fun bal =>
      [some (.str (dateString p.date)), some (.str p.payee)] ++ (if withAcct then [some (.str p.account)] else []) ++
        [some (.str p.counterAccount), some amt] ++ bal

/-- show_register.go:46-109 `ShowText`: the lines printed; `none` = panic (a nil entry, an empty currency, or in `PrintColumns`). -/
def registerText (prt : Nat → Bool) (termWidth : Int) (f : Fmt) (colour withAcct withBal : Bool) (report : List (Option RegEntry)) :
    Option (List (List Nat)) :=
  (report.mapM fun (e : Option RegEntry) => e.bind (registerRow f colour withAcct withBal)).bind fun rows =>
    printColumns prt termWidth ((registerHead colour withAcct withBal :: rows).map some) (registerShrink withAcct withBal)

/-- register.go:104-119 with `--type Text`: without `--combined`, each section comes after a blank line and a line with the account; the rows
have no account column. -/
def registerSectionsText (prt : Nat → Bool) (termWidth : Int) (f : Fmt) (colour : Bool) : List (Str × List (Option RegEntry)) → Option (List (List Nat))
  | [] => some []
  | (acct, rows) :: secs =>
    (registerText prt termWidth f colour false true rows).bind fun ls => (registerSectionsText prt termWidth f colour secs).map fun r =>
      [[10], ansi colour ansiBlueUL acct ++ [10]] ++ ls ++ r

end Verif
