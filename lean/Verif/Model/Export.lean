import Verif.Model.Loader
import Verif.Model.Book

/-! # Printing in ledger format: /repo/cmd/reports/ledger.go, /repo/cmd/export/ledger.go,
/repo/cmd/app/print.go:259-276

Text is a list of runes.  Numbers are formatted for the locale "en" (the formatting depends on the
`Lang` setting: other locales use other separators, which the loader does not understand). -/

namespace Verif

/-- What printing depends on: `unicode.IsLetter`, the grouping of the integer digits (the locale's
thousands separators) and its decimal sign (a dot unless the language says otherwise), the decimals per currency, the rounding of `big.Rat.Float64` and the rounding of
`Sprintf` to a whole number of units of the last decimal. -/
structure Fmt where
  letter : Nat → Bool
  grp : Str → Str
  decs : Str → Option Nat
  fl : Rat → Rat
  rd : Rat → Nat
  point : Nat := 46

/-- Zero padding on the left. -/
def padZero (w : Nat) (s : Str) : Str := List.replicate (w - s.length) 48 ++ s

/-- `Sprintf("%.*f", dec, x)` of a `float64`: `x` rounded to `dec` decimals; `point` is the decimal sign. -/
def fmtFixedAt (point : Nat) (rd : Rat → Nat) (grp : Str → Str) (dec : Nat) (x : Rat) : Str :=
  let n := rd (|x| * 10 ^ dec)
  (if x < 0 then [45] else []) ++ grp (natDec (n / 10 ^ dec)) ++
    (if dec = 0 then [] else point :: padZero dec (natDec (n % 10 ^ dec)))

/-- `Sprintf("%.*f", dec, x)` with a dot. -/
def fmtFixed (rd : Rat → Nat) (grp : Str → Str) (dec : Nat) (x : Rat) : Str := fmtFixedAt 46 rd grp dec x

/-- print.go:261-268 `FormatNumber`: through `float64`. -/
def Fmt.number (f : Fmt) (symbol : Str) (v : Rat) : Str :=
  fmtFixedAt f.point f.rd f.grp ((f.decs symbol).getD 2) (f.fl v)

/-- print.go:270-276 `FormatSymbol`; `none` = the index panic on an empty symbol. -/
def Fmt.symbol (f : Fmt) (s : Str) : Option Str :=
  match s.getLast? with
  | none => none
  | some c => if f.letter c = true ∨ c = 34 then some (s ++ [32]) else some s

/-- ledger.go:9-20 `LedgerFormatCurrency` (also reports/ledger.go:23-32). -/
def ledgerCCY (ccy : Str) : Str :=
  if ccy.all isCCYRune then ccy else 34 :: ccy ++ [34]

/-- ledger.go:26-29, 32-35: a note, if any. -/
def noteSuffix (n : Str) : Str := if n = [] then [] else b!"  ; " ++ n

/-- ledger.go:31-40: a posting line. -/
def showPosting (f : Fmt) (p : Posting) : Option Str :=
  (f.symbol (ledgerCCY p.ccy)).map fun sym =>
    b!"  " ++ p.acct ++ b!"  " ++ sym ++ f.number p.ccy p.val ++ noteSuffix p.note ++ [10]

/-- All parts, or none. -/
def concatOpt {α : Type} (g : α → Option Str) : List α → Option Str
  | [] => some []
  | x :: xs => (g x).bind fun a => (concatOpt g xs).map fun b => a ++ b

/-- ledger.go:25-43: a transaction; `none` = panic (`t[0]` of an empty transaction). -/
def showTxn (f : Fmt) (t : Txn) : Option Str :=
  match t with
  | [] => none
  | p :: _ =>
    (concatOpt (showPosting f) t).map fun ps =>
      dateString p.date ++ [32] ++ p.payee ++ noteSuffix p.tnote ++ [10] ++ ps ++ [10]

/-- reports/ledger.go:9-38 `ShowLedger`; export/ledger.go:25-43. -/
def showTxns (f : Fmt) (ts : List Txn) : Option Str := concatOpt (showTxn f) ts

/-- export/ledger.go:48-50: a price line. -/
def showPrice (f : Fmt) (unit ccy : Str) (p : Price) : Option Str :=
  (f.symbol ccy).map fun sym =>
    b!"P " ++ dateString p.date ++ b!" 00:00:00 " ++ unit ++ [32] ++ sym ++ f.number ccy p.val ++ [10]

/-- export/ledger.go:46-52: the prices of all pairs, in the given order. -/
def showPrices (f : Fmt) (pl : List ((Str × Str) × PriceList)) : Option Str :=
  concatOpt (fun kv => concatOpt (showPrice f kv.1.1 kv.1.2) kv.2) pl

/-- export/ledger.go:22-53 `ShowLedger`, given the transactions and the prices. -/
def exportLedger (f : Fmt) (ts : List Txn) (pl : List ((Str × Str) × PriceList)) : Option Str :=
  (showTxns f ts).bind fun a => (showPrices f pl).map fun b => a ++ b!"\n; Prices\n" ++ b

end Verif
