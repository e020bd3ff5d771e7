import Verif.Model.Export
import Verif.Model.Register

/-! # CSV output: /repo/cmd/export/csv.go, `ShowCSV` of /repo/cmd/register/show_register.go, `PrintCSV` of
/repo/cmd/app/print.go:111-124 and the writer of Go's `encoding/csv` (comma, LF) they use

Text is a list of runes.  Write errors are not modelled (csv.go ignores them). -/

namespace Verif

/-- `encoding/csv` `fieldNeedsQuotes`; `space` is `unicode.IsSpace`. -/
def csvNeedsQuotes (space : Nat → Bool) (s : Str) : Bool :=
  match s with
  | [] => false
  | c :: _ => decide (s = b!"\\.") || s.any (fun c => c == 10 || c == 13 || c == 34 || c == 44) || space c

/-- `encoding/csv` `Writer.Write`, the body of a quoted field: quotes are doubled. -/
def csvEscape : Str → Str
  | [] => []
  | c :: s => (if c = 34 then [34, 34] else [c]) ++ csvEscape s

/-- `encoding/csv` `Writer.Write`: one field. -/
def csvField (space : Nat → Bool) (s : Str) : Str :=
  if csvNeedsQuotes space s then 34 :: csvEscape s ++ [34] else s

/-- `encoding/csv` `Writer.Write`: the fields after the first, and the end of the record. -/
def csvRest (space : Nat → Bool) : List Str → Str
  | [] => [10]
  | s :: r => 44 :: csvField space s ++ csvRest space r

/-- `encoding/csv` `Writer.Write`: a record. -/
def csvRecord (space : Nat → Bool) : List Str → Str
  | [] => [10]
  | s :: r => csvField space s ++ csvRest space r

/-- csv.go:26-39, print.go:115-119: all records. -/
def csvText (space : Nat → Bool) (rows : List (List Str)) : Str := (rows.map (csvRecord space)).flatten

/-- `Sprintf("%f", x)`: six decimals, no grouping. -/
def fmtF (rd : Rat → Nat) (x : Rat) : Str := fmtFixed rd id 6 x

/-- csv.go:14-22. -/
def csvHeader : List Str :=
  [b!"date", b!"payee", b!"transaction_note", b!"account", b!"currency", b!"amount", b!"post_note"]

/-- csv.go:27-38: the rows of a transaction; date, payee and transaction note are those of its first posting
(transaction.go:10-33). -/
def csvTxn (fl : Rat → Rat) (rd : Rat → Nat) (t : Txn) : List (List Str) :=
  match t with
  | [] => []
  | h :: _ => t.map fun p => [dateString h.date, h.payee, h.tnote, p.acct, p.ccy, fmtF rd (fl p.val), p.note]

/-- csv.go:10-44 `ShowCSV`, given the transactions of the book. -/
def exportCSV (space : Nat → Bool) (fl : Rat → Rat) (rd : Rat → Nat) (ts : List Txn) : Str :=
  csvText space (csvHeader :: (ts.map (csvTxn fl rd)).flatten)

/-- show_register.go:108-116. -/
def registerHeader : List Str :=
  [b!"date", b!"payee", b!"account", b!"counterAccount", b!"ccy", b!"amount", b!"balance"]

/-- show_register.go:119-131: a row of the register. -/
def csvEntry (fl : Rat → Rat) (rd : Rat → Nat) (p : RegEntry) : List Str :=
  [dateString p.date, p.payee, p.account, p.counterAccount, p.ccy, fmtF rd (fl p.amount), fmtF rd (fl p.balance)]

/-- show_register.go:104-134 `ShowCSV`; a nil entry (C39) panics. -/
def registerCSV (space : Nat → Bool) (fl : Rat → Rat) (rd : Rat → Nat) (report : List (Option RegEntry)) : Option Str :=
  (report.mapM fun (e : Option RegEntry) => e.map (csvEntry fl rd)).map fun rows => csvText space (registerHeader :: rows)

/-- register.go:98-118 with `--type CSV`: without `--combined`, each section comes after a line with the account;
`ansi` is the colouring. -/
def registerSectionsCSV (space : Nat → Bool) (fl : Rat → Rat) (rd : Rat → Nat) (ansi : Str → Str) :
    List (Str × List (Option RegEntry)) → Option Str
  | [] => some []
  | (acct, rows) :: secs =>
    (registerCSV space fl rd rows).bind fun s => (registerSectionsCSV space fl rd ansi secs).map fun r =>
      [10] ++ ansi acct ++ [10] ++ s ++ r

end Verif
