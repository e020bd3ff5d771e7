import Verif.Basic
import Verif.Spec.Chars
import Verif.Model.Register
import Verif.Model.Posting

/-! # Specification: reading CSV (RFC 4180) and decimal numbers -/

namespace Verif.Spec

/-- Where a CSV reader is: at the start of a field, in an unquoted field, in a quoted field, or after a
quote within one. -/
inductive CsvState
  | start | bare | quoted | closing
  deriving DecidableEq

/-- A strict CSV reader: fields separated by commas, records ended by LF; a field that begins with a quote goes on
to the closing quote, two quotes standing for one.  `f` is the field read so far, `r` the record, `rows` the records.
`none`: malformed or unfinished. -/
def readCsv : CsvState → Str → List Str → List (List Str) → Str → Option (List (List Str))
  | st, f, r, rows, [] => if st = .start ∧ f = [] ∧ r = [] then some rows else none
  | .start, f, r, rows, c :: s =>
    if c = 34 then readCsv .quoted f r rows s
    else if c = 44 then readCsv .start [] (r ++ [f]) rows s
    else if c = 10 then readCsv .start [] [] (rows ++ [r ++ [f]]) s
    else if c = 13 then none
    else readCsv .bare (f ++ [c]) r rows s
  | .bare, f, r, rows, c :: s =>
    if c = 34 ∨ c = 13 then none
    else if c = 44 then readCsv .start [] (r ++ [f]) rows s
    else if c = 10 then readCsv .start [] [] (rows ++ [r ++ [f]]) s
    else readCsv .bare (f ++ [c]) r rows s
  | .quoted, f, r, rows, c :: s =>
    if c = 34 then readCsv .closing f r rows s
    else readCsv .quoted (f ++ [c]) r rows s
  | .closing, f, r, rows, c :: s =>
    if c = 34 then readCsv .quoted (f ++ [34]) r rows s
    else if c = 44 then readCsv .start [] (r ++ [f]) rows s
    else if c = 10 then readCsv .start [] [] (rows ++ [r ++ [f]]) s
    else none

/-- The records of a CSV text. -/
def parseCsv (s : Str) : Option (List (List Str)) := readCsv .start [] [] [] s

/-- The number a decimal numeral denotes: an optional minus sign, digits (separators are skipped), and after a
point the decimals. -/
def decimalValue (s : Str) : Rat :=
  let body := if s.head? = some 45 then s.drop 1 else s
  let ip := (body.takeWhile fun c => c != 46).filter digitChar
  let fp := ((body.dropWhile fun c => c != 46).drop 1).filter digitChar
  (if s.head? = some 45 then -1 else 1) * ((digitsVal ip : Rat) + (digitsVal fp : Rat) / 10 ^ fp.length)

/-- The headings of an export. -/
def exportHeadings : List Str :=
  [b!"date", b!"payee", b!"transaction_note", b!"account", b!"currency", b!"amount", b!"post_note"]

/-- The headings of a register. -/
def registerHeadings : List Str :=
  [b!"date", b!"payee", b!"account", b!"counterAccount", b!"ccy", b!"amount", b!"balance"]

/-- What a CSV row must say about a posting: date, payee, transaction note, account, currency, amount, note. -/
def RowSays (date : Int → Str) (row : List Str) (p : Posting) : Prop :=
  ∃ amt, row = [date p.date, p.payee, p.tnote, p.acct, p.ccy, amt, p.note] ∧ decimalValue amt = p.val

/-- What a register row must say about an entry. -/
def EntrySays (row : List Str) (e : RegEntry) : Prop :=
  ∃ amt bal, row = [dateString e.date, e.payee, e.account, e.counterAccount, e.ccy, amt, bal] ∧
    decimalValue amt = e.amount ∧ decimalValue bal = e.balance

end Verif.Spec
