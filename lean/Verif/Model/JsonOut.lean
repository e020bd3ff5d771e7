import Verif.Model.Script
import Verif.Model.Register
import Verif.Model.Book

/-! # JSON output: `MarshalJSON` of /repo/book/transaction.go, posting.go, registry.go and date.go, `PrintJSON` of
/repo/cmd/app/print.go:92-109, `export --type Json` (/repo/cmd/export/export.go:68-69)

Modelled is the value handed to `encoding/json`; its encoding as text (escapes, indentation, the shortest decimal that
reads back as the same `float64`) is the library's.  `fl` is `big.Rat.Float64`, for amounts in range (beyond 1e308 the encoder fails);
`tm y m d` is `time.Date(y, m, d, 0, 0, 0, 0, UTC).Format(time.RFC3339)`. -/

namespace Verif

/-- date.go:266-269, 278-280 `Date.MarshalJSON`; transaction.go:114. -/
def jsonDate (tm : Int → Int → Int → Str) (d : Int) : Json := .str (tm (yearOf d) (monthOf d) (dayOf d))

/-- A string member with `omitempty`. -/
def omitEmpty (k s : Str) : List (Str × Json) := if s = [] then [] else [(k, .str s)]

/-- posting.go:113-129 `Posting.MarshalJSON`: note the transaction's note (line 127). -/
def jsonPosting (fl : Rat → Rat) (p : Posting) : Json :=
  .obj ([(b!"account", .str p.acct), (b!"ccy", .str p.ccy), (b!"amount", .num (.fin (fl p.val)))] ++ omitEmpty b!"note" p.tnote)

/-- transaction.go:104-119 `Transaction.MarshalJSON`; `none` = panic (`t[0]`). -/
def jsonTxn (tm : Int → Int → Int → Str) (fl : Rat → Rat) (t : Txn) : Option Json :=
  match t with
  | [] => none
  | h :: _ => some (.obj ((b!"date", jsonDate tm h.date) :: (omitEmpty b!"payee" h.payee ++ (omitEmpty b!"note" h.tnote ++
      [(b!"posts", Json.arr (t.map (jsonPosting fl)))]))))

/-- export.go:68-69: the transactions of the book. -/
def exportJSON (tm : Int → Int → Int → Str) (fl : Rat → Rat) (ts : List Txn) : Option Json :=
  (ts.mapM (jsonTxn tm fl)).map .arr

/-- price.go:30-32. -/
def PriceType.name : PriceType → Str
  | .outOfRange => b!"OutOfRange"
  | .inferred => b!"Inferred"
  | .exact => b!"Exact"
  | .trade => b!"Trade"
  | .none => b!"None"

/-- registry.go:162-203 `RegistryEntry.MarshalJSON`; a nil entry is `null`. -/
def jsonEntry (tm : Int → Int → Int → Str) (fl : Rat → Rat) : Option RegEntry → Json
  | none => .null
  | some e =>
    .obj ((b!"date", jsonDate tm e.date) :: (b!"account", .str e.account) :: (omitEmpty b!"payee" e.payee ++
      (omitEmpty b!"counterAccount" e.counterAccount ++
        [(b!"amount", Json.num (.fin (fl e.amount))), (b!"ccy", .str e.ccy), (b!"balance", .num (.fin (fl e.balance))),
         (b!"note", .str e.note), (b!"tnote", .str e.tnote), (b!"BaseCCY", .str e.baseCCY), (b!"BaseAmount", .num (.fin (fl e.baseAmount))),
         (b!"BaseSource", .str e.baseSource.name), (b!"BaseBalance", .num (.fin (fl e.baseBalance)))])))

/-- show_register.go:42-43: the rows shown. -/
def registerJSON (tm : Int → Int → Int → Str) (fl : Rat → Rat) (rows : List (Option RegEntry)) : Json :=
  .arr (rows.map (jsonEntry tm fl))

end Verif
