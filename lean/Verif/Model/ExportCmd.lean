import Verif.Model.Commands
import Verif.Model.Lang
import Verif.Model.Csv
import Verif.Model.JsonOut
import Verif.Model.Beancount

/-! # The export command: /repo/cmd/export/export.go -/

namespace Verif

/-- What printing takes from the outside: character classes and cases, the rounding of numbers, the time format, and the orders in which
Go ranges over the accounts (beancount.go) and the price pairs (book.go:33-40 `GetPricePairs`). -/
structure PrintEnv where
  letter : Nat → Bool
  space : Nat → Bool
  title : Str → Str
  up : Nat → Nat
  fl : Rat → Rat
  rd : Rat → Nat
  tm : Int → Int → Int → Str
  accts : List (Str × BeanInfo) → List (Str × BeanInfo)
  pairs : PriceBook → PriceBook

/-- export.go:60, book.go:54-56: the printer of a language with the decimals of the book. -/
def bookFmt (l : Lang) (x : PrintEnv) (b : Book) : Fmt :=
  langFmt l x.letter x.fl x.rd fun c => (b.ccy.find? fun kv => decide (kv.1 = c)).map (·.2)

/-- What is written: a JSON value (indented or not, export.go:22, 64) or text. -/
inductive Exported
  | json (j : Json)
  | text (s : Str)

/-- export.go:62-70: by type.  (The prices are those of `GetPricePairs` and `GetPriceList`, export/ledger.go:46-47.) -/
def exportBook (e : OpEnv) (a : AppConf) (l : Lang) (x : PrintEnv) (typ : Str) (b : Book) : CmdEnd Exported :=
  if typ = b!"Json" then .orCrash ((exportJSON x.tm x.fl (b.transactions e.srt)).map .json)
  else if typ = b!"Beancount" then
    .orCrash ((exportBeancount (bookFmt l x b) x.title x.up x.accts a.baseCCY (b.transactions e.srt) (x.pairs b.prices)).map .text)
  else if typ = b!"CSV" then .ok (.text (exportCSV x.space x.fl x.rd (b.transactions e.srt)))
  else .orCrash ((exportLedger (bookFmt l x b) (b.transactions e.srt) (x.pairs b.prices)).map .text)

/-- export.go:45-71 `run`. -/
def exportCmd (le : Env) (depth : Nat) (e : OpEnv) (fuel : Nat) (a : AppConf) (l : Lang) (x : PrintEnv) (typ : Str) (args : List Str) :
    CmdEnd Exported :=
  ((loadCmd le depth e.srt a).bind (opsCmd e fuel a args)).bind (exportBook e a l x typ)

end Verif
