import Verif.Model.Book
import Verif.Model.Export

/-! # Beancount output: /repo/cmd/export/beancount.go, /repo/cmd/reports/beancount.go

Both files have the same code for the account directives and the transactions; the export also writes an option and the prices.  Lines
are given as in export/beancount.go. -/

namespace Verif

/-- beancount.go:26-30 `accountInfo` (reports: 24-28) -/
structure BeanInfo where
  first : Int
  last : Int
  isZero : Bool
deriving DecidableEq

/-- beancount.go:34-46: one posting, filed under the account name `a`. -/
def beanAdd (a : Str) (p : Posting) : List (Str × BeanInfo) → List (Str × BeanInfo)
  | [] => [(a, ⟨p.date, p.date, decide (p.bal = 0)⟩)]
  | (k, i) :: m =>
    if k = a then (k, { i with last := p.date, isZero := decide (p.bal = 0) }) :: m
    else (k, i) :: beanAdd a p m

/-- beancount.go:31-48: the map `lstats`; `title` is `FormatAccount` (`strings.Title`). -/
def beanStats (title : Str → Str) (ts : List Txn) : List (Str × BeanInfo) :=
  ts.flatten.foldl (fun m p => beanAdd (title p.acct) p m) []

inductive Directive
  | opn (date : Int) (acct : Str)
  | close (date : Int) (acct : Str)
deriving DecidableEq

/-- beancount.go:57-60: the lines for one account; `none` = `AddDays` does not return. -/
def beanLines (x : Str × BeanInfo) : Option (List Directive) :=
  if x.2.isZero then (addDays x.2.last 1).map fun d => [.opn x.2.first x.1, .close d x.1]
  else some [.opn x.2.first x.1]

def beanAll : List (Str × BeanInfo) → Option (List Directive)
  | [] => some []
  | x :: xs => (beanLines x).bind fun a => (beanAll xs).map fun b => a ++ b

/-- beancount.go:55-61: the directives, `ord` being the order in which the map is walked. -/
def beanDirectives (title : Str → Str) (ord : List (Str × BeanInfo) → List (Str × BeanInfo)) (ts : List Txn) :
    Option (List Directive) := beanAll (ord (beanStats title ts))

/-! ## The text -/

/-- export/beancount.go:10-14 `FormatCurrency`; `up` is `unicode.ToUpper`. -/
def beanCCY (up : Nat → Nat) (ccy : Str) : Str := (ccy.filter fun c => c != 32).map up

/-- export/beancount.go:57, 59 -/
def Directive.text : Directive → Str
  | .opn d a => dateString d ++ b!" open " ++ a ++ [10]
  | .close d a => dateString d ++ b!" close " ++ a ++ [10]

/-- export/beancount.go:74-80: a posting. -/
def beanPosting (f : Fmt) (title : Str → Str) (up : Nat → Nat) (p : Posting) : Str :=
  b!"  " ++ title p.acct ++ b!"  " ++ f.number p.ccy p.val ++ [32] ++ beanCCY up p.ccy ++ noteSuffix p.note ++ [10]

/-- export/beancount.go:66-83: a transaction; `none` = the index panic on an empty one. -/
def beanTxn (f : Fmt) (title : Str → Str) (up : Nat → Nat) (t : Txn) : Option Str :=
  match t with
  | [] => none
  | p :: _ => some (dateString p.date ++ b!" * \"" ++ p.payee ++ [34] ++ noteSuffix p.tnote ++ [10] ++
      t.flatMap (beanPosting f title up) ++ [10])

/-- export/beancount.go:89-92: the prices of a pair. -/
def beanPrices (f : Fmt) (up : Nat → Nat) (kv : (Str × Str) × PriceList) : Str :=
  kv.2.flatMap fun p => b!"P " ++ dateString p.date ++ b!" 00:00:00 " ++ beanCCY up kv.1.1 ++ [32] ++ f.number kv.1.2 p.val ++ [32] ++
    beanCCY up kv.1.2 ++ [10]

/-- export/beancount.go:21-96 `ShowBeancount` of the export. -/
def exportBeancount (f : Fmt) (title : Str → Str) (up : Nat → Nat) (ord : List (Str × BeanInfo) → List (Str × BeanInfo)) (base : Str)
    (ts : List Txn) (pl : List ((Str × Str) × PriceList)) : Option Str :=
  (beanDirectives title ord ts).bind fun ds => (concatOpt (beanTxn f title up) ts).map fun body =>
    (if base = [] then [] else b!"option \"operating_currency\" \"" ++ base ++ b!"\"\n\n") ++ ds.flatMap Directive.text ++
      b!"\n; Transactions\n" ++ body ++ b!"\n; Prices\n" ++ pl.flatMap (beanPrices f up)

/-- reports/beancount.go:21-83 `ShowBeancount` of the report. -/
def reportBeancount (f : Fmt) (title : Str → Str) (up : Nat → Nat) (ord : List (Str × BeanInfo) → List (Str × BeanInfo))
    (ts : List Txn) : Option Str :=
  (beanDirectives title ord ts).bind fun ds => (concatOpt (beanTxn f title up) ts).map fun body => ds.flatMap Directive.text ++ body

end Verif
