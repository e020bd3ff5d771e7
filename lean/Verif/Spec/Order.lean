import Verif.Spec.Builder
import Verif.Spec.Ledger
import Verif.Model.Commands

/-! # Specification: ledger files with the same content, reports with the same content -/

namespace Verif.Spec

/-- The dates and payees of the transactions, as written. -/
def headers : List Call → List (Int × Str)
  | [] => []
  | .newTransaction d p _ :: cs => (d, p) :: headers cs
  | _ :: cs => headers cs

/-- The price lines, in order. -/
def priceLines : List Call → List (Int × Str × Str × Rat)
  | [] => []
  | .addPrice d u c v :: cs => (d, u, c, v) :: priceLines cs
  | _ :: cs => priceLines cs

/-- Two ledgers with the same transactions in some order, no two of one date and payee, and the same price lines.  (Postings before the first
transaction are filed under the date -1 and no payee.) -/
structure SameLedger (cs cs' : List Call) : Prop where
  distinct : (headers cs).Nodup
  dated : (-1, []) ∉ headers cs
  headers : (Spec.headers cs).Perm (Spec.headers cs')
  booked : (entries (-1, []) (Spec.headers cs) cs).Perm (entries (-1, []) (Spec.headers cs') cs')
  prices : priceLines cs = priceLines cs'

/-- Two ledgers with the same transactions and the same price lines, each in some order, and wherever the price lines stand; no two transactions of
one date and payee, no two price lines of one date and pair of currencies. -/
structure SameContent (cs cs' : List Call) : Prop where
  distinct : (headers cs).Nodup
  dated : (-1, []) ∉ headers cs
  headers : (Spec.headers cs).Perm (Spec.headers cs')
  booked : (entries (-1, []) (Spec.headers cs) cs).Perm (entries (-1, []) (Spec.headers cs') cs')
  prices : (priceLines cs).Perm (priceLines cs')
  once : ((priceLines cs).map fun x => (x.1, x.2.1, x.2.2.1)).Nodup

/-- What a summary shows of a row: date, payee, account, currency, amount, indentation, name. -/
structure Row where
  date : Int
  payee : Str
  acct : Str
  ccy : Str
  val : Rat
  level : Int
  term : Str
deriving DecidableEq

/-- The row of a posting. -/
def row (p : Posting) : Row := ⟨p.date, p.payee, p.acct, p.ccy, p.val, p.acctlevel, p.acctterm⟩

/-- Two commands end in the same way, with things to show that are alike. -/
def EndsLike {α : Type} (R : α → α → Prop) : CmdEnd α → CmdEnd α → Prop
  | .ok x, .ok y => R x y
  | .err, .err => True
  | .crash, .crash => True
  | .diverge, .diverge => True
  | .fatal, .fatal => True
  | _, _ => False

/-- The same transactions, in the same order, of postings that differ at most in their notes: same date, payee, account, currency, amount and running
balance. -/
def SameTxns (ts ts' : List Txn) : Prop := ts.map (·.map obs) = ts'.map (·.map obs)

/-- The same columns of the same rows. -/
def SameRows (ts ts' : List Txn) : Prop := ts.map (·.map row) = ts'.map (·.map row)

/-- What a report shows of its transactions: the rows, if it is a summary, else the postings. -/
def SameReport (r : ReportConf) (ts ts' : List Txn) : Prop :=
  if r.sum = true ∧ r.typ ≠ b!"Beancount" then SameRows ts ts' else SameTxns ts ts'

end Verif.Spec

namespace Verif

/-- The settings with another ledger file. -/
def AppConf.reading (a : AppConf) (f : Str) : AppConf := { a with ledger := f }

/-- The environment with another sorting algorithm. -/
def OpEnv.sorting (e : OpEnv) (srt : List Posting → List Posting) : OpEnv := { e with srt := srt }

end Verif

namespace Verif.Spec

/-- What a register shows of an entry, without its notes. -/
def noNotes (r : RegEntry) : RegEntry := { r with note := [], tnote := [] }

/-- The same sections, in the same order, with the same rows: entries that differ at most in their notes. -/
def SameSections (x y : List (Str × List (Option RegEntry))) : Prop :=
  x.map (fun s => (s.1, s.2.map (·.map noNotes))) = y.map fun s => (s.1, s.2.map (·.map noNotes))

end Verif.Spec
