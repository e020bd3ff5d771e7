import Verif.Model.ScriptBook
import Verif.Spec.Heap
import Verif.Spec.Book
import Verif.Spec.Float

/-! # Specification: what a script sees of a book -/

namespace Verif.Spec

/-- The attributes a script can read of a posting `p` in a transaction `t`, by name, and what they must be.  Amount and balance are
`float64`. -/
structure SeesPosting (p : Posting) (attr : Str → Option SVal) : Prop where
  date : attr b!"date" = some (.str (dateString p.date))
  payee : attr b!"payee" = some (.str p.payee)
  account : attr b!"account" = some (.str p.acct)
  ccy : attr b!"ccy" = some (.str p.ccy)
  tnote : attr b!"transaction_note" = some (.str p.tnote)
  note : attr b!"posting_note" = some (.str p.note)
  others : ∀ n, n ∉ [b!"date", b!"payee", b!"account", b!"ccy", b!"transaction_note", b!"posting_note", b!"amount", b!"balance"] →
    attr n = none

/-- The script reads `v` as a `float64` under the name: within half a unit of the last of 53 binary places. -/
def SeesNumber (name : Str) (v : Rat) (attr : Str → Option SVal) : Prop :=
  ∃ x, attr name = some (.float (.fin x)) ∧ IsDouble x ∧ |x - v| ≤ |v| / 2 ^ 53

/-- A number of ordinary size. -/
def OrdinarySize (v : Rat) : Prop := |v| ≤ 10 ^ 300 ∧ (v = 0 ∨ 1 / 10 ^ 300 ≤ |v|)

/-- The array of transactions holds the transactions of the book. -/
structure HasTrans (s : TMem × TBook) : Prop where
  cells : (s.1.tarrs s.2.ta).take s.2.b.trans.length = s.2.b.trans
  addr : s.2.ta < s.1.tnext

/-- The book in memory, laid out as `Build` leaves it, reads as the book `fb`. -/
structure Holds (s : TMem × TBook) (fb : Book) : Prop where
  laid : Laid s.1.m s.2.b
  reads : ReadsAs s.1.m s.2.b fb
  trans : HasTrans s

/-- The step only reads or filters by date. -/
def BookStep.Keeps : BookStep → Prop
  | .map _ _ => False
  | _ => True

/-- The step only reads. -/
def BookStep.Reads : BookStep → Prop
  | .read _ => True
  | _ => False

/-- A transaction without its running balances. -/
def noBals (ts : List Txn) : List (List Posting) := ts.map (·.map noBal)

end Verif.Spec
