import Verif.Model.Ops
import Verif.Spec.Ledger

/-! # Specification vocabulary for whole books -/

namespace Verif.Spec

/-- The postings a user sees: those of `Transactions()`, in order. -/
def reported (srt : List Posting → List Posting) (b : Book) : List Posting := (b.transactions srt).flatten

/-- What a posting says: date, payee, account, currency, amount (no running balance, no notes). -/
structure Line where
  date : Int
  payee : Str
  acct : Str
  ccy : Str
  val : Rat
deriving DecidableEq, Repr

/-- The line of a posting. -/
def line (p : Posting) : Line := ⟨p.date, p.payee, p.acct, p.ccy, p.val⟩

/-- A posting without its running balance (but with notes). -/
def noBal (p : Posting) : Posting := { p with bal := 0 }

/-- Sum of `w p * amount p` over the selected postings. -/
def weighted (P : Posting → Bool) (w : Posting → Rat) (l : List Posting) : Rat :=
  ((l.filter P).map (fun p => w p * p.val)).sum

end Verif.Spec
