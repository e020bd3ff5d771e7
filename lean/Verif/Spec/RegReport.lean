import Verif.Spec.RegisterFull

/-! # Specification: the register and the report agree -/

namespace Verif.Spec

/-- What an account has of a currency by the postings `ps`, those of days that satisfy `when`. -/
def held (acct c : Str) (when : Int → Bool) (ps : List Posting) : Rat := total (fun p => decide (p.acct = acct ∧ p.ccy = c) && when p.date) ps

/-- Before the day `hi` (0: no limit). -/
def until_ (hi : Int) (d : Int) : Bool := decide (hi = 0 ∨ d < hi)

/-- Before the day `lo` (0: never). -/
def ahead (lo : Int) (d : Int) : Bool := decide (lo ≠ 0 ∧ d < lo)

/-- From the day `lo` to the day before `hi` (0: no limit). -/
def within (lo hi : Int) (d : Int) : Bool := decide ((lo = 0 ∨ lo ≤ d) ∧ (hi = 0 ∨ d < hi))

/-- The rows of a register of an account, windowed and counted, say what the postings of the report `ps` say: the last balance of each currency is what the account has at
the end of the window, the first balance is what it had before the window and the first amount, and the amounts add up to the change. -/
structure Agrees (lo hi count : Int) (acct : Str) (ps : List Posting) (rows : List RegEntry) : Prop where
  closing : count ≤ 0 → ∀ c x, (rows.filter fun r => decide (r.ccy = c)).getLast? = some x → x.balance = held acct c (until_ hi) ps
  opening : 0 ≤ count → ∀ c x, (rows.filter fun r => decide (r.ccy = c)).head? = some x → x.balance - x.amount = held acct c (ahead lo) ps
  change : count = 0 → ∀ c, rowTotal c rows = held acct c (within lo hi) ps

end Verif.Spec
