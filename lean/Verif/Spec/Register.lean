import Verif.Model.Register
import Verif.Spec.Book

/-! # Specification: the register -/

namespace Verif.Spec

/-- The counter-postings of a posting: same transaction and currency, another account, the
opposite direction. -/
def counterparts (t : Txn) (p : Posting) : List Posting :=
  t.filter fun q => decide (q.acct ≠ p.acct ∧ q.ccy = p.ccy ∧ q.val * p.val < 0)

/-- The postings to matching accounts, with their transactions, in order. -/
def matching (mat : Str → Bool) (ts : List Txn) : List (Txn × Posting) :=
  ts.flatMap fun t => (t.filter fun p => mat p.acct).map fun p => (t, p)

/-- The rows of a posting: who, when, what. -/
structure RowsFor (split : Bool) (t : Txn) (p : Posting) (g : List RegEntry) : Prop where
  fields : ∀ r ∈ g, r.date = p.date ∧ r.payee = p.payee ∧ r.account = p.acct ∧ r.ccy = p.ccy ∧
    r.note = p.note ∧ r.tnote = p.tnote
  some_counter : counterparts t p ≠ []
  counters : g.map (·.counterAccount) =
    if split then (counterparts t p).map (·.acct)
    else [List.intercalate b!";" ((counterparts t p).map (·.acct))]

/-- The amounts of the rows of a posting. -/
structure AmountsFor (split : Bool) (t : Txn) (p : Posting) (g : List RegEntry) : Prop where
  sum : (g.map (·.amount)).sum = p.val
  shares : split = true → g.map (·.amount) =
    (counterparts t p).map fun c => p.val * (c.val / ((counterparts t p).map (·.val)).sum)
  whole : split = false → g.map (·.amount) = [p.val]

/-- Sum of the amounts of the rows in a currency. -/
def rowTotal (c : Str) (rows : List RegEntry) : Rat := ((rows.filter fun r => decide (r.ccy = c)).map (·.amount)).sum

/-- Sum of the base amounts. -/
def baseTotal (rows : List RegEntry) : Rat := (rows.map (·.baseAmount)).sum

/-- A two-currency exchange at position `k` of a transaction: the first two postings of an
account, in `base` and `unit`, in opposite directions; `r` is the price of a unit in `base`. -/
def Exchange (t : Txn) (base unit : Str) (k : Nat) (r : Rat) : Prop :=
  ∃ a b, t[k]? = some a ∧ t[k + 1]? = some b ∧ a.acct = b.acct ∧
    (k = 0 ∨ ∃ c, t[k - 1]? = some c ∧ c.acct ≠ a.acct) ∧ a.val * b.val < 0 ∧
    ((a.ccy = base ∧ b.ccy = unit ∧ r = -(a.val / b.val)) ∨ (a.ccy = unit ∧ b.ccy = base ∧ r = -(b.val / a.val)))

/-- The rate of the first exchange, if any. -/
def FirstExchange (t : Txn) (base unit : Str) : Option Rat → Prop
  | some r => ∃ k, Exchange t base unit k r ∧ ∀ j r', j < k → ¬ Exchange t base unit j r'
  | none => ∀ k r, ¬ Exchange t base unit k r

end Verif.Spec
