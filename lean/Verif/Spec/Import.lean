import Verif.Model.Import
import Verif.Spec.Book

/-! # Specification: importing -/

namespace Verif.Spec

/-- Is there a transaction of this date and payee? -/
def hasTxn (ts : List Txn) (d : Int) (py : Str) : Bool :=
  ts.any fun u => u.any fun q => decide (q.date = d ∧ q.payee = py)

/-- `a` is a counter-account of `refacct` in the (two-posting) transaction. -/
def CounterIn (refacct a : Str) (t : Txn) : Prop :=
  ∃ x y, t = [x, y] ∧ ((x.acct = refacct ∧ y.acct = a) ∨ (x.acct ≠ refacct ∧ y.acct = refacct ∧ x.acct = a))

/-- The payee `py` was used with counter-account `a` in the reference transactions. -/
def UsedWith (refacct : Str) (ref : List Txn) (py a : Str) : Prop :=
  ∃ t ∈ ref, CounterIn refacct a t ∧ ∀ p ∈ t, p.payee = py

/-- Boolean version of `CounterIn` with the payee. -/
def counterInB (refacct a py : Str) (t : Txn) : Bool :=
  match t with
  | [x, y] => decide (x.payee = py) &&
      (decide (x.acct = refacct ∧ y.acct = a) || decide (x.acct ≠ refacct ∧ y.acct = refacct ∧ x.acct = a))
  | _ => false

/-- How many transactions of the reference use the payee with the counter-account. -/
def timesUsed (refacct : Str) (ref : List Txn) (py a : Str) : Nat := ref.countP (counterInB refacct a py)

/-- `a` is used with the payee at least as often as any other counter-account. -/
def MostCommon (refacct : Str) (ref : List Txn) (py a : Str) : Prop :=
  ∀ a', timesUsed refacct ref py a' ≤ timesUsed refacct ref py a

end Verif.Spec
