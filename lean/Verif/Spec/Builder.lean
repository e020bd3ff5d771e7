import Verif.Model.Builder

/-! # Specification: what a sequence of builder calls means -/

namespace Verif.Spec

/-- The (currency, amount) pairs added to each transaction, in order.  Postings before the
first NewTransaction form a first, nameless transaction; `cur` is the open one. -/
def segments (cur : List (Str × Rat)) : List Call → List (List (Str × Rat))
  | [] => [cur]
  | .newTransaction _ _ _ :: cs => cur :: segments [] cs
  | .addPosting _ c v _ :: cs => segments (cur ++ [(c, v)]) cs
  | .addPrice _ _ _ _ :: cs => segments cur cs

/-- Net amount of a transaction in a currency. -/
def net (c : Str) (seg : List (Str × Rat)) : Rat := ((seg.filter (fun x => decide (x.1 = c))).map (·.2)).sum

/-- A transaction that balances in every currency. -/
def SegBalanced (seg : List (Str × Rat)) : Prop := ∀ c, net c seg = 0

/-- The (date, payee) pairs under which the builder filed the successive NewTransaction calls
(up to a panic), read off the builder after each call. -/
def issued (b : Builder) : List Call → List (Int × Str)
  | [] => []
  | c :: cs =>
    match b.call c with
    | none => []
    | some b' =>
      match c with
      | .newTransaction _ _ _ => (b'.currDate, b'.currPayee) :: issued b' cs
      | _ => issued b' cs

/-- A payee with a number. -/
def withNumber (payee : Str) (k : Nat) : Str := payee ++ b!" (" ++ natDec k ++ b!")"

/-- `FiledAs taken cs names`: the transactions begun by the calls `cs` are filed under the (date, payee) pairs `names`, if the pairs
`taken` are in use already.  A transaction gets its own payee if that is still free on the date, else the payee with the least number
from 2 on that is free. -/
inductive FiledAs : List (Int × Str) → List Call → List (Int × Str) → Prop
  | nil (taken) : FiledAs taken [] []
  | addPosting (taken a c v n cs ns) : FiledAs taken cs ns → FiledAs taken (.addPosting a c v n :: cs) ns
  | addPrice (taken d u c v cs ns) : FiledAs taken cs ns → FiledAs taken (.addPrice d u c v :: cs) ns
  | fresh (taken d p n cs ns) : (d, p) ∉ taken → FiledAs ((d, p) :: taken) cs ns → FiledAs taken (.newTransaction d p n :: cs) ((d, p) :: ns)
  | again (taken d p n cs ns k) : (d, p) ∈ taken → 2 ≤ k → (d, withNumber p k) ∉ taken →
      (∀ j, 2 ≤ j → j < k → (d, withNumber p j) ∈ taken) → FiledAs ((d, withNumber p k) :: taken) cs ns →
      FiledAs taken (.newTransaction d p n :: cs) ((d, withNumber p k) :: ns)

/-- An amount filed under date, payee, account, currency. -/
structure Entry where
  date : Int
  payee : Str
  acct : Str
  ccy : Str
  amt : Rat

/-- The entries added by a call sequence, when the successive transactions are filed under
`names`; `cur` is the current name. -/
def entries (cur : Int × Str) : List (Int × Str) → List Call → List Entry
  | _, [] => []
  | names, .addPosting a c v _ :: cs => ⟨cur.1, cur.2, a, c, v⟩ :: entries cur names cs
  | names, .addPrice _ _ _ _ :: cs => entries cur names cs
  | n :: names, .newTransaction _ _ _ :: cs => entries n names cs
  | [], .newTransaction _ _ _ :: _ => []

/-- Sum of the entries of a (date, payee, account, currency). -/
def entrySum (d : Int) (py a c : Str) (l : List Entry) : Rat :=
  ((l.filter (fun e => decide (e.date = d ∧ e.payee = py ∧ e.acct = a ∧ e.ccy = c))).map (·.amt)).sum

end Verif.Spec
