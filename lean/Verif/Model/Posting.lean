import Verif.Basic

/-! # Postings: /repo/book/posting.go -/

namespace Verif

/-- posting.go:9-23 `type Posting struct`.  Amounts are values (`big.Rat` pointers are
modelled separately in `Model/Heap.lean`). -/
structure Posting where
  date : Int
  payee : Str
  tnote : Str
  acct : Str
  ccy : Str
  val : Rat
  note : Str
  bal : Rat
  acctlevel : Int
  acctterm : Str
  acctsort : Str
deriving DecidableEq, Repr

/-- transaction.go:9 `type Transaction []Posting`. -/
abbrev Txn := List Posting

/-- posting.go:50-59 `dup`. -/
def Posting.dup (p : Posting) (newAcct : Str) (newDate : Int) (newAmt : Rat) : Posting :=
  { p with date := newDate, acct := newAcct, acctterm := newAcct, acctlevel := 0,
           val := newAmt, bal := 0 }

/-- posting.go:44-48 `byAcctDateFactor`. -/
def Posting.byAcctDateFactor (p : Posting) (newAcct : Str) (newDate : Int) (f : Rat) : Posting :=
  p.dup newAcct newDate (p.val * f)

/-- posting.go:40-42 `byAcctFactor`. -/
def Posting.byAcctFactor (p : Posting) (newAcct : Str) (f : Rat) : Posting :=
  p.byAcctDateFactor newAcct p.date f

/-- posting.go:36-38 `byFactor`. -/
def Posting.byFactor (p : Posting) (f : Rat) : Posting :=
  p.byAcctDateFactor p.acct p.date f

/-- posting.go:61-105 `isLess`: the cascade of comparisons, in order. -/
def Posting.isLess (p r : Posting) : Bool :=
  if p.date < r.date then true
  else if r.date < p.date then false
  else if p.payee < r.payee then true
  else if r.payee < p.payee then false
  else if p.acctsort < r.acctsort then true
  else if r.acctsort < p.acctsort then false
  else if p.acct < r.acct then true
  else if r.acct < p.acct then false
  else if p.acctlevel < r.acctlevel then true
  else if r.acctlevel < p.acctlevel then false
  else if p.ccy < r.ccy then true
  else false

/-- The contract of Go's `sort.Slice` with the comparison `isLess`: the result is a
permutation of the input and no element is less than an earlier one.  Nothing is
promised about the order of equal elements (the sort is not stable). -/
structure IsSort (srt : List Posting → List Posting) : Prop where
  perm : ∀ l, (srt l).Perm l
  sorted : ∀ l, (srt l).Pairwise (fun a b => Posting.isLess b a = false)

end Verif
