import Verif.Model.Posting

/-! # Specification vocabulary for books

Only the posting's visible fields are used: what the user sees of a ledger are the sums of
amounts by date, payee, account and currency, and the order of the postings. -/

namespace Verif.Spec

/-- Sum of the amounts of the postings selected by `P`. -/
def total (P : Posting → Bool) (l : List Posting) : Rat := ((l.filter P).map (·.val)).sum

/-- Amount posted on a date, under a payee, to an account, in a currency. -/
def entryTotal (d : Int) (py a c : Str) (l : List Posting) : Rat :=
  total (fun p => decide (p.date = d ∧ p.payee = py ∧ p.acct = a ∧ p.ccy = c)) l

/-- Net amount of a transaction (date, payee) in a currency. -/
def txnTotal (d : Int) (py c : Str) (l : List Posting) : Rat :=
  total (fun p => decide (p.date = d ∧ p.payee = py ∧ p.ccy = c)) l

/-- Total of an account in a currency. -/
def acctTotal (a c : Str) (l : List Posting) : Rat :=
  total (fun p => decide (p.acct = a ∧ p.ccy = c)) l

/-- Total of everything in a currency. -/
def ccyTotal (c : Str) (l : List Posting) : Rat := total (fun p => decide (p.ccy = c)) l

/-- Every transaction nets to zero in every currency. -/
def Balanced (l : List Posting) : Prop := ∀ d py c, txnTotal d py c l = 0

/-- (date, payee) order. -/
def TxnBefore (p q : Posting) : Prop := p.date < q.date ∨ (p.date = q.date ∧ p.payee < q.payee)

/-- (account, currency) order. -/
def PostBefore (p q : Posting) : Prop := p.acct < q.acct ∨ (p.acct = q.acct ∧ p.ccy < q.ccy)

/-- Canonical form of a list of transactions: see C04. -/
structure Canonical (ts : List Txn) : Prop where
  nonempty : ∀ t ∈ ts, t ≠ []
  oneTxn : ∀ t ∈ ts, ∀ p ∈ t, ∀ q ∈ t, p.date = q.date ∧ p.payee = q.payee
  txnOrder : ts.Pairwise (fun t u => ∀ p ∈ t, ∀ q ∈ u, TxnBefore p q)
  postOrder : ∀ t ∈ ts, t.Pairwise PostBefore
  nonzero : ∀ t ∈ ts, ∀ p ∈ t, p.val ≠ 0

/-- What is observable of a posting, apart from the notes. -/
structure Obs where
  date : Int
  payee : Str
  acct : Str
  ccy : Str
  val : Rat
  bal : Rat
deriving DecidableEq, Repr

/-- The observation of a posting. -/
def obs (p : Posting) : Obs := ⟨p.date, p.payee, p.acct, p.ccy, p.val, p.bal⟩

/-- Every balance is the sum of the amounts of its account and currency so far. -/
def RunningBalances (l : List Posting) : Prop :=
  ∀ pre p post, l = pre ++ p :: post →
    p.bal = total (fun q => decide (q.acct = p.acct ∧ q.ccy = p.ccy)) (pre ++ [p])

end Verif.Spec
