import Verif.Model.Text

/-! # What the text report must show -/

namespace Verif.Spec

/-- The two postings belong in the same row. -/
def SameRow (p v : Posting) : Prop := p.acct = v.acct ∧ p.acctterm = v.acctterm ∧ p.ccy = v.ccy

instance (p v : Posting) : Decidable (SameRow p v) := by unfold SameRow; infer_instance

/-- The amount of the transaction that belongs in the row of `v`. -/
def cellFor (fmt : TextFmt) (v : Posting) (t : Txn) : Option Cell :=
  (t.find? fun p => decide (SameRow p v)).map fun p => fmt.money p.ccy p.val

/-- The rows for the postings of the reference transaction: a blank line before every top-level account but the first, and a row
with the name and one amount per transaction. -/
def tableRows (fmt : TextFmt) (ts : List Txn) : Nat → List Posting → List Row
  | _, [] => []
  | i, v :: vs =>
    (if 0 < i ∧ v.acctlevel = 0 then [none] else []) ++
      some (some (fmt.name v) :: ts.map (cellFor fmt v)) :: tableRows fmt ts (i + 1) vs

/-- The whole table. -/
def table (fmt : TextFmt) (ts : List Txn) (last : Txn) : List Row :=
  some (some fmt.title :: ts.map fun t => (t.head?).map fun p => fmt.header p.date) :: tableRows fmt ts 0 last

/-- The line for a row: its cells, each padded to the width of its column, with one space between them; a blank row gives a blank line. -/
def lineOf (prt : Nat → Bool) (ws : List Int) : Row → List Nat
  | none => [10]
  | some r => List.intercalate [32] ((ws.zip r).map fun wc => (wc.2.map fun c => c.pad prt wc.1).getD []) ++ [10]

/-- Every transaction has at least one posting, no two postings of a transaction belong in the same row, currencies have a name and
levels are not negative. -/
structure Tabular (ts : List Txn) : Prop where
  nonempty : ∀ t ∈ ts, t ≠ []
  rows : ∀ t ∈ ts, t.Pairwise fun p q => ¬ SameRow p q
  ccy : ∀ t ∈ ts, ∀ p ∈ t, p.ccy ≠ []
  level : ∀ t ∈ ts, ∀ p ∈ t, 0 ≤ p.acctlevel

end Verif.Spec
