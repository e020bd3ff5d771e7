import Verif.Spec.Accum

/-! # Specification: how the rows of a summary are labelled

A row is printed indented by its level, with its term as label; the reader finds the account by
looking upwards for the row it is indented under. -/

namespace Verif.Spec

/-- The row `p`, printed below the rows `above`, reads right: either it is not indented and labelled with
the name of its account, or the nearest row above it that is indented less is indented one step
less, and the account of `p` is the account of that row followed by the divider and the label of `p`
(or the same account, and `p` has no label). -/
def ReadsRight (div : Str) (above : List Posting) (p : Posting) : Prop :=
  (p.acctlevel = 0 ∧ p.acctterm = p.acct) ∨
  ∃ before q between, above = before ++ q :: between ∧ q.acctlevel + 1 = p.acctlevel ∧
    (∀ z ∈ between, p.acctlevel ≤ z.acctlevel) ∧
    (p.acct = q.acct ++ div ++ p.acctterm ∨ (p.acct = q.acct ∧ p.acctterm = []))

/-- Every row of the column reads right. -/
def Nested (div : Str) (t : Txn) : Prop := ∀ above p below, t = above ++ p :: below → ReadsRight div above p

/-- The row that stands for its account: in the base currency, and no row of the account is indented less. -/
def HeadRow (base : Str) (t : Txn) (x : Posting) : Prop :=
  x ∈ t ∧ x.ccy = base ∧ ∀ y ∈ t, y.acct = x.acct → x.acctlevel ≤ y.acctlevel

/-- Two different accounts with the same rows above them. -/
def Siblings (div : Str) (t : Txn) (a c : Str) : Prop := a ≠ c ∧ ∀ w ∈ t, (Above div w.acct a ↔ Above div w.acct c)

/-- Of two siblings one of which has rows below it, the amounts differ in the first six decimals. -/
def NoTies (base div : Str) (t : Txn) : Prop :=
  ∀ x y z, HeadRow base t x → HeadRow base t y → z ∈ t → AtOrAbove div x.acct z.acct → x.acctlevel < z.acctlevel →
    Siblings div t x.acct y.acct → ratTrunc (x.val * 1000000) ≠ ratTrunc (y.val * 1000000)

/-- Of two siblings the one with the larger amount comes first (amounts closer than two millionths count as equal). -/
def LargestFirst (base div : Str) (t : Txn) : Prop :=
  t.Pairwise fun x y => HeadRow base t x → HeadRow base t y → Siblings div t x.acct y.acct → y.val < x.val + 2 / 1000000

/-- Every row that is not indented is labelled with the name of its account. -/
def Labelled (t : Txn) : Prop := ∀ p ∈ t, p.acctlevel = 0 → p.acctterm = p.acct

end Verif.Spec
