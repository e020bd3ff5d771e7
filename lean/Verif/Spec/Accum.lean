import Verif.Model.Accum
import Verif.Spec.Book

/-! # Specification: summaries -/

namespace Verif.Spec

/-- The posting of the transaction `u` on account and currency `e`, or a zero one. -/
def entryOf (u : Txn) (e : Str × Str) : Posting :=
  match u.find? (fun p => decide ((p.acct, p.ccy) = e)), u with
  | some p, _ => p
  | none, h :: _ => zeroPost h e
  | none, [] => ⟨0, [], [], e.1, e.2, 0, [], 0, 0, [], []⟩

/-- A transaction with every (account, currency) of `accts`. -/
def fill (accts : List (Str × Str)) (u : Txn) : Txn := accts.map (entryOf u)

/-- `k` is the account `a` or an account above it. -/
def AtOrAbove (div k a : Str) : Prop := a = k ∨ (k ++ div) <+: a

/-- `k` is an account above `a`. -/
def Above (div k a : Str) : Prop := (k ++ div) <+: a

instance (div k a : Str) : Decidable (AtOrAbove div k a) := by unfold AtOrAbove; infer_instance
instance (div k a : Str) : Decidable (Above div k a) := by unfold Above; infer_instance

/-- `g` is the longest account that is above or equal to both, or nothing. -/
structure DeepestCommon (div a c g : Str) : Prop where
  common : g = [] ∨ (AtOrAbove div g a ∧ AtOrAbove div g c)
  deepest : ∀ k, AtOrAbove div k a → AtOrAbove div k c → k <+: g

/-- Two names part at a divider when, after the same beginning, one continues with the divider and
the other with another character. -/
def PartAtDivider (d : Nat) (a c : Str) : Prop :=
  ∃ p x s t, x ≠ d ∧ ((a = p ++ d :: s ∧ c = p ++ x :: t) ∨ (a = p ++ x :: s ∧ c = p ++ d :: t))

/-- The worth of a posting in the base currency at the price of its date (zero if there is
none). -/
def worth (prices : PriceBook) (base : Str) (p : Posting) : Rat :=
  match prices.getPrice p.date p.ccy base with
  | some r => p.val * r.1
  | none => 0

/-- What a transaction posts to an account and everything below it, in the base currency. -/
def treeTotal (prices : PriceBook) (base div k : Str) (u : Txn) : Rat :=
  ((u.filter fun p => decide (AtOrAbove div k p.acct)).map (worth prices base)).sum

/-- How many of the accounts `S` are above `a`. -/
def levelOf (S : List Str) (div a : Str) : Nat := S.countP fun k => decide (Above div k a)

/-- What identifies a row of a report. -/
structure RowKey where
  acct : Str
  term : Str
  level : Int
  ccy : Str
deriving DecidableEq

/-- The identification of a row. -/
def rowKey (p : Posting) : RowKey := ⟨p.acct, p.acctterm, p.acctlevel, p.ccy⟩

end Verif.Spec
