import Verif.Spec.Order

/-! # Specification: a ledger in parts -/

namespace Verif.Spec

/-- No posting stands before the first transaction. -/
def Starts : List Call → Prop
  | [] => True
  | .newTransaction _ _ _ :: _ => True
  | .addPrice _ _ _ _ :: cs => Starts cs
  | .addPosting _ _ _ _ :: _ => False

/-- A ledger made of prices and two parts, and the two ledgers made of the prices and one part each. -/
structure InParts (whole one two : List Call) : Prop where
  parts : ∃ prices cs1 cs2, (∀ x ∈ prices, ∃ d u c v, x = Call.addPrice d u c v) ∧ Starts cs2 ∧
    whole = prices ++ (cs1 ++ cs2) ∧ one = prices ++ cs1 ∧ two = prices ++ cs2

/-- The total of what stands under the chosen dates, accounts and currencies. -/
def chosenTotal (P : Int → Str → Str → Bool) (l : List Posting) : Rat := total (fun p => P p.date p.acct p.ccy) l

end Verif.Spec
