import Verif.Spec.Order

/-! # Specification: ledgers whose transactions have the same amounts -/

namespace Verif.Spec

/-- The transactions in order: date and payee, and the lines (account, currency, amount).  (The first are the lines before any transaction.) -/
def txnsFrom (h : Option (Int × Str)) (ls : List (Str × Str × Rat)) : List Call → List (Option (Int × Str) × List (Str × Str × Rat))
  | [] => [(h, ls)]
  | .newTransaction d p _ :: cs => (h, ls) :: txnsFrom (some (d, p)) [] cs
  | .addPosting a c v _ :: cs => txnsFrom h (ls ++ [(a, c, v)]) cs
  | .addPrice _ _ _ _ :: cs => txnsFrom h ls cs

def txnsIn (cs : List Call) : List (Option (Int × Str) × List (Str × Str × Rat)) := txnsFrom none [] cs

/-- What the lines book on an account in a currency. -/
def bookedBy (ls : List (Str × Str × Rat)) (acct ccy : Str) : Rat := ((ls.filter fun x => decide (x.1 = acct ∧ x.2.1 = ccy)).map (·.2.2)).sum

/-- Transaction by transaction the same date and payee, and the same amount on each account in each currency; and the same price lines.  (In how many
lines, in which order, and with which notes, does not matter.) -/
structure SameAmounts (cs cs' : List Call) : Prop where
  txns : List.Forall₂ (fun t t' => t.1 = t'.1 ∧ ∀ acct ccy, bookedBy t.2 acct ccy = bookedBy t'.2 acct ccy) (txnsIn cs) (txnsIn cs')
  prices : priceLines cs = priceLines cs'

end Verif.Spec
