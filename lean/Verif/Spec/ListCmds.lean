import Verif.Spec.File
import Verif.Spec.Builder
import Verif.Spec.Screen

/-! # Specification: the lists of accounts and of currencies -/

namespace Verif.Spec

/-- What was booked to the account in the currency, altogether. -/
def bookedTotal (acct ccy : Str) : List Call → Rat
  | [] => 0
  | .addPosting a c v _ :: cs => (if a = acct ∧ c = ccy then v else 0) + bookedTotal acct ccy cs
  | _ :: cs => bookedTotal acct ccy cs

/-- Something was booked to the account in the currency. -/
def BookedIn (acct ccy : Str) (cs : List Call) : Prop := ∃ v n, Call.addPosting acct ccy v n ∈ cs

/-- Within some transaction, what was booked to the account in some currency does not cancel out. -/
def Moved (acct : Str) (cs : List Call) : Prop :=
  ∃ names, FiledAs [] cs names ∧ ∃ d py c, entrySum d py acct c (entries (-1, []) names cs) ≠ 0

/-- A list of names in one column: a heading, then a name on each line, all whole and filled with blanks to the width of the longest. -/
def OneColumn (head : Str) (names : List Str) (lines : List Str) : Prop :=
  ∃ w, (∀ s ∈ head :: names, s.length ≤ w) ∧ (∃ s ∈ head :: names, s.length = w) ∧
    lines = (head :: names).map fun s => s ++ List.replicate (w - s.length) 32 ++ [10]

/-- The line for a currency. -/
def ccyLine (ccy : Str) (decimals : Nat) : Str := ccy ++ b!" => " ++ natDec decimals ++ b!" decimals\n"

end Verif.Spec
