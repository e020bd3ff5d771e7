import Verif.Model.Builder
import Verif.Spec.Calendar

/-! # Specification: price lookup -/

namespace Verif.Spec

/-- A currency's new name: the replacement if the expression matches, the old name if not. -/
def newName (mat : Str → Bool) (rep : Str → Str) (c : Str) : Str := if mat c then rep c else c

/-- The prices recorded for a pair by a sequence of builder calls, in order of recording. -/
def recorded (unit ccy : Str) : List Call → List Price
  | [] => []
  | .addPrice d u c v :: cs => if u = unit ∧ c = ccy then ⟨d, v⟩ :: recorded unit ccy cs else recorded unit ccy cs
  | _ :: cs => recorded unit ccy cs

/-- The documented answer to a price query on a (non-empty, unordered) history. -/
inductive Answer (h : List Price) (date : Int) : Rat × PriceType → Prop
  | before (q : Price) : q ∈ h → (∀ q' ∈ h, q.date ≤ q'.date) → date < q.date →
      Answer h date (q.val, .outOfRange)
  | after (q : Price) : q ∈ h → (∀ q' ∈ h, q'.date ≤ q.date) → q.date < date →
      Answer h date (q.val, .outOfRange)
  | exact (q : Price) : q ∈ h → q.date = date → Answer h date (q.val, .exact)
  | between (lo hi : Price) (a n : Int) : (∀ q ∈ h, q.date ≠ date) → lo ∈ h → hi ∈ h →
      lo.date < date → date < hi.date → (∀ q ∈ h, q.date ≤ lo.date ∨ hi.date ≤ q.date) →
      daysSince date lo.date = some a → daysSince hi.date lo.date = some n → n ≠ 0 →
      Answer h date (lo.val + (hi.val - lo.val) * ((a : Rat) / (n : Rat)), .inferred)

/-- The same with real calendar dates: the query date is `a` days after the nearest earlier
price and the nearest later one is `n` days after it. -/
inductive CalAnswer (h : List Price) (t : YMD) : Rat × PriceType → Prop
  | before (q : Price) : q ∈ h → (∀ q' ∈ h, q.date ≤ q'.date) → t.code < q.date →
      CalAnswer h t (q.val, .outOfRange)
  | after (q : Price) : q ∈ h → (∀ q' ∈ h, q'.date ≤ q.date) → q.date < t.code →
      CalAnswer h t (q.val, .outOfRange)
  | exact (q : Price) : q ∈ h → q.date = t.code → CalAnswer h t (q.val, .exact)
  | between (s : YMD) (v w : Rat) (a n : Nat) : (∀ q ∈ h, q.date ≠ t.code) → s.Valid →
      ⟨s.code, v⟩ ∈ h → ⟨(s.after n).code, w⟩ ∈ h → t = s.after a → 0 < a → a < n →
      (∀ q ∈ h, q.date ≤ s.code ∨ (s.after n).code ≤ q.date) →
      CalAnswer h t (v + (w - v) * ((a : Rat) / (n : Rat)), .inferred)

end Verif.Spec
