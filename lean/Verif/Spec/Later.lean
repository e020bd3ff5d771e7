import Verif.Spec.Included
import Verif.Spec.Order

/-! # Specification: later bookings, and the totals of each day -/

namespace Verif.Spec

/-- A booking that concerns no day before `d`, and no price. -/
def NotBefore (d : Int) : Call → Prop
  | .newTransaction d' _ _ => d ≤ d'
  | .addPosting _ _ _ _ => True
  | .addPrice _ _ _ _ => False

/-- Transactions of the day `d` and later: the first booking begins a transaction. -/
inductive LaterCalls (d : Int) : List Call → Prop
  | none : LaterCalls d []
  | some {d' : Int} {py note : Str} {cs : List Call} : d ≤ d' → (∀ c ∈ cs, NotBefore d c) → LaterCalls d (.newTransaction d' py note :: cs)

/-- A line that concerns no day before `d`, and no price. -/
def FileLine.NotBefore (d : Int) : FileLine → Prop
  | .txn t => d ≤ t.date.code
  | .price _ => False
  | .incl _ _ _ => False
  | _ => True

/-- Lines with transactions of the day `d` and later: no posting comes before the first of them. -/
inductive LaterLines (d : Int) : List FileLine → Prop
  | none : LaterLines d []
  | txn {t : TxnLine} {ls : List FileLine} : d ≤ t.date.code → (∀ l ∈ ls, l.NotBefore d) → LaterLines d (.txn t :: ls)
  | silent {l : FileLine} {ls : List FileLine} : l.silent = true → LaterLines d ls → LaterLines d (l :: ls)

/-- What the bookings add on day `D` to account `A` in currency `C`, if the transaction begun before them is of day `cur`. -/
def bookedOn (D : Int) (A C : Str) : Int → List Call → Rat
  | _, [] => 0
  | _, .newTransaction d _ _ :: cs => bookedOn D A C d cs
  | cur, .addPosting a c v _ :: cs => (if cur = D ∧ a = A ∧ c = C then v else 0) + bookedOn D A C cur cs
  | cur, .addPrice _ _ _ _ :: cs => bookedOn D A C cur cs

/-- Two ledgers with the same amounts for each day, account and currency, and the same price lines: they may differ in how the amounts are
divided into transactions, in payees, notes, and in amounts that cancel within a day. -/
structure SameDays (cs cs' : List Call) : Prop where
  totals : ∀ D A C, bookedOn D A C (-1) cs = bookedOn D A C (-1) cs'
  prices : priceLines cs = priceLines cs'

/-- The booking with other words: payee, and notes. -/
def reworded (payee note : Int → Str → Str → Str) (pnote : Str → Str) : Call → Call
  | .newTransaction d py n => .newTransaction d (payee d py n) (note d py n)
  | .addPosting a c v n => .addPosting a c v (pnote n)
  | x => x

/-- A posting with its amount turned. -/
def turned : Call → Call
  | .addPosting a c v n => .addPosting a c (-v) n
  | x => x

/-- The transactions of the chosen days with their postings; `kept` says whether the transaction begun before is one of them. -/
def during (P : Int → Bool) : Bool → List Call → List Call
  | _, [] => []
  | _, .newTransaction d py n :: cs => if P d then .newTransaction d py n :: during P true cs else during P false cs
  | kept, .addPosting a c v n :: cs => if kept then .addPosting a c v n :: during P kept cs else during P kept cs
  | kept, .addPrice _ _ _ _ :: cs => during P kept cs

/-- The days from `s` on. -/
def fromDay (s : Int) (D : Int) : Bool := decide (s ≤ D)

/-- The days from `s` on before `d`. -/
def fromTo (s d : Int) (D : Int) : Bool := decide (s ≤ D ∧ D < d)

/-- Two ledgers with the same transactions, in the same order, on the chosen days, and the same price lines.  (Postings before the first transaction
are of day -1.) -/
structure SamePeriod (P : Int → Bool) (cs cs' : List Call) : Prop where
  bookings : during P (P (-1)) cs = during P (P (-1)) cs'
  prices : priceLines cs = priceLines cs'

end Verif.Spec
