import Verif.Spec.File

/-! # Specification: postings at cost

Ledger files may give the price of what a posting buys or sells: `Broker 10 ACME @ 5 USD`. -/

namespace Verif.Spec

/-- A cost as written: blanks, an `@`, blanks, and a price per piece as currency and amount in either order. -/
structure Cost where
  sp1 : List Nat
  sp2 : List Nat
  ccyFirst : Bool
  quoted : Bool
  ccy : Str
  sp3 : List Nat
  num : Numeral

/-- The price as text. -/
def Cost.price (c : Cost) : Str :=
  if c.ccyFirst then quoteIf c.quoted c.ccy ++ c.sp3 ++ c.num.text else c.num.text ++ c.sp3 ++ quoteIf c.quoted c.ccy

/-- The cost as text. -/
def Cost.text (c : Cost) : Str := c.sp1 ++ 64 :: c.sp2 ++ c.price

structure Cost.Valid (c : Cost) : Prop where
  gap : c.sp1 ≠ []
  blanks : ∀ x ∈ c.sp1 ++ c.sp2 ++ c.sp3, blankChar x = true
  num : c.num.Valid ∧ c.num.mantissa < 2 ^ 63 ∧ c.num.fracDigits.length ≤ 18
  digit : ∃ x r, c.num.ip = x :: r ∧ digitChar x = true
  ccy : c.ccy ≠ []
  plain : c.quoted = false → c.ccy.head? ≠ some 34 ∧ (c.ccyFirst = false → c.sp3 = [] → c.ccy.head? ≠ some 44) ∧ ∀ x ∈ c.ccy, ccyChar x = true
  quote : c.quoted = true → ∀ x ∈ c.ccy, lineChar x = true ∧ x ≠ 34

/-- The text of a posting line with something between the amount and the note. -/
def PostLine.textWith (l : PostLine) (s : Str) : Str :=
  l.sp0 ++ l.acct ++ l.sp1 ++ (if l.minus then [45] else []) ++ l.amtText ++ s ++ l.noteText

/-- A line of a ledger file: any text, a posting, or a posting with its cost. -/
inductive CostedLine
  | other (s : Str)
  | posting (l : PostLine)
  | costed (l : PostLine) (c : Cost)

/-- Any text without a NUL; postings that are well-formed. -/
def CostedLine.Valid : CostedLine → Prop
  | .other s => 0 ∉ s
  | .posting l => l.Valid ∧ ∀ n, l.note = some n → l.sp3 ≠ []
  | .costed l c => (l.Valid ∧ ∀ n, l.note = some n → l.sp3 ≠ []) ∧ c.Valid

/-- The line as it is written. -/
def CostedLine.text : CostedLine → Str
  | .other s => s
  | .posting l => l.text
  | .costed l c => l.textWith c.text

/-- The line without the cost. -/
def CostedLine.bare : CostedLine → Str
  | .other s => s
  | .posting l => l.text
  | .costed l _ => l.text

/-- What the line moves at cost: the pieces times the price, in the currency of the price. -/
def CostedLine.atCost : CostedLine → Option (Str × Rat)
  | .other _ => none
  | .posting l => some (l.ccy, l.amount)
  | .costed l c => some (c.ccy, l.amount * c.num.value)

def costText (ls : List CostedLine) : Str := ls.flatMap fun l => l.text ++ [10]
def bareText (ls : List CostedLine) : Str := ls.flatMap fun l => l.bare ++ [10]

/-- `e'` has the files of `e`, some of them without the costs of their postings. -/
structure CostsRemoved (e e' : Env) : Prop where
  same : e' = { e with files := e'.files }
  files : ∀ f, e'.files f = e.files f ∨
    ∃ ls : List CostedLine, (∀ l ∈ ls, l.Valid) ∧ e.files f = some (costText ls) ∧ e'.files f = some (bareText ls)

end Verif.Spec
