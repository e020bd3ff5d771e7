import Verif.Model.Loader
import Verif.Spec.Chars

/-! # Specification: ledger files -/

namespace Verif.Spec

/-! ## Numerals -/

/-- A decimal numeral as written: sign, integer part, and, after a point, a fraction; the parts
consist of digits and thousands commas. -/
structure Numeral where
  neg : Bool
  ip : Str
  frac : Option Str

/-- Only digits and commas. -/
def Numeral.Valid (n : Numeral) : Prop :=
  (∀ c ∈ n.ip, digitChar c = true ∨ c = 44) ∧ ∀ f, n.frac = some f → ∀ c ∈ f, digitChar c = true ∨ c = 44

/-- The point and the fraction as text. -/
def Numeral.fracText (n : Numeral) : Str :=
  match n.frac with
  | none => []
  | some f => 46 :: f

/-- The numeral as text. -/
def Numeral.text (n : Numeral) : Str := (if n.neg then [45] else []) ++ n.ip ++ n.fracText

/-- The digits of the fraction. -/
def Numeral.fracDigits (n : Numeral) : Str := (n.frac.getD []).filter digitChar

/-- The number denoted: integer part plus fraction, with the sign. -/
def Numeral.value (n : Numeral) : Rat :=
  (if n.neg then -1 else 1) *
    ((digitsVal (n.ip.filter digitChar) : Rat) + (digitsVal n.fracDigits : Rat) / 10 ^ n.fracDigits.length)

/-- All digits read as one number, without the point. -/
def Numeral.mantissa (n : Numeral) : Nat := digitsVal (n.ip.filter digitChar ++ n.fracDigits)

/-- The following text does not continue the numeral. -/
def Numeral.EndsAt (n : Numeral) (rest : List Nat) : Prop :=
  ∀ c, rest.head? = some c → digitChar c = false ∧ c ≠ 44 ∧ (n.frac = none → c ≠ 46)

/-! ## Posting lines -/

/-- A posting line as written: account, an optional minus sign, currency and amount in either
order (currency first or not), an optional note.  `sp` are the blanks: before the account, after it,
between currency and amount, before and after the semicolon. -/
structure PostLine where
  acct : Str
  minus : Bool
  ccyFirst : Bool
  quoted : Bool
  ccy : Str
  num : Numeral
  note : Option Str
  sp0 : List Nat
  sp1 : List Nat
  sp2 : List Nat
  sp3 : List Nat
  sp4 : List Nat

/-- The currency as text. -/
def PostLine.ccyText (l : PostLine) : Str := if l.quoted then 34 :: l.ccy ++ [34] else l.ccy

/-- Currency and amount as text. -/
def PostLine.amtText (l : PostLine) : Str :=
  if l.ccyFirst then l.ccyText ++ l.sp2 ++ l.num.text else l.num.text ++ l.sp2 ++ l.ccyText

/-- The note as text. -/
def PostLine.noteText (l : PostLine) : Str :=
  match l.note with
  | none => l.sp3
  | some n => l.sp3 ++ 59 :: l.sp4 ++ n

/-- The line, without its end. -/
def PostLine.text (l : PostLine) : Str :=
  l.sp0 ++ l.acct ++ l.sp1 ++ (if l.minus then [45] else []) ++ l.amtText ++ l.noteText

/-- The amount meant. -/
def PostLine.amount (l : PostLine) : Rat := (if l.minus then -1 else 1) * l.num.value

/-- Well-formed posting lines: the account consists of account characters, the line is indented,
the blanks are blank, the numeral begins with a digit and stays within 63 bits, the currency is a
run of currency characters (no quote at the start) or quoted, the note is on one line. -/
structure PostLine.Valid (l : PostLine) : Prop where
  acct : l.acct ≠ [] ∧ ∀ c ∈ l.acct, acctChar c = true
  indent : l.sp0 ≠ []
  gap : l.sp1 ≠ []
  blanks : ∀ c ∈ l.sp0 ++ l.sp1 ++ l.sp2 ++ l.sp3 ++ l.sp4, blankChar c = true
  num : l.num.Valid ∧ l.num.mantissa < 2 ^ 63 ∧ l.num.fracDigits.length ≤ 18
  digit : ∃ c r, l.num.ip = c :: r ∧ digitChar c = true
  ccy : l.ccy ≠ []
  plain : l.quoted = false → ∀ c ∈ l.ccy, ccyChar c = true
  start : l.quoted = false → ∀ c r, l.ccy = c :: r → c ≠ 34 ∧ (l.ccyFirst = false → l.sp2 = [] → c ≠ 44)
  quote : l.quoted = true → ∀ c ∈ l.ccy, lineChar c = true ∧ c ≠ 34
  note : ∀ n, l.note = some n → (∀ c ∈ n, lineChar c = true) ∧ ∀ c r, n = c :: r → blankChar c = false

/-! ## Includes -/

/-- Somewhere in the text there is the word "include" (in any case), blanks, and the file name `f`,
perhaps in quotes, up to the end of the line. -/
def IncludeText (e : Env) (content : List Nat) (f : Str) : Prop :=
  ∃ pre w sp p post, content = pre ++ w ++ sp ++ p ++ post ∧ w.map e.upper = b!"INCLUDE" ∧
    (∀ c ∈ sp, spaceChar c = true) ∧ (∀ c r, p = c :: r → blankChar c = false) ∧ (∀ c ∈ p, lineChar c = true) ∧
    (∀ c r, post = c :: r → lineChar c = false) ∧ (f = p ∨ 34 :: f ++ [34] = p)

/-- File `f` mentions file `g` in an include. -/
def MayInclude (e : Env) (f g : Str) : Prop :=
  ∃ content i, e.files f = some content ∧ IncludeText e content i ∧ g = e.join f i

/-! ## Reading text -/

/-- What `ParseFile` does with the contents `s` of file `fn` (includes nested at most `depth` deep),
from the state `b`, `als`. -/
def readText (e : Env) (depth : Nat) (fn : Str) (b : Builder) (als : Aliases) (s : List Nat) : Outcome :=
  parseLoop e fn (parseFileLocal e depth) (s.length + 1) b als s

/-- Reading a list of texts one after the other. -/
def readAll (e : Env) (depth : Nat) (fn : Str) (b : Builder) (als : Aliases) : List (List Nat) → Outcome
  | [] => .ok b als
  | s :: ss =>
    match readText e depth fn b als s with
    | .ok b als => readAll e depth fn b als ss
    | o => o

end Verif.Spec
