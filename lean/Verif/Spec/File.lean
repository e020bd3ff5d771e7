import Verif.Spec.Loader
import Verif.Spec.Calendar
import Verif.Spec.Builder

/-! # Specification: what the lines of a ledger file say

A file as its author sees it: a list of lines of nine kinds, each with its text, and the bookings that these lines stand for.  Nothing here
refers to how the program reads a file. -/

namespace Verif.Spec

/-- A day as written: year, month and day of the month in decimal digits. -/
structure DayText where
  ys : Str
  ms : Str
  ds : Str

/-- Slashes between them. -/
def DayText.text (d : DayText) : Str := d.ys ++ 47 :: d.ms ++ 47 :: d.ds

/-- The day meant is `t`: up to four digits for the year, up to two for month and day. -/
structure DayText.Means (d : DayText) (t : YMD) : Prop where
  digits : ∀ c ∈ d.ys ++ d.ms ++ d.ds, digitChar c = true
  lens : 1 ≤ d.ys.length ∧ d.ys.length ≤ 4 ∧ 1 ≤ d.ms.length ∧ d.ms.length ≤ 2 ∧ 1 ≤ d.ds.length ∧ d.ds.length ≤ 2
  vals : (digitsVal d.ys : Int) = t.y ∧ (digitsVal d.ms : Int) = t.m ∧ (digitsVal d.ds : Int) = t.d

/-- A note as written: nothing but blanks, or blanks, a semicolon, blanks and the note. -/
structure NoteText where
  note : Option Str
  sp1 : List Nat
  sp2 : List Nat

def NoteText.text (n : NoteText) : Str :=
  match n.note with
  | none => n.sp1
  | some s => n.sp1 ++ 59 :: n.sp2 ++ s

/-- The note stays on its line and begins with its first visible character. -/
structure NoteText.Valid (n : NoteText) : Prop where
  blanks : ∀ c ∈ n.sp1 ++ n.sp2, blankChar c = true
  line : ∀ s, n.note = some s → ∀ c ∈ s, lineChar c = true
  start : ∀ s c r, n.note = some s → s = c :: r → blankChar c = false

/-- The first line of a transaction: a day, perhaps a star, a payee with or without quotes, perhaps a note. -/
structure TxnLine where
  day : DayText
  date : YMD
  sp1 : List Nat
  star : Bool
  sp2 : List Nat
  quoted : Bool
  payee : Str
  note : NoteText

def TxnLine.text (t : TxnLine) : Str :=
  t.day.text ++ t.sp1 ++ (if t.star then 42 :: t.sp2 else []) ++ (if t.quoted then 34 :: t.payee ++ [34] else t.payee) ++ t.note.text

/-- The payee has no white space at its ends and stays on its line; without quotes it has no semicolon, does not begin with a quote, and
begins with a star only if there is a star before it; in quotes it has no quote. -/
structure TxnLine.Valid (t : TxnLine) : Prop where
  day : t.day.Means t.date
  gap : t.sp1 ≠ []
  blanks : ∀ c ∈ t.sp1 ++ t.sp2, blankChar c = true
  line : ∀ c ∈ t.payee, lineChar c = true
  first : ∀ c, t.payee.head? = some c → spaceChar c = false
  last : ∀ c, t.payee.getLast? = some c → spaceChar c = false
  plain : t.quoted = false → 59 ∉ t.payee ∧ t.payee.head? ≠ some 34 ∧ (t.star = false → t.payee.head? ≠ some 42)
  quote : t.quoted = true → 34 ∉ t.payee
  note : t.note.Valid

/-- A posting without an amount. -/
structure RestLine where
  sp0 : List Nat
  acct : Str
  note : NoteText

def RestLine.text (r : RestLine) : Str := r.sp0 ++ r.acct ++ r.note.text

structure RestLine.Valid (r : RestLine) : Prop where
  indent : r.sp0 ≠ []
  blanks : ∀ c ∈ r.sp0, blankChar c = true
  acct : r.acct ≠ [] ∧ ∀ c ∈ r.acct, acctChar c = true
  gap : r.note.note ≠ none → r.note.sp1 ≠ []
  note : r.note.Valid

/-- A price: a day, a time of day, the unit, and its price as currency and amount in either order. -/
structure PriceLine where
  sp0 : List Nat
  day : DayText
  date : YMD
  sp1 : List Nat
  hour : Str
  minute : Str
  second : Str
  sp2 : List Nat
  unitQuoted : Bool
  unit : Str
  sp3 : List Nat
  ccyFirst : Bool
  quoted : Bool
  ccy : Str
  sp4 : List Nat
  num : Numeral

def quoteIf (q : Bool) (s : Str) : Str := if q then 34 :: s ++ [34] else s

def PriceLine.text (p : PriceLine) : Str :=
  80 :: p.sp0 ++ p.day.text ++ p.sp1 ++ p.hour ++ 58 :: p.minute ++ 58 :: p.second ++ p.sp2 ++ quoteIf p.unitQuoted p.unit ++ p.sp3 ++
    (if p.ccyFirst then quoteIf p.quoted p.ccy ++ p.sp4 ++ p.num.text else p.num.text ++ p.sp4 ++ quoteIf p.quoted p.ccy)

structure PriceLine.Valid (p : PriceLine) : Prop where
  day : p.day.Means p.date
  gaps : p.sp1 ≠ [] ∧ p.sp2 ≠ [] ∧ p.sp3 ≠ []
  blanks : ∀ c ∈ p.sp0 ++ p.sp1 ++ p.sp2 ++ p.sp3 ++ p.sp4, blankChar c = true
  time : (∀ c ∈ p.hour ++ p.minute ++ p.second, digitChar c = true) ∧
    1 ≤ p.hour.length ∧ p.hour.length ≤ 2 ∧ 1 ≤ p.minute.length ∧ p.minute.length ≤ 2 ∧ 1 ≤ p.second.length ∧ p.second.length ≤ 2
  unit : p.unit ≠ []
  unitPlain : p.unitQuoted = false → p.unit.head? ≠ some 34 ∧ ∀ c ∈ p.unit, ccyChar c = true
  unitQuote : p.unitQuoted = true → ∀ c ∈ p.unit, lineChar c = true ∧ c ≠ 34
  num : p.num.Valid ∧ p.num.mantissa < 2 ^ 63 ∧ p.num.fracDigits.length ≤ 18
  digit : ∃ c r, p.num.ip = c :: r ∧ digitChar c = true
  ccy : p.ccy ≠ []
  plain : p.quoted = false → p.ccy.head? ≠ some 34 ∧ (p.ccyFirst = false → p.sp4 = [] → p.ccy.head? ≠ some 44) ∧ ∀ c ∈ p.ccy, ccyChar c = true
  quote : p.quoted = true → ∀ c ∈ p.ccy, lineChar c = true ∧ c ≠ 34

/-- A line of a ledger file. -/
inductive FileLine
  /-- an empty line -/
  | blank (sp : List Nat)
  /-- a comment -/
  | comment (sp : List Nat) (text : Str)
  /-- a line that begins with `=` or `D`, which this program does not use -/
  | unused (c : Nat) (text : Str)
  | txn (t : TxnLine)
  | posting (l : PostLine)
  | rest (r : RestLine)
  | price (p : PriceLine)
  /-- `short` stands for the account `long` from here on -/
  | short (sp1 : List Nat) (short : Str) (sp2 sp3 : List Nat) (long : Str) (sp4 : List Nat)
  /-- the lines of another file -/
  | incl (sp : List Nat) (quoted : Bool) (file : Str)

def FileLine.text : FileLine → Str
  | .blank sp => sp
  | .comment sp s => sp ++ 59 :: s
  | .unused c s => c :: s
  | .txn t => t.text
  | .posting l => l.text
  | .rest r => r.text
  | .price p => p.text
  | .short sp1 s sp2 sp3 l sp4 => b!"alias" ++ sp1 ++ s ++ sp2 ++ 61 :: sp3 ++ l ++ sp4
  | .incl sp q f => b!"include" ++ sp ++ quoteIf q f

def FileLine.Valid : FileLine → Prop
  | .blank sp => ∀ c ∈ sp, blankChar c = true
  | .comment sp s => (∀ c ∈ sp, blankChar c = true) ∧ ∀ c ∈ s, lineChar c = true
  | .unused c s => (c = 61 ∨ c = 68) ∧ ∀ c ∈ s, lineChar c = true
  | .txn t => t.Valid
  | .posting l => l.Valid ∧ ∀ n, l.note = some n → l.sp3 ≠ []
  | .rest r => r.Valid
  | .price p => p.Valid
  | .short sp1 s sp2 sp3 l sp4 => sp1 ≠ [] ∧ sp2 ≠ [] ∧ (∀ c ∈ sp1 ++ sp2 ++ sp3 ++ sp4, blankChar c = true) ∧ s ≠ [] ∧ l ≠ [] ∧
      ∀ c ∈ s ++ l, acctChar c = true
  | .incl sp q f => sp ≠ [] ∧ (∀ c ∈ sp, blankChar c = true) ∧ f ≠ [] ∧ (∀ c ∈ f, lineChar c = true) ∧
      (q = false → f.head? ≠ some 34 ∧ ∀ c, f.head? = some c → blankChar c = false)

/-- The text of a file. -/
def fileText (ls : List FileLine) : Str := ls.flatMap fun l => l.text ++ [10]

/-- The account meant by a name: that of the last `alias` line for it, or itself. -/
def standsFor (als : List (Str × Str)) (a : Str) : Str := ((als.reverse.find? fun kv => kv.1 == a).map (·.2)).getD a

/-- The amounts booked since the last new transaction. -/
def openAmounts (cs : List Call) : List (Str × Rat) := (segments [] cs).getLast?.getD []

/-- `FileSays fs join fn als pre ls cs`: after the bookings `pre`, and with the aliases `als`, the lines `ls` of the file `fn` stand for the
bookings `cs`.  An included file knows the aliases of the including one, but not the other way round.  A posting without an amount stands
for one posting per currency that is not balanced yet, in some order. -/
inductive FileSays (fs : Str → Option (List FileLine)) (join : Str → Str → Str) :
    Str → List (Str × Str) → List Call → List FileLine → List Call → Prop
  | nil (fn als pre) : FileSays fs join fn als pre [] []
  | blank (fn als pre sp ls cs) : FileSays fs join fn als pre ls cs → FileSays fs join fn als pre (.blank sp :: ls) cs
  | comment (fn als pre sp s ls cs) : FileSays fs join fn als pre ls cs → FileSays fs join fn als pre (.comment sp s :: ls) cs
  | unused (fn als pre c s ls cs) : FileSays fs join fn als pre ls cs → FileSays fs join fn als pre (.unused c s :: ls) cs
  | txn (fn als pre) (t : TxnLine) (ls cs) :
      FileSays fs join fn als (pre ++ [.newTransaction t.date.code t.payee (t.note.note.getD [])]) ls cs →
      FileSays fs join fn als pre (.txn t :: ls) (.newTransaction t.date.code t.payee (t.note.note.getD []) :: cs)
  | posting (fn als pre) (l : PostLine) (ls cs) :
      FileSays fs join fn als (pre ++ [.addPosting (standsFor als l.acct) l.ccy l.amount (l.note.getD [])]) ls cs →
      FileSays fs join fn als pre (.posting l :: ls) (.addPosting (standsFor als l.acct) l.ccy l.amount (l.note.getD []) :: cs)
  | rest (fn als pre) (r : RestLine) (adds : List (Str × Rat)) (ls cs) : (adds.map (·.1)).Nodup →
      (∀ c v, (c, v) ∈ adds ↔ net c (openAmounts pre) ≠ 0 ∧ v = -net c (openAmounts pre)) →
      FileSays fs join fn als (pre ++ adds.map fun cv => .addPosting (standsFor als r.acct) cv.1 cv.2 (r.note.note.getD [])) ls cs →
      FileSays fs join fn als pre (.rest r :: ls)
        ((adds.map fun cv => .addPosting (standsFor als r.acct) cv.1 cv.2 (r.note.note.getD [])) ++ cs)
  | price (fn als pre) (p : PriceLine) (ls cs) :
      FileSays fs join fn als (pre ++ [.addPrice p.date.code p.unit p.ccy p.num.value]) ls cs →
      FileSays fs join fn als pre (.price p :: ls) (.addPrice p.date.code p.unit p.ccy p.num.value :: cs)
  | short (fn als pre sp1 s sp2 sp3 l sp4 ls cs) : FileSays fs join fn (als ++ [(s, l)]) pre ls cs →
      FileSays fs join fn als pre (.short sp1 s sp2 sp3 l sp4 :: ls) cs
  | incl (fn als pre sp q f ls' cs' ls cs) : fs (join fn f) = some ls' → FileSays fs join (join fn f) als pre ls' cs' →
      FileSays fs join fn als (pre ++ cs') ls cs → FileSays fs join fn als pre (.incl sp q f :: ls) (cs' ++ cs)

/-- The letters as every alphabet has them: a to z are letters and their capitals are 32 places before; white space is no letter. -/
structure PlainLetters (e : Env) : Prop where
  letter : ∀ c, 97 ≤ c ∧ c ≤ 122 → e.letter c = true ∧ e.upper c = c - 32
  space : ∀ c, spaceChar c = true → e.letter c = false

/-- The files on disk are the given ones; they include each other only. -/
def OnDisk (e : Env) (fs : Str → Option (List FileLine)) : Prop :=
  ∀ f ls, fs f = some ls → e.files f = some (fileText ls) ∧ ∀ l ∈ ls, l.Valid ∧ ∀ sp q g, l = .incl sp q g → (fs (e.join f g)).isSome = true

end Verif.Spec
