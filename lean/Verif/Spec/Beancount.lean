import Verif.Spec.Csv
import Verif.Spec.Calendar
import Verif.Spec.Export

/-! # Specification: reading the transactions of a Beancount file -/

namespace Verif.Spec

/-- The lines of a text. -/
def lines : Str → List Str
  | [] => [[]]
  | c :: s =>
    match lines s with
    | [] => [[]]
    | l :: ls => if c = 10 then [] :: l :: ls else (c :: l) :: ls

/-- What a line of a Beancount file says: it begins a transaction (date, flag `*`, payee in quotes), it is a posting (indented; account,
amount, currency), or something else. -/
inductive BeanLine
  | header (date payee : Str)
  | post (acct amount ccy : Str)
  | other
deriving DecidableEq

/-- The next word of a line, and what follows it. -/
def word (s : Str) : Str × Str := (s.takeWhile (· != 32), (s.dropWhile (· != 32)).dropWhile (· == 32))

/-- Reading a line. -/
def beanLine (l : Str) : BeanLine :=
  if l.take 2 = b!"  " then
    let a := word (l.drop 2)
    let n := word a.2
    .post a.1 n.1 (word n.2).1
  else
    let r := l.dropWhile (· != 32)
    if r.take 4 = b!" * \"" then .header (l.takeWhile (· != 32)) ((r.drop 4).takeWhile (· != 34)) else .other

/-- A transaction read. -/
structure BeanEntry where
  date : Str
  payee : Str
  posts : List (Str × Str × Str)
deriving DecidableEq

/-- The transactions of a list of lines, and the postings before the first of them. -/
def beanEntries : List BeanLine → List BeanEntry × List (Str × Str × Str)
  | [] => ([], [])
  | .header d p :: ls => (⟨d, p, (beanEntries ls).2⟩ :: (beanEntries ls).1, [])
  | .post a n c :: ls => ((beanEntries ls).1, (a, n, c) :: (beanEntries ls).2)
  | .other :: ls => ((beanEntries ls).1, [])

/-- The transactions of a Beancount file. -/
def readBean (s : Str) : List BeanEntry := (beanEntries ((lines s).map beanLine)).1

/-- A day as `YYYY/MM/DD`. -/
def slashDay (y : YMD) : Str := intPad 4 y.y ++ [47] ++ intPad 2 y.m ++ [47] ++ intPad 2 y.d

/-- A currency as Beancount is given it: without blanks and in capitals. -/
def capitals (up : Nat → Nat) (ccy : Str) : Str := (ccy.filter fun c => c != 32).map up

/-- The entry says what the transaction says, accounts and currencies being renamed. -/
structure BeanSays (racct rccy : Str → Str) (e : BeanEntry) (t : Txn) : Prop where
  date : ∃ y : YMD, y.Valid ∧ (∀ p ∈ t, p.date = y.code) ∧ e.date = slashDay y
  payee : ∀ p ∈ t, p.payee = e.payee
  posts : List.Forall₂ (fun x p => x.1 = racct p.acct ∧ decimalValue x.2.1 = p.val ∧ x.2.2 = rccy p.ccy) e.posts t

/-- Texts that a Beancount line can hold: account and currency, as renamed, are single words, the payee has no quote, and nothing has a
line break; the date is a real one. -/
structure BeanText (racct rccy : Str → Str) (p : Posting) : Prop where
  date : IsDate p.date
  payee : 34 ∉ p.payee ∧ 10 ∉ p.payee
  tnote : 10 ∉ p.tnote
  note : 10 ∉ p.note
  acct : racct p.acct ≠ [] ∧ 32 ∉ racct p.acct ∧ 10 ∉ racct p.acct
  ccy : rccy p.ccy ≠ [] ∧ 32 ∉ rccy p.ccy ∧ 10 ∉ rccy p.ccy

end Verif.Spec
