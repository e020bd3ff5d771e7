import Verif.Model.Address

/-! # Specification: how a server reads an address -/

namespace Verif.Spec

/-- A text cut at a byte. -/
def pieces (sep : Nat) : Str → List Str
  | [] => [[]]
  | c :: s =>
    if c = sep then [] :: pieces sep s
    else match pieces sep s with
      | p :: ps => (c :: p) :: ps
      | [] => [[c]]

/-- A hexadecimal digit. -/
def hexDigit (c : Nat) : Option Nat :=
  if 48 ≤ c ∧ c ≤ 57 then some (c - 48) else if 65 ≤ c ∧ c ≤ 70 then some (c - 55) else if 97 ≤ c ∧ c ≤ 102 then some (c - 87) else none

/-- `%XX` is the byte of this number; in a query a `+` is a blank. -/
def readBytes (query : Bool) : Str → Option Str
  | [] => some []
  | 37 :: a :: b :: s =>
    match hexDigit a, hexDigit b with
    | some x, some y => (readBytes query s).map fun r => (16 * x + y) :: r
    | _, _ => none
  | c :: s => if c = 37 then none else (readBytes query s).map fun r => (if query = true ∧ c = 43 then 32 else c) :: r

/-- `name=value`, cut at the first `=`. -/
def readPair (s : Str) : Option (Str × Str) :=
  match readBytes true (s.takeWhile fun c => decide (c ≠ 61)), readBytes true (s.dropWhile fun c => decide (c ≠ 61)).tail with
  | some n, some v => some (n, v)
  | _, _ => none

/-- All in order, if all can be read. -/
def readEach {α β : Type} (f : α → Option β) : List α → Option (List β)
  | [] => some []
  | x :: l =>
    match f x, readEach f l with
    | some y, some r => some (y :: r)
    | _, _ => none

/-- What a form says: its pairs, cut at `&`; empty pieces say nothing. -/
def readForm (s : Str) : Option (List (Str × Str)) := readEach readPair ((pieces 38 s).filter fun p => !p.isEmpty)

/-- What a server is asked: the parts of the path between the slashes, and what the query says.  What follows `#` is not sent. -/
def readAddress (s : Str) : Option (List Str × List (Str × Str)) :=
  match readEach (readBytes false) (pieces 47 ((s.takeWhile fun c => decide (c ≠ 35)).takeWhile fun c => decide (c ≠ 63))),
    readForm ((s.takeWhile fun c => decide (c ≠ 35)).dropWhile fun c => decide (c ≠ 63)).tail with
  | some p, some q => some (p, q)
  | _, _ => none

/-- A text of bytes. -/
def Bytes (s : Str) : Prop := ∀ c ∈ s, c < 256

/-- A text without the bytes that mean something in an address. -/
def PlainText (s : Str) : Prop := ∀ c ∈ s, c ≠ 35 ∧ c ≠ 37 ∧ c ≠ 38 ∧ c ≠ 43 ∧ c ≠ 47 ∧ c ≠ 61 ∧ c ≠ 63

end Verif.Spec
