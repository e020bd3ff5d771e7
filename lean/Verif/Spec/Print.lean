import Verif.Model.Print

/-! # Strings with colour sequences, and column widths -/

namespace Verif.Spec

/-- A string seen as characters and terminated escape sequences `ESC … m`. -/
inductive Tok
  | esc (body : List Nat)
  | chr (r : Nat)

def Tok.runes : Tok → List Nat
  | .esc body => 27 :: body ++ [109]
  | .chr r => [r]

/-- The body of an escape sequence has no `m`; a character is not ESC. -/
def Tok.Ok : Tok → Prop
  | .esc body => 109 ∉ body
  | .chr r => r ≠ 27

/-- What takes up a place on the screen: printable characters, and tabs. -/
def Tok.visible (prt : Nat → Bool) : Tok → Bool
  | .esc _ => false
  | .chr r => prt r || r == 9

def runesOf (ts : List Tok) : List Nat := ts.flatMap Tok.runes

/-- All escape sequences of `s` are terminated. -/
def Terminated (s : List Nat) : Prop := ∃ ts, (∀ t ∈ ts, t.Ok) ∧ s = runesOf ts

/-- Number of places taken up. -/
def visibleCount (prt : Nat → Bool) (ts : List Tok) : Nat := (ts.filter (Tok.visible prt)).length

/-- Keep the first `n` visible characters (a tab becomes a space), drop the other characters,
keep every escape sequence. -/
def clip (prt : Nat → Bool) : Nat → List Tok → List Tok
  | _, [] => []
  | n, .esc b :: ts => .esc b :: clip prt n ts
  | n, .chr r :: ts =>
    if prt r || r == 9 then
      match n with
      | 0 => clip prt 0 ts
      | n + 1 => .chr (if r = 9 then 32 else r) :: clip prt n ts
    else clip prt n ts

/-- The widths of the columns that may shrink. -/
def shrinkable (ws : List Int) (shrink : List Bool) : List Int :=
  ((ws.zip shrink).filter (·.2)).map (·.1)

/-- The width of a row: the columns and the spaces between them. -/
def rowWidth (ws : List Int) : Int := ws.sum + (ws.length - 1 : Int)

/-- `ws` are the widths of the widest cell of each column; the number of columns is that of the first row, and no cell is missing. -/
structure Widths (prt : Nat → Bool) (rows : List Row) (ws : List Int) : Prop where
  first : ∃ r rest, rows = some r :: rest ∧ r.length = ws.length
  wide : ∀ r, some r ∈ rows → ∀ (j : Nat) (w : Int), ws[j]? = some w → ∃ c : Cell, r[j]? = some (some c) ∧ (c.length prt : Int) ≤ w
  tight : ∀ (j : Nat) (w : Int), ws[j]? = some w → w = 0 ∨ ∃ r, some r ∈ rows ∧ ∃ c : Cell, r[j]? = some (some c) ∧ (c.length prt : Int) = w

/-- `p` is the cell on `w` places: its text cut to `w` places, filled with blanks on the right, or on the left for numbers; a currency symbol
comes before the blanks. -/
inductive Shows (prt : Nat → Bool) (w : Nat) : Cell → List Nat → Prop
  | str (ts) : (∀ t ∈ ts, Tok.Ok t) →
      Shows prt w (.str (runesOf ts)) (runesOf (clip prt w ts) ++ List.replicate (w - visibleCount prt ts) 32)
  | right (ts) : (∀ t ∈ ts, Tok.Ok t) →
      Shows prt w (.right (runesOf ts)) (List.replicate (w - visibleCount prt ts) 32 ++ runesOf (clip prt w ts))
  | money (ss ts k) : (∀ t ∈ ss, Tok.Ok t) → (∀ t ∈ ts, Tok.Ok t) → w = visibleCount prt ss + k →
      Shows prt w (.money (runesOf ss) (runesOf ts))
        (runesOf ss ++ (List.replicate (k - visibleCount prt ts) 32 ++ runesOf (clip prt k ts)))

/-- The pieces of a line, with a blank between them. -/
def spaced : List (List Nat) → List Nat
  | [] => []
  | [p] => p
  | p :: q :: ps => p ++ 32 :: spaced (q :: ps)

/-- What is printed for a row: its cells, each on the places of its column, with a blank between them; an empty line for a blank row. -/
def LineShows (prt : Nat → Bool) (ws : List Int) (row : Row) (line : List Nat) : Prop :=
  (row = none → line = [10]) ∧
  ∀ r, row = some r → ∃ pieces, line = spaced pieces ++ [10] ∧ pieces.length = ws.length ∧
    ∀ (j : Nat) (w : Int) (p : List Nat), ws[j]? = some w → pieces[j]? = some p → ∃ c, r[j]? = some (some c) ∧ Shows prt w.toNat c p

end Verif.Spec
