import Verif.Spec.Print

/-! # Specification: what is seen of text with colour sequences -/

namespace Verif.Spec

/-- `true`: within an escape sequence, up to its `m`. -/
def stripFrom : Bool → List Nat → List Nat
  | _, [] => []
  | false, c :: s => if c = 27 then stripFrom true s else c :: stripFrom false s
  | true, c :: s => if c = 109 then stripFrom false s else stripFrom true s

/-- Without the escape sequences. -/
def plain (s : List Nat) : List Nat := stripFrom false s

/-- What is seen of a text: the printable characters, and a blank for a tab. -/
def onScreen (prt : Nat → Bool) (s : List Nat) : List Nat := (s.filter fun c => prt c || c == 9).map fun c => if c = 9 then 32 else c

/-- What a column has to show. -/
inductive ColText
  | left (s : List Nat)
  | right (s : List Nat)
  | money (symbol number : List Nat)

/-- Places needed. -/
def ColText.size : ColText → Nat
  | .left s => s.length
  | .right s => s.length
  | .money sym num => sym.length + num.length

/-- It on `w` places: cut to `w` characters, filled with blanks on the right (names) or on the left (numbers); a currency symbol stays on
the left. -/
def ColText.on (w : Nat) : ColText → List Nat
  | .left s => s.take w ++ List.replicate (w - s.length) 32
  | .right s => List.replicate (w - s.length) 32 ++ s.take w
  | .money sym num => sym ++ (List.replicate (w - sym.length - num.length) 32 ++ num.take (w - sym.length))

/-- The widths of the columns: no cell is wider, and a cell of the column is as wide. -/
def Widest (rows : List (List ColText)) (ws : List Nat) : Prop :=
  (∀ row ∈ rows, row.length = ws.length) ∧
  ∀ (j : Nat) (w : Nat), ws[j]? = some w →
    (∀ row ∈ rows, ∀ c, row[j]? = some c → c.size ≤ w) ∧ ∃ row ∈ rows, ∃ c, row[j]? = some c ∧ c.size = w

/-- Characters of a line: the columns and the blanks between them. -/
def lineWidth (ws : List Nat) : Nat := ws.sum + (ws.length - 1)

/-- `ws'` are the widths `ws`, except that the columns marked may be narrower. -/
def Narrowed (ws ws' : List Nat) (may : List Bool) : Prop :=
  ws'.length = ws.length ∧ ∀ (j : Nat) (w w' : Nat), ws[j]? = some w → ws'[j]? = some w' → w' ≤ w ∧ (may[j]? = some false → w' = w)

/-- The columns marked, together. -/
def markedWidth (ws : List Nat) (may : List Bool) : Nat := (((ws.zip may).filter (·.2)).map (·.1)).sum

end Verif.Spec
