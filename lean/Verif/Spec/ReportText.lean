import Verif.Spec.RegText
import Verif.Spec.Text

/-! # Specification: the text report on the screen -/

namespace Verif.Spec

/-- The label of a row: two blanks for every level, and the term. -/
def labelText (p : Posting) : Str := List.replicate (2 * p.acctlevel.toNat) 32 ++ p.acctterm

/-- What stands in the row of `v` in the column of `t`: currency and amount of the posting of `t` that belongs there. -/
def amountCol (letter : Nat → Bool) (number : Str → Rat → Str) (v : Posting) (t : Txn) : ColText :=
  match t.find? fun p => decide (SameRow p v) with
  | some p => .money (inFront letter p.ccy) (number p.ccy p.val)
  | none => .left []

/-- The rows below the headings, `none` being a blank line: one before every row of the top level but the first row. -/
def reportRows (prt letter : Nat → Bool) (number : Str → Rat → Str) (ts : List Txn) (first : Bool) : List Posting → List (Option (List ColText))
  | [] => []
  | v :: vs =>
    (if first = false ∧ v.acctlevel = 0 then [none] else []) ++
      some (.left (onScreen prt (labelText v)) :: ts.map (amountCol letter number v)) :: reportRows prt letter number ts false vs

/-- The headings: the dates of the transactions. -/
def reportTitles (day : Int → Str) (ts : List Txn) : List ColText :=
  .left b!"Account" :: ts.map fun t => .right (t.head?.elim [] fun p => day p.date)

/-- The table. -/
def reportTable (prt letter : Nat → Bool) (day : Int → Str) (number : Str → Rat → Str) (ts : List Txn) (last : Txn) : List (Option (List ColText)) :=
  some (reportTitles day ts) :: reportRows prt letter number ts true last

/-- A line of the table on columns of these widths. -/
def lineOn (ws : List Nat) : Option (List ColText) → List Nat
  | none => [10]
  | some r => spaced (List.zipWith ColText.on ws r) ++ [10]

/-- The lines seen are the rows, every column as wide as its widest text: nothing is cut. -/
def WholeTable (rows : List (Option (List ColText))) (lines : List (List Nat)) : Prop :=
  ∃ ws, Widest (rows.filterMap id) ws ∧ lines = rows.map (lineOn ws)

/-- A posting whose label has no escape sequence and whose currency is a printable name. -/
def PlainRow (prt : Nat → Bool) (p : Posting) : Prop := 27 ∉ p.acctterm ∧ p.ccy ≠ [] ∧ ∀ c ∈ p.ccy, prt c = true ∧ c ≠ 27 ∧ c ≠ 9

end Verif.Spec
