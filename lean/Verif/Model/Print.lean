import Verif.Basic

/-! # Column printing: /repo/cmd/app/print.go

A string is the list of its decoded runes (`utf8.DecodeRuneInString` turns an undecodable
byte into U+FFFD, which the code writes back as U+FFFD; so the list of runes is what both the
input and the output mean).  `prt` is `unicode.IsPrint`. -/

namespace Verif

/-- print.go:347-352, 385-389: skip to just after the `m` that ends an escape sequence. -/
def skipAnsi : List Nat → List Nat
  | [] => []
  | r :: rs => if r = 109 then rs else skipAnsi rs

/-- print.go:385-389: the runes written while skipping. -/
def takeAnsi : List Nat → List Nat
  | [] => []
  | r :: rs => if r = 109 then [r] else r :: takeAnsi rs

theorem skipAnsi_length (s : List Nat) : (skipAnsi s).length ≤ s.length := by
  induction s with
  | nil => simp [skipAnsi]
  | cons r rs ih => simp only [skipAnsi]; split <;> simp <;> omega

/-- print.go:338-366 `Length`. -/
def strLength (prt : Nat → Bool) : List Nat → Nat
  | [] => 0
  | r :: rs =>
    if r = 27 then
      have := skipAnsi_length rs
      strLength prt (skipAnsi rs)
    else if prt r = false ∧ r ≠ 9 then strLength prt rs
    else 1 + strLength prt rs
termination_by s => s.length
decreasing_by all_goals (simp only [List.length_cons]; omega)

/-- print.go:376-415: the loop of `PadString`: what is written, and the final count;
`count` is the number of characters seen before. -/
def padLoop (prt : Nat → Bool) (max : Int) (count : Int) : List Nat → List Nat × Int
  | [] => ([], count)
  | r :: rs =>
    if r = 27 then
      have := skipAnsi_length rs
      let p := padLoop prt max count (skipAnsi rs)
      (r :: takeAnsi rs ++ p.1, p.2)
    else if prt r = false ∧ r ≠ 9 then padLoop prt max count rs
    else
      let p := padLoop prt max (count + 1) rs
      (if count + 1 ≤ max then (if r = 9 then 32 else r) :: p.1 else p.1, p.2)
termination_by s => s.length
decreasing_by all_goals (simp only [List.length_cons]; omega)

/-- print.go:371-427 `PadString`. -/
def padString (prt : Nat → Bool) (s : List Nat) (max : Int) (left : Bool) : List Nat :=
  let p := padLoop prt max 0 s
  if p.2 ≥ max then p.1
  else
    let padding := List.replicate (max - p.2).toNat 32
    if left then p.1 ++ padding else padding ++ p.1

/-- print.go:119-176 `ColumnValue` and its three implementations. -/
inductive Cell
  | str (s : List Nat)
  | right (s : List Nat)
  | money (symbol amount : List Nat)

/-- print.go:150-152, 163-165, 172-174 `Length` -/
def Cell.length (prt : Nat → Bool) : Cell → Nat
  | .str s => strLength prt s
  | .right s => strLength prt s
  | .money sym amt => strLength prt sym + strLength prt amt

/-- print.go:154-158, 166-168, 175-177 `Pad` -/
def Cell.pad (prt : Nat → Bool) (c : Cell) (width : Int) : List Nat :=
  match c with
  | .str s => padString prt s width true
  | .right s => padString prt s width false
  | .money sym amt => sym ++ padString prt amt (width - strLength prt sym) false

/-- A row: `none` is a nil slice (a blank line); a cell `none` is a nil interface. -/
abbrev Row := Option (List (Option Cell))

/-- print.go:192-197: one row raises the column widths; `none` = panic (row too short or a
nil cell). -/
def widenRow (prt : Nat → Bool) : List Int → List (Option Cell) → Option (List Int)
  | [], _ => some []
  | w :: ws, some c :: cs =>
    match widenRow prt ws cs with
    | none => none
    | some ws' => some ((if (c.length prt : Int) > w then (c.length prt : Int) else w) :: ws')
  | _ :: _, _ => none

/-- print.go:188-198: the content widths. -/
def widen (prt : Nat → Bool) : List Int → List Row → Option (List Int)
  | ws, [] => some ws
  | ws, none :: rows => widen prt ws rows
  | ws, some r :: rows =>
    match widenRow prt ws r with
    | none => none
    | some ws' => widen prt ws' rows

/-- print.go:187: `make([]int, len(rows[0]))`; `none` = panic (no rows). -/
def initWidths : List Row → Option (List Int)
  | [] => none
  | none :: _ => some []
  | some r :: _ => some (r.map fun _ => 0)

/-- print.go:204-210: sum of the widths of the columns that may shrink, and their number;
`none` = panic (`shrinkToTerm` too short). -/
def shrinkSums : List Int → List Bool → Option (Int × Int)
  | [], _ => some (0, 0)
  | _ :: _, [] => none
  | w :: ws, s :: ss =>
    match shrinkSums ws ss with
    | none => none
    | some (sw, n) => some (if s then sw + w else sw, if s then n + 1 else n)

/-- print.go:219-237: shrink the columns one after the other; `none` = panic (division by
zero).  The flags are known to be long enough. -/
def shrinkLoop (shrinkage shrinkColWidth : Int) : List Int → List Bool → Option (List Int)
  | [], _ => some []
  | ws, [] => some ws
  | w :: ws, false :: ss => (shrinkLoop shrinkage shrinkColWidth ws ss).map (w :: ·)
  | w :: ws, true :: ss =>
    if shrinkColWidth = 0 then none
    else
      let toShrink := (w * shrinkage).tdiv shrinkColWidth
      (shrinkLoop (shrinkage - toShrink) (shrinkColWidth - w) ws ss).map ((w - toShrink) :: ·)

/-- print.go:200-239: from content widths to printed widths; `none` = panic. -/
def layout (termWidth : Int) (ws : List Int) (shrink : List Bool) : Option (List Int) :=
  match shrinkSums ws shrink with
  | none => none
  | some (sw, n) =>
    let total : Int := ws.sum + ((ws.length : Int) - 1)
    if termWidth > 0 ∧ n > 0 ∧ total > termWidth then shrinkLoop (total - termWidth) sw ws shrink
    else some ws

/-- print.go:247-254: one row: the padded cells, separated by spaces, and a newline. -/
def printRow (prt : Nat → Bool) : List Int → List (Option Cell) → Option (List Nat)
  | [], _ => some []
  | [w], some c :: _ => some (c.pad prt w ++ [10])
  | w :: w' :: ws, some c :: cs => (printRow prt (w' :: ws) cs).map (c.pad prt w ++ 32 :: ·)
  | _ :: _, _ => none

/-- print.go:242-255: all rows. -/
def printRows (prt : Nat → Bool) (ws : List Int) : List Row → Option (List (List Nat))
  | [] => some []
  | none :: rows => (printRows prt ws rows).map ([10] :: ·)
  | some r :: rows =>
    match printRow prt ws r with
    | none => none
    | some l => (printRows prt ws rows).map (l :: ·)

/-- print.go:179-256 `PrintColumns`: the lines written, one per row; `none` = panic.  The
pager (lines 181-184) is left out. -/
def printColumns (prt : Nat → Bool) (termWidth : Int) (rows : List Row) (shrink : List Bool) :
    Option (List (List Nat)) :=
  match initWidths rows with
  | none => none
  | some w0 =>
    match widen prt w0 rows with
    | none => none
    | some ws =>
      match layout termWidth ws shrink with
      | none => none
      | some ws' => printRows prt ws' rows

end Verif
