import Verif.Model.Book
import Verif.Model.Print

/-! # The text report: /repo/cmd/reports/text.go -/

namespace Verif

/-- What `ShowTransactions` can do: crash, return the error of text.go:70-73 without printing anything, or print lines. -/
inductive TextRes (α : Type)
  | panic
  | failed
  | ok (a : α)

/-- The formatting functions of the printer (colours, dates, numbers): text.go:22-25 for the header, text.go:38-45 for names,
print.go:124-141 `GetColumnMoney` for amounts (of currencies that are not empty). -/
structure TextFmt where
  title : Cell
  header : Int → Cell
  topName : Str → Cell
  subName : Nat → Str → Cell
  money : Str → Rat → Cell

/-- text.go:59, 66: what identifies a row. -/
def textKey (p : Posting) : Str × Str × Str := (p.acct, p.acctterm, p.ccy)

/-- text.go:36-45: the first cell of a row. -/
def TextFmt.name (fmt : TextFmt) (v : Posting) : Cell :=
  if v.acctlevel = 0 then fmt.topName v.acctterm else fmt.subName v.acctlevel.toNat v.acctterm

/-- text.go:33-60: the rows of the reference transaction and the index; `i` is the loop variable, `none` = panic (`strings.Repeat` of a
negative number).  In the index the newest entry comes first, as a later assignment to a map key replaces the earlier one. -/
def refRows (fmt : TextFmt) (n : Nat) : List Row → List ((Str × Str × Str) × Nat) → Nat → List Posting →
    Option (List Row × List ((Str × Str × Str) × Nat))
  | rows, idx, _, [] => some (rows, idx)
  | rows, idx, i, v :: vs =>
    if v.acctlevel < 0 then none
    else
      let rows := if i > 0 ∧ v.acctlevel = 0 then rows ++ [none] else rows
      refRows fmt n (rows ++ [some (some (fmt.name v) :: List.replicate n none)]) ((textKey v, rows.length) :: idx) (i + 1) vs

/-- `idx[key]` -/
def lookupRow (idx : List ((Str × Str × Str) × Nat)) (k : Str × Str × Str) : Option Nat :=
  (idx.find? fun e => decide (e.1 = k)).map (·.2)

/-- `rows[r][c] = x` -/
def setCell (rows : List Row) (r c : Nat) (x : Cell) : List Row :=
  rows.modify r (Option.map fun l => l.set c (some x))

/-- text.go:66-79: one transaction (column `i + 1`).  print.go:272 panics on an empty currency. -/
def fillTxn (fmt : TextFmt) (idx : List ((Str × Str × Str) × Nat)) (i : Nat) : List Row → List Posting → TextRes (List Row)
  | rows, [] => .ok rows
  | rows, v :: vs =>
    match lookupRow idx (textKey v) with
    | none => .failed
    | some r => if v.ccy = [] then .panic else fillTxn fmt idx i (setCell rows r (i + 1) (fmt.money v.ccy v.val)) vs

/-- text.go:63-80. -/
def fillAll (fmt : TextFmt) (idx : List ((Str × Str × Str) × Nat)) : Nat → List Row → List Txn → TextRes (List Row)
  | _, rows, [] => .ok rows
  | i, rows, t :: ts =>
    match fillTxn fmt idx i rows t with
    | .ok rows => fillAll fmt idx (i + 1) rows ts
    | .failed => .failed
    | .panic => .panic

/-- text.go:21-26: the header row; `none` = panic (`GetDate` of an empty transaction). -/
def headerCells (fmt : TextFmt) : List Txn → Option (List (Option Cell))
  | [] => some []
  | [] :: _ => none
  | (p :: _) :: ts => (headerCells fmt ts).map (some (fmt.header p.date) :: ·)

/-- text.go:10-81 `ShowTransactions`: the lines printed. -/
def showText (prt : Nat → Bool) (termWidth : Int) (fmt : TextFmt) (ts : List Txn) : TextRes (List (List Nat)) :=
  match ts.getLast? with
  | none => .panic                                  -- trans[len(trans)-1]
  | some last =>
    match headerCells fmt ts with
    | none => .panic
    | some hd =>
      match refRows fmt ts.length [some (some fmt.title :: hd)] [] 0 last with
      | none => .panic
      | some (rows, idx) =>
        match fillAll fmt idx 0 rows ts with
        | .panic => .panic
        | .failed => .failed
        | .ok rows =>
          match printColumns prt termWidth rows (List.replicate (ts.length + 1) false) with
          | none => .panic
          | some lines => .ok lines

end Verif
