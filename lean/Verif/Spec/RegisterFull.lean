import Verif.Spec.Register
import Verif.Spec.RegText
import Verif.Model.ExportCmd
import Verif.Spec.JsonOut
import Verif.Spec.Csv

/-! # Specification: the register command with its output -/

namespace Verif.Spec

/-- The rows to show: the first `n` for a positive count, the last `n` for a negative count `-n`, all for zero. -/
def chosen (count : Int) (rows : List RegEntry) : List RegEntry :=
  if count > 0 then rows.take count.toNat else if count < 0 then (rows.reverse.take (-count).toNat).reverse else rows

/-- The rows of the register of the transactions `ts` for the accounts that match, from the day `lo` to the day before `hi` (0: no bound): every matching
posting in order, shared out over its counter-accounts; running balances from the very first posting; at the end the totals; of these
rows those in the window, and of those the number asked for. -/
def RegisterOf (ts : List Txn) (mat : Str → Bool) (split : Bool) (lo hi count : Int) (rows : List RegEntry) : Prop :=
  ∃ groups, List.Forall₂ (fun (tp : Txn × Posting) g => RowsFor split tp.1 tp.2 g ∧ AmountsFor split tp.1 tp.2 g) (matching mat ts) groups ∧
    (∀ pre x post, groups.flatten = pre ++ x :: post →
      x.balance = rowTotal x.ccy (pre ++ [x]) ∧ x.baseBalance = baseTotal (pre ++ [x])) ∧
    (∀ c, rowTotal c groups.flatten = total (fun p => mat p.acct && decide (p.ccy = c)) ts.flatten) ∧
    rows = chosen count (groups.flatten.filter fun r => decide ((lo = 0 ∨ lo ≤ r.date) ∧ (hi = 0 ∨ r.date < hi)))

/-- Names that can be shown on the screen. -/
def PlainPostings (prt : Nat → Bool) (ps : List Posting) : Prop :=
  ∀ p ∈ ps, 27 ∉ p.payee ∧ 27 ∉ p.acct ∧ p.ccy ≠ [] ∧ ∀ c ∈ p.ccy, prt c = true ∧ c ≠ 27 ∧ c ≠ 9

/-- The rows as a table on a screen `width` wide (0: no limit): it is what is seen once the colour codes have been taken as such. -/
def RowsAsText (prt letter : Nat → Bool) (number : Str → Rat → Str) (width : Int) (withAcct : Bool) (rows : List RegEntry) (out : Exported) : Prop :=
  ∃ lines : List Str, out = .text lines.flatten ∧
    TableSeen width (registerMay withAcct true) (registerTable prt letter dateString number withAcct true rows) (lines.map plain)

/-- The rows as JSON. -/
def RowsAsJson (rows : List RegEntry) (out : Exported) : Prop := ∃ l, out = .json (.arr l) ∧ List.Forall₂ EntryIs l rows

/-- The rows as comma-separated values, after the headings. -/
def RowsAsCsv (rows : List RegEntry) (out : Exported) : Prop :=
  ∃ text table, out = .text text ∧ parseCsv text = some (registerHeadings :: table) ∧ List.Forall₂ EntrySays table rows

/-- Section after section: an empty line, the account on a line, and its rows. -/
def LaidOut (secs : List (Str × List RegEntry)) (P : List RegEntry → Exported → Prop) (pieces : List Exported) : Prop :=
  ∃ heads outs, pieces = (List.zipWith (fun h o => [Exported.text h, o]) heads outs).flatten ∧ heads.map plain = secs.map (fun s => [10] ++ s.1 ++ [10]) ∧
    List.Forall₂ P (secs.map (·.2)) outs

end Verif.Spec
