import Verif.Spec.Screen
import Verif.Spec.Export
import Verif.Model.Register

/-! # Specification: the register on the screen -/

namespace Verif.Spec

/-- The characters of ASCII that can be printed: from the blank to the tilde. -/
def AsciiPrint (prt : Nat → Bool) : Prop := ∀ c, c < 128 → (prt c = true ↔ 32 ≤ c ∧ c ≤ 126)

/-- A currency in front of a number: a blank follows if it ends in a letter or a quote. -/
def inFront (letter : Nat → Bool) (ccy : Str) : Str := if ccy.getLast?.any (fun c => letter c || c == 34) then ccy ++ [32] else ccy

/-- The headings of the columns. -/
def registerTitles (withAcct withBal : Bool) : List ColText :=
  [.left b!"Date", .left b!"Payee"] ++ (if withAcct then [.left b!"Account"] else []) ++ [.left b!"Counteraccount", .right b!"Amount"] ++
    (if withBal then [.right b!"Balance"] else [])

/-- The columns of an entry, `number` and `day` being the texts of numbers and dates. -/
def registerCols (prt letter : Nat → Bool) (day : Int → Str) (number : Str → Rat → Str) (withAcct withBal : Bool) (p : RegEntry) : List ColText :=
  [.left (day p.date), .left (onScreen prt p.payee)] ++ (if withAcct then [.left (onScreen prt p.account)] else []) ++
    [.left (onScreen prt p.counterAccount), .money (inFront letter p.ccy) (number p.ccy p.amount)] ++
    (if withBal then [.money (inFront letter p.ccy) (number p.ccy p.balance)] else [])

/-- The columns that may be cut: the names. -/
def registerMay (withAcct withBal : Bool) : List Bool :=
  [false, true] ++ (if withAcct then [true] else []) ++ [true, false] ++ (if withBal then [false] else [])

/-- An entry whose texts have no escape sequences and whose currency is a printable name. -/
def PlainEntry (prt : Nat → Bool) (p : RegEntry) : Prop :=
  27 ∉ p.payee ∧ 27 ∉ p.account ∧ 27 ∉ p.counterAccount ∧ p.ccy ≠ [] ∧ ∀ c ∈ p.ccy, prt c = true ∧ c ≠ 27 ∧ c ≠ 9

/-- The rows of the table. -/
def registerTable (prt letter : Nat → Bool) (day : Int → Str) (number : Str → Rat → Str) (withAcct withBal : Bool) (rep : List RegEntry) :
    List (List ColText) :=
  registerTitles withAcct withBal :: rep.map (registerCols prt letter day number withAcct withBal)

/-- The lines seen are the rows, each column on its width: the width of its widest text, except that the columns of names are narrower if the
line would not fit the screen, which it then fills. -/
def TableSeen (termWidth : Int) (may : List Bool) (rows : List (List ColText)) (lines : List (List Nat)) : Prop :=
  ∃ ws ws', Widest rows ws ∧ Narrowed ws ws' may ∧
    ((lineWidth ws' : Int) = if 0 < termWidth ∧ termWidth < lineWidth ws then termWidth else (lineWidth ws : Int)) ∧
    lines = rows.map fun r => spaced (List.zipWith ColText.on ws' r) ++ [10]

/-- There is room on the screen (`termWidth ≤ 0`: no limit) if the marked columns are cut. -/
def Room (termWidth : Int) (may : List Bool) (rows : List (List ColText)) : Prop :=
  ∀ ws, Widest rows ws → 0 < termWidth → lineWidth ws - termWidth ≤ (markedWidth ws may : Int)

end Verif.Spec
