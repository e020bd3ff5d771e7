import Verif.Spec.MainImport
import Verif.Spec.Generate
import Verif.Spec.ImportCmd

/-! # Specification: what the scripts of import and generate are given, and what their `add` calls book -/

namespace Verif.Spec

/-- What reading a file gives: the file of the disk; for `-` the standard input, which can be read once. -/
def contents (disk : Str → Option Str) (input : Str) (before : List Str) (f : Str) : Option Str :=
  if f = b!"-" then some (if b!"-" ∈ before then [] else input) else disk f

/-- The amount a value given to `add` stands for (a float that is no number counts as 0). -/
def addAmount (ss : Str → Option Rat) : SVal → Option Rat
  | .float .nan => some 0
  | .float (.inf _) => some 0
  | v => amountOf ss v

/-- The two bookings of an amount: on the account, and the opposite on the counter-account. -/
def twoBookings (acct cacct ccy note : Str) (amount : Option Rat) (denom : Int) : List Call :=
  match amount with
  | some x => [.addPosting acct ccy (x / denom) note, .addPosting cacct ccy (-(x / denom)) []]
  | none => []

/-- What `add` books: a transaction of the date, the payee and the note; the amount, divided by the denominator, on the account, with its note;
the second amount, if any, likewise on the second account; each against the counter-account.  What is left out of the call is the account, the
currency (also the second) and the counter-account of the command, undivided, without a second account and notes. -/
def addBookings (ss : Str → Option Rat) (today : Int) (acct ccy cacct : Str) (r : RawAdd) : List Call :=
  .newTransaction (dateFromString today r.date) r.desc (r.note.getD []) ::
    (twoBookings (r.account.getD acct) (r.caccount.getD cacct) (r.ccy.getD ccy) (r.lnote.getD []) (addAmount ss r.amt) (r.denom.getD 1) ++
      twoBookings (r.account2.getD []) (r.caccount.getD cacct) (r.ccy2.getD ccy) [] (addAmount ss (r.amt2.getD .none)) (r.denom2.getD 1))

/-- A call of `add` that works: a date, an amount, and either a second amount or no second account; no division by 0. -/
def AddWorks (ss : Str → Option Rat) (today : Int) (r : RawAdd) : Prop :=
  dateFromString today r.date ≠ 0 ∧ (∃ x, addAmount ss r.amt = some x) ∧ r.denom ≠ some 0 ∧
    ((r.amt2.getD .none = .none ∧ r.account2.getD [] = []) ∨ ((∃ x, addAmount ss (r.amt2.getD .none) = some x) ∧ r.denom2 ≠ some 0))

/-- The import of a file comes so far that its script ends well: the file (read after those before it) can be read and decoded as `v`; the code is
found; the script, given `v` and the name of the file, prints the messages `ms` and books `cs`. -/
def FileBooks (disk : Str → Option Str) (input : Str) (im : ImpWorld) (today : Int) (d : ImpDef) (rd : Str → ReadRes SVal) (before : List Str) (f : Str)
    (ms : List Str) (cs : List Call) : Prop :=
  ∃ text v code, contents disk input before f = some text ∧ rd text = .ok v ∧ fileOrStr im.codeFile d.code = some code ∧
    (im.exec code v f).ok = true ∧ (∀ r ∈ (im.exec code v f).adds, AddWorks im.setString today r) ∧ ms = (im.exec code v f).msgs ∧
    cs = (im.exec code v f).adds.flatMap (addBookings im.setString today d.acct d.ccy d.cacct)

/-- The files one after another: what each prints and books. -/
inductive FilesBook (disk : Str → Option Str) (input : Str) (im : ImpWorld) (today : Int) (d : ImpDef) (rd : Str → ReadRes SVal) :
    List Str → List Str → List (List Str × List Call) → Prop
  | nil (before : List Str) : FilesBook disk input im today d rd before [] []
  | cons (before : List Str) (f : Str) (fs : List Str) (ms : List Str) (cs : List Call) (l : List (List Str × List Call)) :
    FileBooks disk input im today d rd before f ms cs → FilesBook disk input im today d rd (before ++ [f]) fs l →
    FilesBook disk input im today d rd before (f :: fs) ((ms, cs) :: l)

/-- A message as it is shown. -/
def msgLine (m : Str) : Str := b!"; " ++ m ++ [10]

/-- For each file its messages, then its transactions. -/
def importText : List (List Str × List Call) → List Str → Str
  | (ms, _) :: l, t :: ts => ms.flatMap msgLine ++ t ++ importText l ts
  | _, _ => []

/-- The `add` calls of a generating script. -/
def addsOf (acts : List RawAct) : List RawAdd :=
  acts.filterMap fun
    | .add r => some r
    | _ => none

/-- What a generating script makes of the ledger: `since`, `asof` and `map` are the operations of these names (with the date written, and the three
texts); reading the transactions brings postings together, as every report does; `add` does not change it. -/
inductive LedgerAfter (e : OpEnv) : List RawAct → Book → Book → Prop
  | nil (b : Book) : LedgerAfter e [] b b
  | read (acts : List RawAct) (b c : Book) : LedgerAfter e acts (b.compact e.srt) c → LedgerAfter e (.read :: acts) b c
  | since (t : Str) (acts : List RawAct) (b b1 c : Book) : dateFromString e.today t ≠ 0 → Prim.apply e (.since (dateFromString e.today t)) b = some b1 →
      LedgerAfter e acts b1 c → LedgerAfter e (.since t :: acts) b c
  | asof (t : Str) (acts : List RawAct) (b b1 c : Book) : dateFromString e.today t ≠ 0 → Prim.apply e (.asof (dateFromString e.today t)) b = some b1 →
      LedgerAfter e acts b1 c → LedgerAfter e (.asof t :: acts) b c
  | map (s r alt : Str) (acts : List RawAct) (b b1 c : Book) : Prim.apply e (.map s r alt) b = some b1 → LedgerAfter e acts b1 c →
      LedgerAfter e (.map s r alt :: acts) b c
  | add (r : RawAdd) (acts : List RawAct) (b c : Book) : LedgerAfter e acts b c → LedgerAfter e (.add r :: acts) b c

end Verif.Spec
