import Verif.Model.Script
import Verif.Model.BookOp

/-! # Generating: /repo/cmd/generate/generate.go, starlark.go, /repo/script/book_op.go, /repo/script/starlark.go -/

namespace Verif

/-- The arguments of `add` as the script gives them, optional ones filled in with the defaults (starlark.go:33-62). -/
structure ScriptAdd where
  date : Str
  desc : Str
  amt : SVal
  ccy : Str
  denom : Int
  account : Str
  amt2 : SVal
  ccy2 : Str
  denom2 : Int
  account2 : Str
  caccount : Str
  note : Str
  lnote : Str

/-- starlark.go:65-74, 97: date and amounts converted. -/
def ScriptAdd.args (setString : Str → Option Rat) (today : Int) (a : ScriptAdd) : AddArgs :=
  ⟨dateFromString today a.date, a.desc, getBigRat setString a.amt, a.ccy, a.denom, a.account, getBigRat setString a.amt2, a.ccy2, a.denom2,
    a.account2, a.caccount, a.note, a.lnote⟩

/-- What a generating script can do to the ledger (`data`, script/book_op.go) and to the builder. -/
inductive GenAct
  | read                                    -- data.transactions
  | since (date : Str)
  | asof (date : Str)
  | map (from_ to_ alt : Str)
  | add (a : ScriptAdd)

/-- The ledger and the builder while a script runs. -/
structure GenState where
  main : Book
  bb : Builder

/-- How a script (or one step of it) ends. -/
inductive GenRes
  | ok (s : GenState) | err | panic

/-- One step: script/book_op.go:9-71, 80-83; script/starlark.go:30-122.  Modifies the ledger in place. -/
def genAct (e : OpEnv) (setString : Str → Option Rat) (s : GenState) : GenAct → GenRes
  | .read => .ok { s with main := s.main.compact e.srt }
  | .since d =>
    if dateFromString e.today d = 0 then .err else .ok { s with main := s.main.filterByDateSince (dateFromString e.today d) }
  | .asof d =>
    if dateFromString e.today d = 0 then .err else .ok { s with main := s.main.filterByDateAsof (dateFromString e.today d) }
  | .map f t a => if e.valid f then .ok { s with main := s.main.regexAccounts e.srt (e.mat f) (e.rep f t) t a } else .panic
  | .add a =>
    match addCall s.bb (a.args setString e.today) with
    | .ok bb => .ok { s with bb := bb }
    | .err _ => .err
    | .panic => .panic

/-- A script: its steps, until the first error or crash. -/
def genActs (e : OpEnv) (setString : Str → Option Rat) : GenState → List GenAct → GenRes
  | s, [] => .ok s
  | s, a :: as =>
    match genAct e setString s a with
    | .ok s' => genActs e setString s' as
    | r => r

/-- What the command shows. -/
inductive GenOut
  | shown (ts : List Txn) | err | panic

/-- generate.go:18-46 `run` and starlark.go:9-26 `generate`, after loading `main`. -/
def generate (e : OpEnv) (setString : Str → Option Rat) (dedup : Bool) (main : Book) (script : List GenAct) : GenOut :=
  match genActs e setString ⟨main, Builder.new⟩ script with
  | .err => .err
  | .panic => .panic
  | .ok s =>
    match s.bb.build e.srt with
    | none => .panic
    | some b =>
      let b' := if dedup then b.removeDuplicatesOf e.srt s.main else b
      .shown (b'.transactions e.srt)

end Verif
