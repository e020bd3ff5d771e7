import Verif.Model.Ops

/-! # Importing: /repo/cmd/importer/import.go, /repo/script/starlark.go -/

namespace Verif

/-- import.go:92-98: deduplicate against each previous book in turn. -/
def dedupAll (srt : List Posting → List Posting) (b : Book) : List Book → Book
  | [] => b
  | p :: ps => dedupAll srt (b.removeDuplicatesOf srt p) ps

/-- How an import run reclassifies (import.go:101-110): map orders, distance and account. -/
structure Reclass where
  o1 : List (Str × Nat) → List (Str × Nat)
  o2 : List (Str × Str) → List (Str × Str)
  dist : Str → Str → Rat
  acct : Str

/-- import.go:91-110: one imported book, from `processData` to the report. -/
def importOne (srt : List Posting → List Posting) (dedup : Bool) (rc : Option Reclass) (main : Book) (prev : List Book) (b : Book) : Book :=
  let b1 := if dedup then b.removeDuplicatesOf srt main else b
  let b2 := dedupAll srt b1 prev
  match rc with
  | some r => b2.reclassify srt r.o1 r.o2 r.dist r.acct main
  | none => b2

/-- import.go:62-122: the loop over the files; `prev` are the books so far, the result are
the transactions reported for each file.  (Reading `main` and the previous books compacts
them, which changes nothing further: C07.) -/
def importRun (srt : List Posting → List Posting) (dedup : Bool) (rc : Option Reclass) (main : Book) : List Book → List Book → List (List Txn)
  | _, [] => []
  | prev, b :: bs =>
    let b' := importOne srt dedup rc main prev b
    b'.transactions srt :: importRun srt dedup rc main (prev ++ [b']) bs

/-- script/convert.go:123-144 `GetBigRat`: None, an unusable value (an error), or a number. -/
inductive AmtArg
  | none | bad | num (r : Rat)

/-- The arguments of the script function `add` after unpacking (starlark.go:33-62); the date is
already a `Date` (0 = invalid). -/
structure AddArgs where
  date : Int
  desc : Str
  amt : AmtArg
  ccy : Str
  denom : Int
  account : Str
  amt2 : AmtArg
  ccy2 : Str
  denom2 : Int
  account2 : Str
  caccount : Str
  note : Str
  lnote : Str

/-- The outcome of a call: value, script error (with the builder as left behind) or crash. -/
inductive AddRes
  | ok (b : Builder) | err (b : Builder) | panic

/-- starlark.go:96-118: the second amount. -/
def addSecond (b : Builder) (a : AddArgs) : AddRes :=
  match a.amt2 with
  | .bad => .err b
  | .none => if a.account2 = [] then .ok b else .panic      -- nil pointer
  | .num r =>
    match newRat 1 a.denom2 with
    | Option.none => .panic
    | some f => .ok ((b.addPosting a.account2 a.ccy2 (r * f) []).addPosting a.caccount a.ccy2 (-(r * f)) [])

/-- starlark.go:30-122 `add`. -/
def addCall (b : Builder) (a : AddArgs) : AddRes :=
  if a.date = 0 then .err b
  else
    match a.amt with
    | .bad => .err b
    | .none => .panic                                        -- nil pointer
    | .num r =>
      match newRat 1 a.denom with
      | Option.none => .panic
      | some f =>
        match b.newTransaction a.date a.desc a.note with
        | Option.none => .panic
        | some b =>
          addSecond ((b.addPosting a.account a.ccy (r * f) a.lnote).addPosting a.caccount a.ccy (-(r * f)) []) a

/-- A script: calls until the first error or crash. -/
def runAdds (b : Builder) : List AddArgs → AddRes
  | [] => .ok b
  | a :: as =>
    match addCall b a with
    | .ok b => runAdds b as
    | .err b => .err b
    | .panic => .panic

end Verif
