import Verif.Model.BookOp
import Verif.Model.Loader
import Verif.Model.Accum
import Verif.Model.Register

/-! # Whole commands: /repo/cmd/reports/report.go, /repo/cmd/register/register.go

From the ledger file to the transactions (rows) handed to a printer.  The printers are in
`Export`, `Text`, `Html`, `Beancount`.  Flag parsing is in `Flags`. -/

namespace Verif

/-- app.go:29-39 `App`: the settings the commands use. -/
structure AppConf where
  ledger : Str
  baseCCY : Str
  divider : Str
  all : Bool
  macros : Str → Option (List Str)

/-- How a command ends: with something to show, with an error message, with a panic, never, or by
`log.Fatal` (a file cannot be opened). -/
inductive CmdEnd (α : Type)
  | ok (a : α)
  | err
  | crash
  | diverge
  | fatal

/-- Sequencing. -/
def CmdEnd.bind {α β : Type} (x : CmdEnd α) (k : α → CmdEnd β) : CmdEnd β :=
  match x with
  | .ok a => k a
  | .err => .err
  | .crash => .crash
  | .diverge => .diverge
  | .fatal => .fatal

/-- A step that can only panic. -/
def CmdEnd.orCrash {α : Type} : Option α → CmdEnd α
  | some a => .ok a
  | none => .crash

/-- `LoadBook` (app.go:58-66) as a step of a command. -/
def loadCmd (le : Env) (depth : Nat) (srt : List Posting → List Posting) (a : AppConf) : CmdEnd Book :=
  match loadBook srt le depth a.ledger with
  | .ok b => .ok b
  | .err => .err
  | .fatal => .fatal
  | .crash => .crash
  | .running => .diverge

/-- `BookOps` (book_op.go:85-93) as a step of a command. -/
def opsCmd (e : OpEnv) (fuel : Nat) (a : AppConf) (args : List Str) (b : Book) : CmdEnd Book :=
  match bookOps e a.macros fuel args b with
  | .ok b => .ok b
  | .err _ _ => .err
  | .panic => .crash
  | .diverge => .diverge

/-- report.go:118-121, register.go:78-81: `MapAmount` with the price of each currency in the base
currency; `none` = panic in `GetPrice`. -/
def convertBook (base : Str) (b : Book) : Option Book :=
  if b.post.all fun p => (b.prices.getPrice p.date p.ccy base).isSome then
    some (b.mapAmount fun d c => (((b.prices.getPrice d c base).map (·.1)).getD 1, base))
  else none

/-- report.go:114-122, register.go:74-82: convert if asked to. -/
def convertCmd (a : AppConf) (convert : Bool) (b : Book) : CmdEnd Book :=
  if convert then
    if a.baseCCY = [] then .err else .orCrash (convertBook a.baseCCY b)
  else .ok b

/-- report.go:13-22 `TransactionReport`, without what only concerns printing. -/
structure ReportConf where
  credit : Str
  hidden : Str
  convert : Bool
  sum : Bool
  typ : Str
  combineby : Str

/-- report.go:124-140: summarise, or just list. -/
def sumCmd (e : OpEnv) (a : AppConf) (r : ReportConf) (o : Int → Str → List Str → List Str) (b : Book) : CmdEnd (List Txn) :=
  if r.credit ≠ [] ∧ e.valid r.credit = false then .err
  else if r.sum then
    if a.baseCCY = [] then .err
    else .orCrash (b.accumulate e.srt a.baseCCY a.divider (if r.credit = [] then none else some (e.mat r.credit)) r.hidden o)
  else .ok (b.transactions e.srt)

/-- report.go:109-140: from the book after the operations to the transactions shown; `o` is the map
order inside `Accumulate`. -/
def reportTxns (e : OpEnv) (a : AppConf) (r : ReportConf) (o : Int → Str → List Str → List Str) (b : Book) : CmdEnd (List Txn) :=
  if r.typ = b!"Beancount" then .ok (b.transactions e.srt)
  else
    (convertCmd a r.convert (if r.combineby ≠ b!"skip" then b.splitBy e.srt e.today r.combineby else b)).bind
      (sumCmd e a r o)

/-- report.go:95-140 `run`, up to the printing. -/
def reportCmd (le : Env) (depth : Nat) (e : OpEnv) (fuel : Nat) (a : AppConf) (r : ReportConf)
    (o : Int → Str → List Str → List Str) (args : List Str) : CmdEnd (List Txn) :=
  ((loadCmd le depth e.srt a).bind (opsCmd e fuel a args)).bind (reportTxns e a r o)

/-- register.go:14-29 `RegisterReport`, without what only concerns printing. -/
structure RegisterConf where
  beginDate : Str
  endDate : Str
  count : Int
  asc : Bool
  combined : Bool
  convert : Bool
  split : Bool

/-- register.go:102-104, 113-115: extract, restrict, order.  (`none` rows are nil pointers.) -/
def registerRows (e : OpEnv) (a : AppConf) (r : RegisterConf) (mat : Str → Bool) (b : Book) : CmdEnd (List (Option RegEntry)) :=
  .orCrash (((b.extractRegister e.srt a.baseCCY mat r.split).bind
    (filterByDateStr e.today r.beginDate r.endDate)).map (showRows r.count r.asc))

/-- register.go:107-118: one section per account, in order, up to the first failure. -/
def registerSections (e : OpEnv) (a : AppConf) (r : RegisterConf) (b : Book) : List Str → CmdEnd (List (Str × List (Option RegEntry)))
  | [] => .ok []
  | acct :: accts =>
    let re := [94] ++ acct ++ [36]                  -- fmt.Sprintf("^%s$", acct)
    if e.valid re then
      (registerRows e a r (e.mat re) b).bind fun rows =>
        (registerSections e a r b accts).bind fun rest => .ok ((acct, rows) :: rest)
    else .err

/-- register.go:66-122 `run`, up to the printing: the sections, each under its account (under no
name if combined).  `Accounts` panics on an invalid expression (book.go:200).  The book passed to
`Accounts` has not been compacted since the conversion. -/
def registerCmd (le : Env) (depth : Nat) (e : OpEnv) (fuel : Nat) (a : AppConf) (r : RegisterConf) (args : List Str) (arg : Str) :
    CmdEnd (List (Str × List (Option RegEntry))) :=
  (((loadCmd le depth e.srt a).bind (convertCmd a r.convert)).bind
      (fun b => if args = [] then .ok b else opsCmd e fuel a args b)).bind fun b =>
    if r.combined then
      if e.valid arg then (registerRows e a r (e.mat arg) b).bind fun rows => .ok [([], rows)] else .err
    else if e.valid arg then registerSections e a r b (b.accounts (e.mat arg) (!a.all))
    else .crash

end Verif
