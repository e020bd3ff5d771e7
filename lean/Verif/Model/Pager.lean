import Verif.Model.ListCmds
import Verif.Model.ExportCmd

/-! # The pager: /repo/cmd/app/app.go:75-122, 153-160, /repo/cmd/app/print.go:181-187

Not modelled: a reader who leaves the pager early (the remaining writes fail and are ignored). -/

namespace Verif

/-- print.go:19-37 and app.go:83-111: where the output goes.  `starts k`: whether at the `k`-th attempt `less` is found, its pipe made and it is
started. -/
structure Term where
  isStdout : Bool
  width : Int
  height : Int
  starts : Nat → Bool

/-- Something printed with a `BookPrinter`: text (print.go:75-82) or a table of so many rows (print.go:181). -/
inductive Out
  | text (s : Str)
  | table (rows : Nat) (s : Str)

/-- What was written to the standard output directly and, once it runs, to the pager; the number of attempts to start it. -/
structure Screen where
  direct : Str
  pager : Option Str
  tried : Nat

/-- print.go:75-82, 233-245: `Write` to the current writer. -/
def Screen.write (s : Screen) (x : Str) : Screen :=
  match s.pager with
  | none => { s with direct := s.direct ++ x }
  | some y => { s with pager := some (y ++ x) }

/-- app.go:77-122 `initialiseLess`. -/
def Screen.less (t : Term) (s : Screen) : Screen :=
  if s.pager.isSome then s
  else if !t.isStdout || decide (t.width = -1) then s
  else if t.starts s.tried then { s with pager := some [], tried := s.tried + 1 }
  else { s with tried := s.tried + 1 }

/-- print.go:75-82; print.go:181-187 then 233-245. -/
def Screen.print (t : Term) (s : Screen) : Out → Screen
  | .text x => s.write x
  | .table n x => (if t.height < n then s.less t else s).write x

/-- All that a printer prints. -/
def Screen.prints (t : Term) (os : List Out) : Screen := os.foldl (Screen.print t) ⟨[], none, 0⟩

/-- How the program ends: what was printed, how the command ended, whether the pager was closed and waited for. -/
structure Ended where
  screen : Screen
  fin : CmdEnd Unit
  waited : Bool

/-- app.go:153-160 `PersistentPostRun`, which cobra calls only if the command returned no error; main.go:10-13. -/
def programEnd (t : Term) (os : List Out) (fin : CmdEnd Unit) : Ended :=
  ⟨Screen.prints t os, fin,
    match fin with
    | .ok _ => (Screen.prints t os).pager.isSome
    | _ => false⟩

/-- What a command prints, and how it ends. -/
structure Prints where
  outs : List Out
  fin : CmdEnd Unit

/-- show_register.go:46-109 `ShowText` (the rows are made before anything is printed; `PrintColumns` starts the pager before it can panic). -/
def registerTextOut (prt : Nat → Bool) (termWidth : Int) (f : Fmt) (colour withAcct withBal : Bool) (report : List (Option RegEntry)) : Prints :=
  match report.mapM fun (e : Option RegEntry) => e.bind (registerRow f colour withAcct withBal) with
  | none => ⟨[], .crash⟩
  | some rows =>
    match printColumns prt termWidth ((registerHead colour withAcct withBal :: rows).map some) (registerShrink withAcct withBal) with
    | none => ⟨[.table (rows.length + 1) []], .crash⟩
    | some lines => ⟨[.table (rows.length + 1) lines.flatten], .ok ()⟩

/-- One thing after the other, up to the first failure. -/
def Prints.andThen (p q : Prints) : Prints :=
  match p.fin with
  | .ok _ => ⟨p.outs ++ q.outs, q.fin⟩
  | x => ⟨p.outs, x⟩

/-- register.go:102-104, 113-118 with `--type Text`. -/
def registerRowsOut (prt : Nat → Bool) (termWidth : Int) (f : Fmt) (colour withAcct : Bool) (e : OpEnv) (a : AppConf) (r : RegisterConf) (mat : Str → Bool)
    (b : Book) : Prints :=
  match registerRows e a r mat b with
  | .ok rows => registerTextOut prt termWidth f colour withAcct true rows
  | .err => ⟨[], .err⟩
  | .crash => ⟨[], .crash⟩
  | .diverge => ⟨[], .diverge⟩
  | .fatal => ⟨[], .fatal⟩

/-- register.go:107-118: the heading is printed first, then the expression is compiled. -/
def registerSectionsOut (prt : Nat → Bool) (termWidth : Int) (f : Fmt) (colour : Bool) (e : OpEnv) (a : AppConf) (r : RegisterConf) (b : Book) :
    List Str → Prints
  | [] => ⟨[], .ok ()⟩
  | acct :: accts =>
    let re := [94] ++ acct ++ [36]
    Prints.andThen ⟨[.text ([10] ++ ansi colour ansiBlueUL acct ++ [10])], .ok ()⟩
      (if e.valid re then
        (registerRowsOut prt termWidth f colour false e a r (e.mat re) b).andThen (registerSectionsOut prt termWidth f colour e a r b accts)
       else ⟨[], .err⟩)

/-- register.go:66-122 `run` with `--type Text`. -/
def registerOut (le : Env) (depth : Nat) (e : OpEnv) (fuel : Nat) (a : AppConf) (r : RegisterConf) (lang : Lang) (x : PrintEnv) (prt : Nat → Bool)
    (termWidth : Int) (colour : Bool) (args : List Str) (arg : Str) : Prints :=
  match ((loadCmd le depth e.srt a).bind (convertCmd a r.convert)).bind (fun b => if args = [] then .ok b else opsCmd e fuel a args b) with
  | .ok b =>
    if r.combined then
      if e.valid arg then registerRowsOut prt termWidth (bookFmt lang x b) colour true e a r (e.mat arg) b else ⟨[], .err⟩
    else if e.valid arg then registerSectionsOut prt termWidth (bookFmt lang x b) colour e a r b (b.accounts (e.mat arg) (!a.all))
    else ⟨[], .crash⟩
  | .err => ⟨[], .err⟩
  | .crash => ⟨[], .crash⟩
  | .diverge => ⟨[], .diverge⟩
  | .fatal => ⟨[], .fatal⟩

end Verif
