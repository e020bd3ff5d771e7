import Verif.Model.ReportCmd
import Verif.Model.RegText
import Verif.Model.Csv
import Verif.Model.JsonOut

/-! # The register command, with its output: /repo/cmd/register/register.go, /repo/cmd/register/show_register.go -/

namespace Verif

/-- show_register.go:37-46: by type, with the decimals of the book `b`.  (What is printed before a panic is left out.) -/
def registerPrint (l : Lang) (x : PrintEnv) (sc : ScreenEnv) (typ : Str) (b : Book) (withAcct : Bool) (rows : List (Option RegEntry)) : CmdEnd Exported :=
  if typ = b!"Text" then .orCrash ((registerText sc.prt sc.width (bookFmt l x b) sc.colour withAcct true rows).map fun ls => .text ls.flatten)
  else if typ = b!"JSON" then .ok (.json (registerJSON x.tm x.fl rows))
  else if typ = b!"CSV" then .orCrash ((registerCSV x.space x.fl x.rd rows).map .text)
  else .err

/-- register.go:107-118: one section per account, in order, each after a line with the account. -/
def registerFullSections (e : OpEnv) (a : AppConf) (r : RegisterConf) (l : Lang) (x : PrintEnv) (sc : ScreenEnv) (typ : Str) (b : Book) :
    List Str → CmdEnd (List Exported)
  | [] => .ok []
  | acct :: accts =>
    let re := [94] ++ acct ++ [36]                  -- fmt.Sprintf("^%s$", acct)
    if e.valid re then
      (registerRows e a r (e.mat re) b).bind fun rows => (registerPrint l x sc typ b false rows).bind fun out =>
        (registerFullSections e a r l x sc typ b accts).bind fun rest => .ok (.text ([10] ++ ansi sc.colour ansiBlueUL acct ++ [10]) :: out :: rest)
    else .err

/-- register.go:66-122 `run`: what is printed, piece by piece.  The decimals are those of the book after the operations. -/
def registerFull (le : Env) (depth : Nat) (e : OpEnv) (fuel : Nat) (a : AppConf) (r : RegisterConf) (l : Lang) (x : PrintEnv) (sc : ScreenEnv)
    (typ : Str) (args : List Str) (arg : Str) : CmdEnd (List Exported) :=
  (((loadCmd le depth e.srt a).bind (convertCmd a r.convert)).bind
      (fun b => if args = [] then .ok b else opsCmd e fuel a args b)).bind fun b =>
    if r.combined then
      if e.valid arg then
        (registerRows e a r (e.mat arg) b).bind fun rows => (registerPrint l x sc typ b true rows).bind fun out => .ok [out]
      else .err
    else if e.valid arg then registerFullSections e a r l x sc typ b (b.accounts (e.mat arg) (!a.all))
    else .crash

end Verif
