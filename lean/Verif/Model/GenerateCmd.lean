import Verif.Model.ImportCmd
import Verif.Model.Generate

/-! # The generate command: /repo/cmd/generate/generate.go, starlark.go -/

namespace Verif

/-- What a generating script does: the messages it prints, its steps, and whether it then ends without an error. -/
structure GenRun where
  msgs : List Str
  acts : List GenAct
  ok : Bool

/-- generate.go:16-45 `run`.  The script is a function of the ledger it is given.  (A script that stops with an error has done its steps up to
there.  The printer has the decimals of the ledger as the script left it, generate.go:36.) -/
def generateCmd (le : Env) (depth : Nat) (e : OpEnv) (setString : Str → Option Rat) (a : AppConf) (l : Lang) (x : PrintEnv) (dedup : Bool)
    (script : Book → GenRun) : Printed :=
  match loadCmd le depth e.srt a with
  | .ok main =>
    match genActs e setString ⟨main, Builder.new⟩ (script main).acts with
    | .panic => ⟨printMsgs (script main).msgs, .crash⟩
    | .err => ⟨printMsgs (script main).msgs, .err⟩
    | .ok s =>
      if (script main).ok then
        match s.bb.build e.srt with
        | none => ⟨printMsgs (script main).msgs, .crash⟩
        | some b =>
          match showTxns (bookFmt l x s.main) ((if dedup then b.removeDuplicatesOf e.srt s.main else b).transactions e.srt) with
          | some text => ⟨printMsgs (script main).msgs ++ text, .ok ()⟩
          | none => ⟨printMsgs (script main).msgs, .crash⟩
      else ⟨printMsgs (script main).msgs, .err⟩
  | .err => ⟨[], .err⟩
  | .crash => ⟨[], .crash⟩
  | .diverge => ⟨[], .diverge⟩
  | .fatal => ⟨[], .fatal⟩

end Verif
