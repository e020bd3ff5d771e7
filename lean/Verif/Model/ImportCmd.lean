import Verif.Model.ExportCmd
import Verif.Model.Import

/-! # The import command: /repo/cmd/importer/import.go -/

namespace Verif

/-- What one import file comes to: whether it could be opened and decoded (import.go:62-75), what the script prints, the `add`
calls it makes, and whether it then ends without an error. -/
structure Source where
  readable : Bool
  msgs : List Str
  adds : List AddArgs
  ok : Bool

/-- starlark.go:13-15 (script) `Print`: the script's messages, on the same output as the transactions. -/
def printMsgs (ms : List Str) : Str := ms.flatMap fun m => b!"; " ++ m ++ [10]

/-- importer/starlark.go:9-30 `processData`.  (A script that stops with an error has made its calls up to there.) -/
def processData (srt : List Posting → List Posting) (s : Source) : CmdEnd Book :=
  match runAdds Builder.new s.adds with
  | .panic => .crash
  | .err _ => .err
  | .ok b => if s.ok then .orCrash (b.build srt) else .err

/-- What the command prints, and how it ends. -/
structure Printed where
  text : Str
  fin : CmdEnd Unit

/-- import.go:55-115: the loop over the files; `f` prints with the decimals of the main book (import.go:106).  (What is printed of
the transactions of a file before a panic while printing them is left out.) -/
def importLoop (srt : List Posting → List Posting) (dedup : Bool) (rc : Option Reclass) (f : Fmt) (main : Book) : List Book → List Source → Printed
  | _, [] => ⟨[], .ok ()⟩
  | prev, s :: ss =>
    if s.readable then
      match processData srt s with
      | .ok b =>
        let b' := importOne srt dedup rc main prev b
        match showTxns f (b'.transactions srt) with
        | some text =>
          let r := importLoop srt dedup rc f main (prev ++ [b']) ss
          ⟨printMsgs s.msgs ++ text ++ r.text, r.fin⟩
        | none => ⟨printMsgs s.msgs, .crash⟩
      | .err => ⟨printMsgs s.msgs, .err⟩
      | .crash => ⟨printMsgs s.msgs, .crash⟩
      | .diverge => ⟨printMsgs s.msgs, .diverge⟩
      | .fatal => ⟨printMsgs s.msgs, .fatal⟩
    else ⟨[], .err⟩

/-- import.go:36-118 `run`. -/
def importCmd (le : Env) (depth : Nat) (srt : List Posting → List Posting) (a : AppConf) (l : Lang) (x : PrintEnv) (dedup : Bool)
    (rc : Option Reclass) (ss : List Source) : Printed :=
  match loadCmd le depth srt a with
  | .ok main => importLoop srt dedup rc (bookFmt l x main) main [] ss
  | .err => ⟨[], .err⟩
  | .crash => ⟨[], .crash⟩
  | .diverge => ⟨[], .diverge⟩
  | .fatal => ⟨[], .fatal⟩

end Verif
