import Verif.Model.ExportCmd
import Verif.Model.ReportText
import Verif.Model.Html

/-! # The report command, with its output: /repo/cmd/reports/report.go, /repo/cmd/utils/cli_file_or_str.go -/

namespace Verif

/-- cli_file_or_str.go:9-24 `GetFileOrStr`; `read` is `ioutil.ReadFile`, `none` = error. -/
def fileOrStr (read : Str → Option Str) (s : Str) : Option Str :=
  if (b!"file:").isPrefixOf s then read (s.drop 5) else some s

/-- What reports take from the terminal and the disk; `sheet` is the text of `styleSheet` (html.go:119-174). -/
structure ScreenEnv where
  prt : Nat → Bool
  width : Int
  colour : Bool
  read : Str → Option Str
  sheet : Str

/-- html.go:38-46: the style sheet. -/
def styleOf (sc : ScreenEnv) (css : Str) : Option Str := if css = [] then some sc.sheet else fileOrStr sc.read css

/-- report.go:142-155: by type, with the decimals of the book.  (What is printed of a report before a panic is left out.) -/
def reportPrint (l : Lang) (x : PrintEnv) (sc : ScreenEnv) (typ css : Str) (b : Book) (ts : List Txn) : CmdEnd Exported :=
  if typ = b!"Text" then
    match reportText sc.prt sc.width (bookFmt l x b) sc.colour ts with
    | .ok lines => .ok (.text lines.flatten)
    | .failed => .err
    | .panic => .crash
  else if typ = b!"Json" then .orCrash ((exportJSON x.tm x.fl ts).map .json)
  else if typ = b!"HTML" then
    match styleOf sc css with
    | none => .err
    | some s => .orCrash ((showHTML (bookFmt l x b) s ts).map fun l => .text (render l))
  else if typ = b!"Beancount" then .orCrash ((reportBeancount (bookFmt l x b) x.title x.up x.accts ts).map .text)
  else .orCrash ((showTxns (bookFmt l x b) ts).map .text)

/-- report.go:109-155: from the book after the operations to the output (`reportTxns` with the book for the printer). -/
def reportShow (e : OpEnv) (a : AppConf) (r : ReportConf) (o : Int → Str → List Str → List Str) (l : Lang) (x : PrintEnv) (sc : ScreenEnv) (css : Str)
    (b : Book) : CmdEnd Exported :=
  if r.typ = b!"Beancount" then reportPrint l x sc r.typ css b (b.transactions e.srt)
  else
    (convertCmd a r.convert (if r.combineby ≠ b!"skip" then b.splitBy e.srt e.today r.combineby else b)).bind fun b =>
      (sumCmd e a r o b).bind (reportPrint l x sc r.typ css b)

/-- report.go:95-155 `run`. -/
def reportFull (le : Env) (depth : Nat) (e : OpEnv) (fuel : Nat) (a : AppConf) (r : ReportConf) (o : Int → Str → List Str → List Str) (l : Lang)
    (x : PrintEnv) (sc : ScreenEnv) (css : Str) (args : List Str) : CmdEnd Exported :=
  ((loadCmd le depth e.srt a).bind (opsCmd e fuel a args)).bind (reportShow e a r o l x sc css)

end Verif
