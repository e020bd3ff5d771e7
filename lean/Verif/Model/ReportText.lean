import Verif.Model.Text
import Verif.Model.RegText

/-! # The text report with its formatting: /repo/cmd/reports/text.go, /repo/cmd/app/print.go -/

namespace Verif

/-- text.go:22-25 (headings), text.go:38-45 (names), text.go:75 with print.go:136-152 (amounts, for currencies that are not empty: `showText`
crashes on the others). -/
def reportFmt (f : Fmt) (colour : Bool) : TextFmt where
  title := .str (ansi colour ansiUL b!"Account")
  header := fun d => .right (ansi colour ansiUL (dateString d))
  topName := fun s => .str (ansi colour ansiBlueUL s)
  subName := fun n s => .str (List.replicate (2 * n) 32 ++ s)
  money := fun c v => (columnMoney f colour c v).getD (.str [])

/-- text.go:10-81 `ShowTransactions`. -/
def reportText (prt : Nat → Bool) (termWidth : Int) (f : Fmt) (colour : Bool) (ts : List Txn) : TextRes (List (List Nat)) :=
  showText prt termWidth (reportFmt f colour) ts

end Verif
