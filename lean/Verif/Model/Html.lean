import Verif.Model.Export

/-! # HTML reports: /repo/cmd/reports/html.go

The document is a list of pieces: text, `<div class="…">` and `</div>`. -/

namespace Verif

inductive Piece
  | text (s : Str)
  | opn (cls : Str)
  | cls
deriving DecidableEq

/-- The bytes written. -/
def Piece.bytes : Piece → Str
  | .text s => s
  | .opn c => b!"<div class=\"" ++ c ++ b!"\">"
  | .cls => b!"</div>"

def render (l : List Piece) : Str := l.flatMap Piece.bytes

/-- html.go:10-34 `indents`, `indentedString` -/
def indentStr (c : Int) : Str :=
  List.replicate (if c ≥ 13 then 26 else if c < 0 then 2 else 2 * (c.toNat + 1)) 32

/-- html.go:75-78: open one box for each level from `last` up. -/
def openBoxes : Nat → Int → List Piece
  | 0, _ => []
  | n + 1, i => .text (indentStr i ++ b!"  ") :: .opn b!"indentbox" :: .text [10] :: openBoxes n (i + 1)

/-- html.go:79-82: close one box for each level from `i` down. -/
def closeBoxes : Nat → Int → List Piece
  | 0, _ => []
  | n + 1, i => .text (indentStr i ++ b!"  ") :: .cls :: .text [10] :: closeBoxes n (i - 1)

/-- html.go:71-98: one posting after one at level `last`; `none` = panic (empty currency). -/
def htmlPost (f : Fmt) (last : Int) (p : Posting) : Option (List Piece) :=
  (f.symbol p.ccy).map fun sym =>
    let this := p.acctlevel
    let ind := indentStr this
    let diff := if this > last then b!"moreindent" else if this < last then b!"lessindent" else b!"sameindent"
    (if this > last then openBoxes (this - last).toNat last
      else if this < last then closeBoxes (last - this).toNat (last - 1) else []) ++
    [.text (ind ++ b!"  "), .opn (b!"post indent" ++ intDec this ++ 32 :: diff), .text [10],
     .text (ind ++ b!"    "), .opn b!"account", .text p.acctterm, .cls, .text [10],
     .text (ind ++ b!"    "), .opn (b!"amount " ++ (if p.val ≥ 0 then b!"pos" else b!"neg")),
     .text (sym ++ f.number p.ccy p.val), .cls, .text [10],
     .text (ind ++ b!"  "), .cls, .text [10]]

/-- html.go:69-100: the postings of a transaction. -/
def htmlPosts (f : Fmt) : Int → List Posting → Option (List Piece)
  | _, [] => some []
  | last, p :: ps =>
    (htmlPost f last p).bind fun a => (htmlPosts f p.acctlevel ps).map fun b => a ++ b

/-- html.go:52-105: one transaction; `none` = panic. -/
def htmlTxn (f : Fmt) (t : Txn) : Option (List Piece) :=
  match t with
  | [] => none
  | p :: _ =>
    (htmlPosts f 0 t).map fun posts =>
      [.opn b!"report", .text [10], .opn b!"header", .text [10],
       .text b!"  ", .opn b!"date", .text (dateString p.date), .cls, .text [10]] ++
      (if p.payee = [] then [] else [.text b!"  ", .opn b!"payee", .text p.payee, .cls, .text [10]]) ++
      [.cls, .text [10], .opn b!"posts", .text [10]] ++ posts ++
      [.cls, .text [10], .cls, .text [10]]

/-- html.go:51-106: all transactions. -/
def htmlTxns (f : Fmt) : List Txn → Option (List Piece)
  | [] => some []
  | t :: ts => (htmlTxn f t).bind fun a => (htmlTxns f ts).map fun b => a ++ b

/-- html.go:36-113 `ShowHTMLTransactions`; `css` is the style sheet text. -/
def showHTML (f : Fmt) (css : Str) (ts : List Txn) : Option (List Piece) :=
  (htmlTxns f ts).map fun body =>
    [.text (b!"<html><head><style>\n" ++ css ++ b!"\n</style></head><body>\n"), .opn b!"reports", .text [10]] ++
    body ++ [.cls, .text [10], .text b!"</body></html>\n"]

end Verif
