import Verif.Model.Heap
import Verif.Model.Script

/-! # The book as a script sees it: /repo/script/book.go, /repo/script/book_op.go -/

namespace Verif

/-- script/book.go:11-36: the attributes of a posting.  `fl` is `big.Rat.Float64` (for numbers in the range of `float64`); `none` = no
such attribute. -/
def postingAttr (fl : Rat → Rat) (p : Posting) (name : Str) : Option SVal :=
  if name = b!"date" then some (.str (dateString p.date))
  else if name = b!"payee" then some (.str p.payee)
  else if name = b!"account" then some (.str p.acct)
  else if name = b!"transaction_note" then some (.str p.tnote)
  else if name = b!"amount" then some (.float (.fin (fl p.val)))
  else if name = b!"ccy" then some (.str p.ccy)
  else if name = b!"posting_note" then some (.str p.note)
  else if name = b!"balance" then some (.float (.fin (fl p.bal)))
  else none

/-- What asking for an attribute of a transaction gives: a value, no such attribute, or a crash (`t[0]` of no postings). -/
inductive AttrRes
  | val (v : SVal) | missing | panic
  deriving Inhabited

/-- script/book.go:84-96 and book/transaction.go:11-21: the attributes of a transaction. -/
def txnAttr (t : Txn) (name : Str) : AttrRes :=
  match t with
  | [] => if name = b!"date" ∨ name = b!"payee" ∨ name = b!"transaction_note" then .panic else .missing
  | p :: _ =>
    if name = b!"date" then .val (.str (dateString p.date))
    else if name = b!"payee" then .val (.str p.payee)
    else if name = b!"transaction_note" then .val (.str p.tnote)
    else .missing

/-- script/book.go:61-83, 119-127: a Starlark `for` over a list of transactions or postings: `Iterate` starts at 0, `Next` compares with
`Len`, takes `Index` and goes on; `none` = index out of range. -/
def forEach {α : Type} (l : List α) (i : Nat) : Option (List α) :=
  if i = l.length then some []
  else
    match h : l[i]? with
    | none => none
    | some x => (forEach l (i + 1)).map (x :: ·)
termination_by l.length - i
decreasing_by
  have := (List.getElem?_eq_some_iff.1 h).1
  omega

/-- `for t in data.transactions: for p in t: …` with `t.a` and `p.b` for some attribute names `a` and `b`: script/book_op.go:80-84,
then the two loops.  `none` = a crash. -/
def scriptLoop (ts : List Txn) : Option (List (Txn × Posting)) :=
  match forEach ts 0 with
  | none => none
  | some ts =>
    ts.foldr (fun t r =>
      match forEach t 0, r with
      | some ps, some rest => some (ps.map (fun p => (t, p)) ++ rest)
      | _, _ => none) (some [])

/-! ## The list a script has taken

`data.transactions` returns the book's own slice of transactions (book/book.go:19-22), not a copy. -/

/-- The memory with the arrays of transactions (an array is the list of its cells, as long as its capacity). -/
structure TMem where
  m : Mem
  tarrs : Nat → List Slice
  tnext : Nat

/-- book/book.go:12-17: the book, and where its array of transactions lies; `b.trans` are the first cells of that array. -/
structure TBook where
  b : HBook
  ta : Nat

/-- A slice of transactions as a script holds it: array and length. -/
structure HeldList where
  arr : Nat
  len : Nat

/-- What a held list reads as now. -/
def HeldList.look (h : HeldList) (s : TMem) : List Txn := ((s.tarrs h.arr).take h.len).map fun x => (s.m.view x).map (derefR s.m.rats)

/-- `tarrs[i] = a` -/
def setTArr (f : Nat → List Slice) (i : Nat) (a : List Slice) : Nat → List Slice := fun j => if j = i then a else f j

/-- book_compact.go:67-91 `b.trans = b.trans[:0]; … b.trans = append(b.trans, …)`: the new transactions are written over the cells of
the array; when it is full, `append` moves on to a new array (with some spare room, `spare`). -/
def storeTrans (spare : Nat) (s : TMem) (ta : Nat) (new : List Slice) : TMem × Nat :=
  if new.length ≤ (s.tarrs ta).length then
    ({ s with tarrs := setTArr s.tarrs ta (new ++ (s.tarrs ta).drop new.length) }, ta)
  else
    ({ s with
      tarrs := setTArr (setTArr s.tarrs ta (new.take (s.tarrs ta).length)) s.tnext (new ++ List.replicate spare ⟨0, 0, 0⟩)
      tnext := s.tnext + 1 }, s.tnext)

/-- book_compact.go:8-108 `compact` once more, with the array of transactions. -/
def TBook.compact (srt : List HPost → List HPost) (spare : Nat) (s : TMem) (b : TBook) : TMem × TBook :=
  if b.b.posts s.m = [] then (s, b)
  else
    let c := b.b.compact srt s.m
    let w := storeTrans spare { s with m := c.1 } b.ta c.2.trans
    (w.1, ⟨c.2, w.2⟩)

/-- book/book.go:237-253 `FilterTransaction`: a new array of transactions, with room for as many as there were. -/
def TBook.filter (f : Int → Str → Txn → Bool) (s : TMem) (b : TBook) : TMem × TBook :=
  let c := b.b.filter f s.m
  ({ m := c.1
     tarrs := setTArr s.tarrs s.tnext (c.2.trans ++ List.replicate (b.b.trans.length - c.2.trans.length) ⟨0, 0, 0⟩)
     tnext := s.tnext + 1 }, ⟨c.2, s.tnext⟩)

/-- book/book.go:272-286 `MapAccount`. -/
def TBook.mapAccount (srt : List HPost → List HPost) (spare : Nat) (g : Str → Str) (s : TMem) (b : TBook) : TMem × TBook :=
  let a := ((b.b.posts s.m).map fun x => { x with p := mapAccountPost g x.p }) ++ (s.m.arrs b.b.arr).drop b.b.len
  TBook.compact srt spare { s with m := { s.m with arrs := setArr s.m.arrs b.b.arr a } } b

/-- What a script can do to the book (script/book_op.go:9-71, 80-84): read it, `since` and `asof` with a valid date, and `map`, whose
mapper is `g`.  `spare` is the room `append` leaves. -/
inductive BookStep
  | read (spare : Nat)
  | since (d : Int)
  | asof (d : Int)
  | map (spare : Nat) (g : Str → Str)

/-- One step. -/
def BookStep.run (srt : List HPost → List HPost) : BookStep → TMem × TBook → TMem × TBook
  | .read spare, s => s.2.compact srt spare s.1
  | .since d, s => if d = 0 then s else s.2.filter (fun x _ _ => decide (x ≥ d)) s.1
  | .asof d, s => if d = 0 then s else s.2.filter (fun x _ _ => decide (x < d)) s.1
  | .map spare g, s => s.2.mapAccount srt spare g s.1

/-- `ts = data.transactions`: the list the script then holds. -/
def takeList (srt : List HPost → List HPost) (spare : Nat) (s : TMem × TBook) : (TMem × TBook) × HeldList :=
  let s' := (BookStep.read spare).run srt s
  (s', ⟨s'.2.ta, s'.2.b.trans.length⟩)

/-- builder.go:42-51 `Build`: an array of transactions with room for one per posting, then the first compaction. -/
def tbuild (srt : List HPost → List HPost) (spare : Nat) (l : List Posting) : TMem × TBook :=
  let s := alloc (fun _ => 0) 0 l
  TBook.compact srt spare
    ⟨{ rats := s.1, arrs := fun i => if i = 0 then s.2.2 else [], next := 1, nextR := s.2.1 },
      fun i => if i = 0 then List.replicate l.length ⟨0, 0, 0⟩ else [], 1⟩
    ⟨⟨0, s.2.2.length, List.replicate l.length ⟨0, 0, 0⟩⟩, 0⟩

end Verif
