import Verif.Model.Ops

/-! # Books at the level of pointers and arrays

/repo/book/book.go and book_compact.go once more, now with the sharing that the list model of `Model/Book.lean` leaves out: a posting
holds pointers to its amount and balance (`*big.Rat`), a book's postings are the first `len` cells of an array, its transactions are
slices of arrays, and `compact`, `MapAmount`, `MapAccount` and `MapTransaction` work in place. -/

namespace Verif

/-- A posting struct as it lies in an array: its plain fields (`p`; the fields `val` and `bal` of `p` are not used) and the addresses
of its amount and its balance. -/
structure HPost where
  p : Posting
  v : Nat
  b : Nat

/-- The memory: the numbers by address, the posting arrays by address, the next free array address and the next free number
address. -/
structure Mem where
  rats : Nat → Rat
  arrs : Nat → List HPost
  next : Nat
  nextR : Nat

/-- A slice of a posting array. -/
structure Slice where
  arr : Nat
  off : Nat
  len : Nat

/-- book.go:12-17 `Book` (prices and currencies are never written to and left out); `post` is the slice of the first
`len` cells of the array `arr`. -/
structure HBook where
  arr : Nat
  len : Nat
  trans : List Slice

/-- The cells of a slice. -/
def Mem.view (m : Mem) (s : Slice) : List HPost := ((m.arrs s.arr).drop s.off).take s.len

/-- What a posting reads as. -/
def derefR (r : Nat → Rat) (x : HPost) : Posting := { x.p with val := r x.v, bal := r x.b }

/-- `b.post` -/
def HBook.posts (m : Mem) (b : HBook) : List HPost := (m.arrs b.arr).take b.len

/-- `*p = v` -/
def setRat (r : Nat → Rat) (a : Nat) (v : Rat) : Nat → Rat := fun a' => if a' = a then v else r a'

/-- book_compact.go:18-44: the merge loop on the array; `k` cells are left, `i` and `t` are `i` and `targetIdx`. -/
def mergeLoop : (k i t : Nat) → (Nat → Rat) → List HPost → (Nat → Rat) × List HPost × Nat
  | 0, _, t, r, a => (r, a, t)
  | k + 1, i, t, r, a =>
    match a[i]?, a[t]? with
    | some x, some y =>
      if sameEntry x.p y.p then mergeLoop k (i + 1) t (setRat r y.v (r y.v + r x.v)) a
      else mergeLoop k (i + 1) (t + 1) r (if t + 1 < i then a.set (t + 1) x else a)
    | _, _ => (r, a, t)

/-- book_compact.go:50-64: the loop that removes zeros, on the array. -/
def dropLoop : (k i t : Nat) → (Nat → Rat) → List HPost → List HPost × Nat
  | 0, _, t, _, a => (a, t)
  | k + 1, i, t, r, a =>
    match a[i]? with
    | some x =>
      if r x.v = 0 then dropLoop k (i + 1) t r a
      else dropLoop k (i + 1) (t + 1) r (if t < i then a.set t x else a)
    | none => (a, t)

/-- book_compact.go:79-91: the re-index loop; `first` is the cell at `lastIdx`. -/
def reindex (arr : Nat) (first : HPost) (lastIdx i : Nat) : List HPost → List Slice
  | [] => [⟨arr, lastIdx, i - lastIdx⟩]
  | q :: qs =>
    if q.p.date = first.p.date ∧ q.p.payee = first.p.payee then reindex arr first lastIdx (i + 1) qs
    else ⟨arr, lastIdx, i - lastIdx⟩ :: reindex arr q i (i + 1) qs

/-- book_compact.go:94-107: the balance loop. -/
def balLoop (amts : Str × Str → Rat) (r : Nat → Rat) : List HPost → Nat → Rat
  | [] => r
  | x :: xs =>
    let v := amts (x.p.acct, x.p.ccy) + r x.v
    balLoop (fun k => if k = (x.p.acct, x.p.ccy) then v else amts k) (setRat r x.b v) xs

/-- `arrs[arr] = a` -/
def setArr (f : Nat → List HPost) (arr : Nat) (a : List HPost) : Nat → List HPost := fun i => if i = arr then a else f i

/-- book_compact.go:8-108 `compact`, in place; `srt` is what `sort.Slice` does to the cells of the slice. -/
def HBook.compact (srt : List HPost → List HPost) (m : Mem) (b : HBook) : Mem × HBook :=
  if b.posts m = [] then (m, b)
  else
    let a := srt ((m.arrs b.arr).take b.len) ++ (m.arrs b.arr).drop b.len
    let (r, a, t) := mergeLoop (b.len - 1) 1 0 m.rats a
    let (a, n) := dropLoop (t + 1) 0 0 r a
    match a.take n with
    | [] => ({ m with rats := r, arrs := setArr m.arrs b.arr a }, ⟨b.arr, n, []⟩)
    | x :: xs =>
      ({ m with rats := balLoop (fun _ => 0) r (x :: xs), arrs := setArr m.arrs b.arr a },
        ⟨b.arr, n, reindex b.arr x 0 1 xs⟩)

/-- book.go:19-22 `Transactions`: the memory and book afterwards, and what the returned transactions read as. -/
def HBook.transactions (srt : List HPost → List HPost) (m : Mem) (b : HBook) : Mem × HBook × List Txn :=
  let (m, b) := b.compact srt m
  (m, b, b.trans.map fun s => (m.view s).map (derefR m.rats))

/-- book.go:46-52 `Duplicate`: a new array with the same cells (hence the same pointers), and the same transaction slices, which still
point into the old array. -/
def HBook.duplicate (m : Mem) (b : HBook) : Mem × HBook :=
  ({ m with arrs := setArr m.arrs m.next (b.posts m), next := m.next + 1 }, ⟨m.next, b.len, b.trans⟩)

/-- book.go:237-253 `FilterTransaction`: a new array, and slices of it. -/
def HBook.filter (f : Int → Str → Txn → Bool) (m : Mem) (b : HBook) : Mem × HBook :=
  let kept := (b.trans.map m.view).filter fun t =>
    match t with
    | [] => false
    | x :: _ => f x.p.date x.p.payee (t.map (derefR m.rats))
  ({ m with arrs := setArr m.arrs m.next kept.flatten, next := m.next + 1 },
    ⟨m.next, kept.flatten.length, (kept.foldl (fun s t => (s.1 + t.length, s.2 ++ [⟨m.next, s.1, t.length⟩])) (0, [])).2⟩)

/-- book.go:263-270 `MapAmount`: the currency is written into the cell, the amount through the pointer. -/
def HBook.mapAmount (g : Int → Str → Rat × Str) (m : Mem) (b : HBook) : Mem :=
  let a := ((b.posts m).map fun x => { x with p := { x.p with ccy := (g x.p.date x.p.ccy).2 } }) ++ (m.arrs b.arr).drop b.len
  { m with
    rats := (b.posts m).foldl (fun r x => setRat r x.v (r x.v * (g x.p.date x.p.ccy).1)) m.rats
    arrs := setArr m.arrs b.arr a }

/-- book.go:255-261 `MapTransaction`. -/
def HBook.mapTransaction (srt : List HPost → List HPost) (g : Int → Str → Int × Str) (m : Mem) (b : HBook) : Mem × HBook :=
  let a := ((b.posts m).map fun x =>
    { x with p := { x.p with date := (g x.p.date x.p.payee).1, payee := (g x.p.date x.p.payee).2 } }) ++ (m.arrs b.arr).drop b.len
  b.compact srt { m with arrs := setArr m.arrs b.arr a }

/-- book.go:272-286 `MapAccount`. -/
def HBook.mapAccount (srt : List HPost → List HPost) (g : Str → Str) (m : Mem) (b : HBook) : Mem × HBook :=
  let a := ((b.posts m).map fun x => { x with p := mapAccountPost g x.p }) ++ (m.arrs b.arr).drop b.len
  b.compact srt { m with arrs := setArr m.arrs b.arr a }

/-- posting.go:44-59: new postings get new numbers for amount and balance. -/
def alloc : (Nat → Rat) → Nat → List Posting → (Nat → Rat) × Nat × List HPost
  | r, n, [] => (r, n, [])
  | r, n, q :: qs =>
    let s := alloc (setRat (setRat r n q.val) (n + 1) q.bal) (n + 2) qs
    (s.1, s.2.1, ⟨q, n, n + 1⟩ :: s.2.2)

/-- book.go:136-169, 179-195 `newposts := b.post; … newposts = append(newposts, …); b.post = newposts; b.compact()`.  When the array
has room for the new cells (`room`) `append` writes them behind the slice, over whatever is there; else it moves the slice to a new
array. -/
def HBook.extend (srt : List HPost → List HPost) (room : Bool) (gen : Posting → List Posting) (m : Mem) (b : HBook) : Mem × HBook :=
  let s := alloc m.rats m.nextR (((b.posts m).map (derefR m.rats)).flatMap gen)
  let cells := b.posts m ++ s.2.2
  let addr := if room then b.arr else m.next
  HBook.compact srt
    { rats := s.1
      arrs := setArr m.arrs addr (if room then cells ++ (m.arrs b.arr).drop cells.length else cells)
      next := m.next + 1
      nextR := s.2.1 }
    ⟨addr, cells.length, b.trans⟩

/-- book.go:110-116, the end of `AdjustBy`: all postings anew, in a new array. -/
def HBook.replace (srt : List HPost → List HPost) (gen : Posting → Posting) (m : Mem) (b : HBook) : Mem × HBook :=
  let s := alloc m.rats m.nextR (((b.posts m).map (derefR m.rats)).map gen)
  HBook.compact srt { rats := s.1, arrs := setArr m.arrs m.next s.2.2, next := m.next + 1, nextR := s.2.1 } ⟨m.next, s.2.2.length, b.trans⟩

/-- The operations of `Op` on the pointer level (`SplitBy`, the date filters and `FilterByAccount` are instances; the two operations
with a second book are not included).  `room` says whether `append` finds room. -/
inductive HOp
  | read
  | mapTransaction (g : Int → Str → Int × Str)
  | mapAccount (g : Str → Str)
  | mapAmount (g : Int → Str → Rat × Str)
  | filter (f : Int → Str → Txn → Bool)
  | adjustPost (room : Bool) (mat : Str → Bool) (rep : Str → Str) (f : Rat)
  | depreciate (room : Bool) (mat : Str → Bool) (rep : Str → Str) (period : Str) (periods : Int)
  | adjustBy (by_ : Str)

/-- The same operation on the list level. -/
def HOp.toOp : HOp → Op
  | .read => .read
  | .mapTransaction g => .mapTransaction g
  | .mapAccount g => .mapAccount g
  | .mapAmount g => .mapAmount g
  | .filter f => .filter f
  | .adjustPost _ mat rep f => .adjustPost mat rep f
  | .depreciate _ mat rep period n => .depreciate mat rep period n
  | .adjustBy by_ => .adjustBy by_

/-- book.go:74-117 `AdjustBy`; `none` = panic. -/
def HBook.adjustBy (srt : List HPost → List HPost) (by_ : Str) (m : Mem) (b : HBook) : Option (Mem × HBook) :=
  if by_ = b!"none" then some (m, b)
  else
    let l := (b.posts m).map (derefR m.rats)
    match daysSince (dateRange l).2 (dateRange l).1 with
    | none => none
    | some days =>
      match adjustFactor by_ days with
      | none => none
      | some f => some (b.replace srt (·.byFactor f) m)

/-- One operation; `none` = panic. -/
def HOp.apply (srt : List HPost → List HPost) (today : Int) : HOp → Mem × HBook → Option (Mem × HBook)
  | .read, (m, b) => some (b.compact srt m)
  | .mapTransaction g, (m, b) => some (b.mapTransaction srt g m)
  | .mapAccount g, (m, b) => some (b.mapAccount srt g m)
  | .mapAmount g, (m, b) => some (b.mapAmount g m, b)
  | .filter f, (m, b) => some (b.filter f m)
  | .adjustPost room mat rep f, (m, b) =>
    some (b.extend srt room (fun p => if mat p.acct then [p.byFactor (-f), p.byAcctFactor (rep p.acct) f] else []) m)
  | .depreciate room mat rep period n, (m, b) => some (b.extend srt room (depreciatePost today mat rep period n) m)
  | .adjustBy by_, (m, b) => b.adjustBy srt by_ m

/-- builder.go:25-55 `Build`, the postings only: the cells of the builder's array, each with its own numbers (builder.go:107-117: `val`
is the caller's number, which every caller in the repository makes anew — loader/parser.go:330-337, script/starlark.go:75-108 — and
`bal` a new one), one empty slice per posting, and a first compaction. -/
def hbuild (srt : List HPost → List HPost) (l : List Posting) : Mem × HBook :=
  let s := alloc (fun _ => 0) 0 l
  HBook.compact srt { rats := s.1, arrs := fun i => if i = 0 then s.2.2 else [], next := 1, nextR := s.2.1 }
    ⟨0, s.2.2.length, List.replicate l.length ⟨0, 0, 0⟩⟩

/-- A sequence of operations. -/
def hrun (srt : List HPost → List HPost) (today : Int) : List HOp → Mem × HBook → Option (Mem × HBook)
  | [], s => some s
  | o :: os, s =>
    match o.apply srt today s with
    | none => none
    | some s => hrun srt today os s

end Verif
