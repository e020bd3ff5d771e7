import Verif.Model.Book

/-! # Reclassification: /repo/book/book_reclassify.go

Go iterates maps in an unspecified order: `o1`, `o2` reorder the entries before the two loops
over maps; theorems hold for all reorderings (`∀ l, (o l).Perm l`).  `dist` is the distance
function with exact values. -/

namespace Verif

/-- book_reclassify.go:20-33, 64-76: of a two-posting transaction with the reference account:
the index of the other posting, and its account. -/
def counterOf (refacct : Str) : Txn → Option (Nat × Str)
  | [p, q] =>
    if p.acct = refacct then some (1, q.acct)
    else if q.acct = refacct then some (0, p.acct)
    else none
  | _ => none

/-- book_reclassify.go:38-44: count one more use of `cacct`. -/
def countAdd (m : List (Str × Nat)) (cacct : Str) : List (Str × Nat) :=
  match m with
  | [] => [(cacct, 1)]
  | (k, n) :: m => if k = cacct then (k, n + 1) :: m else (k, n) :: countAdd m cacct

/-- book_reclassify.go:36-46: add to the mapping payee → account → count. -/
def payeeAdd (m : List (Str × List (Str × Nat))) (payee cacct : Str) : List (Str × List (Str × Nat)) :=
  match m with
  | [] => [(payee, [(cacct, 1)])]
  | (k, ds) :: m => if k = payee then (k, countAdd ds cacct) :: m else (k, ds) :: payeeAdd m payee cacct

/-- book_reclassify.go:17-47: the mapping of the whole reference book. -/
def payeeMappingAll (refacct : Str) (ts : List Txn) : List (Str × List (Str × Nat)) :=
  ts.foldl (fun m t =>
    match t, counterOf refacct t with
    | p :: _, some (_, c) => payeeAdd m p.payee c
    | _, _ => m) []

/-- book_reclassify.go:52-59: the choice loop.  Note line 56: it assigns `k = max` instead of
`max = k`, so `max` stays 0. -/
def chooseLoop (max : Nat) (macct : Str) : List (Str × Nat) → Str
  | [] => macct
  | (c, k) :: rest => if k > max then chooseLoop max c rest else chooseLoop max macct rest

/-- book_reclassify.go:50-61: payee → chosen account. -/
def payeeMapping (o1 : List (Str × Nat) → List (Str × Nat)) (m : List (Str × List (Str × Nat))) :
    List (Str × Str) :=
  m.map fun kv => (kv.1, chooseLoop 0 [] (o1 kv.2))

/-- book_reclassify.go:78-86: best matching payee: running maximum and its account. -/
def bestLoop (dist : Str → Str → Rat) (payee : Str) : Rat → Str → List (Str × Str) → Rat × Str
  | m, c, [] => (m, c)
  | m, c, (p, c') :: rest =>
    if dist payee p > m then bestLoop dist payee (dist payee p) c' rest
    else bestLoop dist payee m c rest

/-- book_reclassify.go:63-91: what happens to one transaction. -/
def reclassTxn (o2 : List (Str × Str) → List (Str × Str)) (dist : Str → Str → Rat) (refacct : Str)
    (mp : List (Str × Str)) (t : Txn) : Txn :=
  match t, counterOf refacct t with
  | [p, q], some (i, _) =>
    let best := bestLoop dist p.payee 0 [] (o2 mp)
    if best.1 > 0 then
      if i = 1 then [p, { q with acct := best.2 }] else [{ p with acct := best.2 }, q]
    else t
  | _, _ => t

/-- book_reclassify.go:14-92 `ReclassifyByAccount`.  The write `trans[ctrans].acct = …` goes
to the array shared by `post` and `trans`. -/
def Book.reclassify (b : Book) (srt : List Posting → List Posting)
    (o1 : List (Str × Nat) → List (Str × Nat)) (o2 : List (Str × Str) → List (Str × Str))
    (dist : Str → Str → Rat) (refacct : Str) (ref : Book) : Book :=
  let mp := payeeMapping o1 (payeeMappingAll refacct (ref.transactions srt))
  let ts := (b.transactions srt).map (reclassTxn o2 dist refacct mp)
  { b with post := ts.flatten, trans := ts }

end Verif
