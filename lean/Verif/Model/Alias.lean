import Verif.Model.Accum

/-! # The posting array under `Accumulate`: /repo/book/book_accum.go:82-188

`b.post` and the local slice `posts` share one array.  A Go slice is a view of an array:
`append` writes into the array while there is capacity and copies otherwise; `sort.Slice`
sorts the viewed cells in place. -/

namespace Verif

/-- The local slice `posts` of `addEmptyAccounts` and the book's array `arr`. -/
structure SliceState where
  /-- the book's array (its length is the capacity) -/
  arr : List Posting
  /-- `Sum.inl n`: `posts` views the first `n` cells of the book's array;
  `Sum.inr l`: `posts` is in its own array with contents `l` -/
  cur : Nat ⊕ List Posting

/-- `posts = append(posts, x)`, book_accum.go:133. -/
def SliceState.append (s : SliceState) (x : Posting) : SliceState :=
  match s.cur with
  | .inl n => if n < s.arr.length then ⟨s.arr.set n x, .inl (n + 1)⟩ else ⟨s.arr, .inr (s.arr.take n ++ [x])⟩
  | .inr l => ⟨s.arr, .inr (l ++ [x])⟩

/-- `sort.Slice(posts, …)`, book_accum.go:161-163. -/
def SliceState.sort (srt : List Posting → List Posting) (s : SliceState) : SliceState :=
  match s.cur with
  | .inl n => ⟨srt (s.arr.take n) ++ s.arr.drop n, .inl n⟩
  | .inr l => ⟨s.arr, .inr (srt l)⟩

/-- The contents of the local slice. -/
def SliceState.view (s : SliceState) : List Posting :=
  match s.cur with
  | .inl n => s.arr.take n
  | .inr l => l

/-- book_accum.go:82-166 `addEmptyAccounts` on the book's array: the postings `posts` followed by
`spare` unused cells (contents irrelevant).  The scan only reads the first postings, which
the appends do not touch, so what is appended is as in `emptyLoop`. -/
def addEmptyInPlace (srt : List Posting → List Posting) (posts spare : List Posting) : Option SliceState :=
  match posts with
  | [] => none
  | p :: _ =>
    let accts := acctList posts
    (emptyLoop accts (posts.length * (accts.length + 1) + 1) p accts posts).map fun app =>
      (app.foldl SliceState.append ⟨posts ++ spare, .inl posts.length⟩).sort srt

/-- The book's postings after `Accumulate` (book_accum.go:173-183; nothing later in the function
writes to the array).  `spare` are the unused cells behind the compacted postings. -/
def postsAfterAccumulate (srt : List Posting → List Posting) (b : Book) (spare : List Posting) : Option (List Posting) :=
  let posts := (b.compact srt).post
  if posts = [] then some posts
  else (addEmptyInPlace srt posts spare).map fun s => s.arr.take posts.length

end Verif
