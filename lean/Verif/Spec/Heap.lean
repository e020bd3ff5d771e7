import Verif.Model.Heap

/-! # What a book in memory says, and when it owns its numbers -/

namespace Verif.Spec

/-- The book in memory reads as the book `fb`: the same postings and the same transactions, number by number. -/
def ReadsAs (m : Mem) (b : HBook) (fb : Book) : Prop :=
  (b.posts m).map (derefR m.rats) = fb.post ∧ (b.trans.map fun s => (m.view s).map (derefR m.rats)) = fb.trans

/-- The two postings share no number. -/
def Apart (x y : HPost) : Prop := x.v ≠ y.v ∧ x.v ≠ y.b ∧ x.b ≠ y.v ∧ x.b ≠ y.b

/-- No two postings share a number, and no posting uses one number as amount and balance. -/
structure Sep (l : List HPost) : Prop where
  pair : l.Pairwise Apart
  self : ∀ x ∈ l, x.v ≠ x.b

/-- The memory is laid out as `Build` leaves it: the postings are inside their array, share no numbers, and the transactions are
pieces of that same array; the addresses in use are below the free ones. -/
structure Laid (m : Mem) (b : HBook) : Prop where
  len : b.len ≤ (m.arrs b.arr).length
  arr : b.arr < m.next
  sep : Sep (b.posts m)
  addr : ∀ x ∈ b.posts m, x.v < m.nextR ∧ x.b < m.nextR
  slices : ∀ s ∈ b.trans, s.arr = b.arr ∧ s.off + s.len ≤ b.len
  index : (b.trans.map m.view).flatten = b.posts m
  empty : b.len = 0 → b.trans = []

/-- What `sort.Slice` does to an array of posting structs. -/
structure IsHSort (srt : List HPost → List HPost) : Prop where
  perm : ∀ l, (srt l).Perm l
  sorted : ∀ l, (srt l).Pairwise fun a b => Posting.isLess b.p a.p = false

/-- A run of operations on books as values, each with some admissible way of sorting. -/
inductive ListRun (today : Int) : List Op → Book → Option Book → Prop
  | nil (b : Book) : ListRun today [] b (some b)
  | panic (srt : List Posting → List Posting) (hs : IsSort srt) (o : Op) (os : List Op) (b : Book)
      (h : o.apply srt today b = none) : ListRun today (o :: os) b none
  | step (srt : List Posting → List Posting) (hs : IsSort srt) (o : Op) (os : List Op) (b b' : Book) (r : Option Book)
      (h : o.apply srt today b = some b') (hr : ListRun today os b' r) : ListRun today (o :: os) b r

end Verif.Spec
