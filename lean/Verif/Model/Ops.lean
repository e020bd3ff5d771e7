import Verif.Model.Builder
import Verif.Model.Reclassify

/-! # Sequences of book operations -/

namespace Verif

/-- The operations a client can perform on a book (all of /repo/book/book.go,
book_utils.go, book_dedup.go, book_reclassify.go that change it, except
`FilterTransactionReverse`, which is treated separately in C17). -/
inductive Op
  | read                                                        -- Transactions()
  | mapTransaction (g : Int → Str → Int × Str)
  | splitBy (by_ : Str)                                         -- combine
  | mapAccount (g : Str → Str)                                  -- map
  | mapAmount (g : Int → Str → Rat × Str)                       -- convert, mapccy
  | filter (f : Int → Str → Txn → Bool)
  | since (d : Int)
  | asof (d : Int)
  | filterByAccount (a : Str)
  | adjustPost (mat : Str → Bool) (rep : Str → Str) (f : Rat)   -- move
  | depreciate (mat : Str → Bool) (rep : Str → Str) (period : Str) (periods : Int)
  | adjustBy (by_ : Str)
  | removeDuplicatesOf (main : Book)
  | reclassify (o1 : List (Str × Nat) → List (Str × Nat)) (o2 : List (Str × Str) → List (Str × Str))
      (dist : Str → Str → Rat) (refacct : Str) (ref : Book)

/-- One operation; `none` = panic (only `AdjustBy` can panic). -/
def Op.apply (srt : List Posting → List Posting) (today : Int) : Op → Book → Option Book
  | .read, b => some (b.compact srt)
  | .mapTransaction g, b => some (b.mapTransaction srt g)
  | .splitBy by_, b => some (b.splitBy srt today by_)
  | .mapAccount g, b => some (b.mapAccount srt g)
  | .mapAmount g, b => some (b.mapAmount g)
  | .filter f, b => some (b.filterTransaction f)
  | .since d, b => some (b.filterByDateSince d)
  | .asof d, b => some (b.filterByDateAsof d)
  | .filterByAccount a, b => some (b.filterByAccount a)
  | .adjustPost mat rep f, b => some (b.adjustPost srt mat rep f)
  | .depreciate mat rep period n, b => some (b.depreciate srt today mat rep period n)
  | .adjustBy by_, b => b.adjustBy srt by_
  | .removeDuplicatesOf main, b => some (b.removeDuplicatesOf srt main)
  | .reclassify o1 o2 dist ra ref, b => some (b.reclassify srt o1 o2 dist ra ref)

/-- A sequence of operations. -/
def applyOps (srt : List Posting → List Posting) (today : Int) : List Op → Book → Option Book
  | [], b => some b
  | o :: os, b =>
    match o.apply srt today b with
    | none => none
    | some b => applyOps srt today os b

/-- A book some client can hold: built by any sequence of builder calls and changed by any
sequence of operations. -/
def Reachable (srt : List Posting → List Posting) (today : Int) (b : Book) : Prop :=
  ∃ calls bb b0 ops, Builder.new.calls calls = some bb ∧ bb.build srt = some b0 ∧
    applyOps srt today ops b0 = some b

end Verif
