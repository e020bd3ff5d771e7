import Verif.Model.Posting

/-! # Compaction: /repo/book/book_compact.go -/

namespace Verif

/-- book_compact.go:26-29: the equality test of the merge loop. -/
def sameEntry (a b : Posting) : Bool :=
  decide (a.date = b.date) && decide (a.payee = b.payee) &&
    decide (a.acct = b.acct) && decide (a.ccy = b.ccy)

/-- book_compact.go:24-44: the merge loop; `cur` is `p[targetIdx]`, the list is the
not yet visited part of `p`. -/
def mergeFrom (cur : Posting) : List Posting → List Posting
  | [] => [cur]
  | q :: qs =>
    if sameEntry q cur then mergeFrom { cur with val := cur.val + q.val } qs
    else cur :: mergeFrom q qs

/-- book_compact.go:18-47: "Compact - adding up common entries" and the shrink. -/
def mergeAdj : List Posting → List Posting
  | [] => []
  | p :: ps => mergeFrom p ps

/-- book_compact.go:49-67: "Compact - removing zero entries" and the shrink. -/
def dropZero (l : List Posting) : List Posting := l.filter (fun p => decide (p.val ≠ 0))

/-- book_compact.go:82-91: the re-index loop; `first :: acc.reverse` is `p[lastIdx:i]`. -/
def groupFrom (first : Posting) (acc : List Posting) : List Posting → List Txn
  | [] => [first :: acc.reverse]
  | q :: qs =>
    if q.date = first.date ∧ q.payee = first.payee then groupFrom first (q :: acc) qs
    else (first :: acc.reverse) :: groupFrom q [] qs

/-- book_compact.go:72-91: "Transaction re-index" (with the early exit on no posts). -/
def groupTxns : List Posting → List Txn
  | [] => []
  | p :: ps => groupFrom p [] ps

/-- book_compact.go:94-107: the balance loop.  `amts` is the map from (account, currency)
to the running balance; a missing key counts as zero (the code copies the first value). -/
def setBals (amts : Str × Str → Rat) : List Posting → List Posting
  | [] => []
  | p :: ps =>
    let v := amts (p.acct, p.ccy) + p.val
    { p with bal := v } ::
      setBals (fun k => if k = (p.acct, p.ccy) then v else amts k) ps

/-- book_compact.go:15-107 on the posting list, given the sorted postings: merge, drop
zeros, compute balances.  The balances are written through the postings, so the
transaction slices (which alias the posting array) see them as well. -/
def compactPost (srt : List Posting → List Posting) (l : List Posting) : List Posting :=
  setBals (fun _ => 0) (dropZero (mergeAdj (srt l)))

end Verif
