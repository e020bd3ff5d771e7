import Verif.Model.Compact
import Verif.Model.Price

/-! # Books: /repo/book/book.go, book_utils.go, book_dedup.go

`srt` is `sort.Slice` on postings (see `IsSort`), `today` is the clock.
Regular expressions are functions: `mat` for `MatchString`, `rep` for `ReplaceAllString`. -/

namespace Verif

/-- book.go:12-17 `type Book struct`.  `trans` holds slices of the array behind `post`; the
operations below update both where the code writes through that sharing. -/
structure Book where
  post : List Posting
  trans : List Txn
  prices : PriceBook
  ccy : List (Str × Nat)

/-- book_compact.go:8-108 `compact`.  Note lines 11-13: on an empty book nothing happens,
not even to `trans`. -/
def Book.compact (srt : List Posting → List Posting) (b : Book) : Book :=
  if b.post = [] then b
  else
    let p := compactPost srt b.post
    { b with post := p, trans := groupTxns p }

/-- book.go:19-22 `Transactions`: compacts the book and returns `trans`. -/
def Book.transactions (srt : List Posting → List Posting) (b : Book) : List Txn :=
  (b.compact srt).trans

/-- book.go:237-253 `FilterTransaction`.  Transactions are never empty, so `p[0]` exists; an
empty one would panic and is given to no filter here (it is dropped). -/
def Book.filterTransaction (f : Int → Str → Txn → Bool) (b : Book) : Book :=
  let ts := b.trans.filter fun t =>
    match t with
    | [] => false
    | p :: _ => f p.date p.payee t
  { b with post := ts.flatten, trans := ts }

/-- book.go:219-235 `FilterTransactionReverse`: builds the reversed filtered list but assigns
only `b.post`; `b.trans` keeps its old value. -/
def Book.filterTransactionReverse (f : Int → Str → Txn → Bool) (b : Book) : Book :=
  let ts := b.trans.reverse.filter fun t =>
    match t with
    | [] => false
    | p :: _ => f p.date p.payee t
  { b with post := ts.flatten }

/-- book.go:255-261 `MapTransaction`. -/
def Book.mapTransaction (srt : List Posting → List Posting) (g : Int → Str → Int × Str) (b : Book) :
    Book :=
  Book.compact srt
    { b with
      post := b.post.map fun p => { p with date := (g p.date p.payee).1, payee := (g p.date p.payee).2 } }

/-- book.go:263-270: what the loop does to one posting. -/
def mapAmountPost (g : Int → Str → Rat × Str) (p : Posting) : Posting :=
  { p with ccy := (g p.date p.ccy).2, val := p.val * (g p.date p.ccy).1 }

/-- book.go:263-270 `MapAmount`: in place, seen through `trans` as well, no compaction. -/
def Book.mapAmount (g : Int → Str → Rat × Str) (b : Book) : Book :=
  { b with post := b.post.map (mapAmountPost g), trans := b.trans.map (·.map (mapAmountPost g)) }

/-- book.go:274-284: what the loop does to one posting (the memo table `amap` is the graph
of the mapper, so it is left out). -/
def mapAccountPost (g : Str → Str) (p : Posting) : Posting :=
  { p with acct := g p.acct, acctlevel := 0, acctterm := g p.acct }

/-- book.go:272-286 `MapAccount`. -/
def Book.mapAccount (srt : List Posting → List Posting) (g : Str → Str) (b : Book) : Book :=
  Book.compact srt { b with post := b.post.map (mapAccountPost g) }

/-- book.go:58-62 `SplitBy`. -/
def Book.splitBy (srt : List Posting → List Posting) (today : Int) (by_ : Str) (b : Book) : Book :=
  b.mapTransaction srt fun d _ => (floorBy today d by_, [])

/-- book.go:79-94: earliest and latest posting date (0, 0 on an empty book). -/
def dateRange : List Posting → Int × Int
  | [] => (0, 0)
  | p :: ps => ps.foldl (fun mm q => (if q.date < mm.1 then q.date else mm.1,
      if q.date > mm.2 then q.date else mm.2)) (p.date, p.date)

/-- book.go:96-108: the factor; `none` = panic. -/
def adjustFactor (by_ : Str) (days : Int) : Option Rat :=
  if by_ = b!"monthly" then newRat 365 (days * 12)
  else if by_ = b!"daily" then newRat 1 days
  else if by_ = b!"quarterly" then newRat 365 (days * 4)
  else if by_ = b!"yearly" then newRat 365 days
  else none

/-- book.go:74-117 `AdjustBy`; `none` = panic. -/
def Book.adjustBy (srt : List Posting → List Posting) (by_ : Str) (b : Book) : Option Book :=
  if by_ = b!"none" then some b
  else
    match daysSince (dateRange b.post).2 (dateRange b.post).1 with
    | none => none
    | some days =>
      match adjustFactor by_ days with
      | none => none
      | some f => some (Book.compact srt { b with post := b.post.map fun p => p.byFactor f })

/-- book.go:154-164: the instalments of one posting; `d` is the running date. -/
def instalments (today : Int) (p : Posting) (nacct period : Str) (periods : Int) :
    Nat → Int → List Posting
  | 0, _ => []
  | k + 1, d =>
    p.byAcctDateFactor nacct d (-1 / (periods : Rat)) ::
    p.byAcctDateFactor p.acct d (1 / (periods : Rat)) ::
    instalments today p nacct period periods k (floorDiff today d period 1)

/-- book.go:140-165: what is appended for one posting. -/
def depreciatePost (today : Int) (mat : Str → Bool) (rep : Str → Str) (period : Str) (periods : Int)
    (p : Posting) : List Posting :=
  if mat p.acct then
    p.byFactor (-1) :: p.byAcctFactor (rep p.acct) 1 ::
      instalments today p (rep p.acct) period periods periods.toNat p.date
  else []

/-- book.go:136-169 `Depreciate`. -/
def Book.depreciate (srt : List Posting → List Posting) (today : Int) (mat : Str → Bool)
    (rep : Str → Str) (period : Str) (periods : Int) (b : Book) : Book :=
  Book.compact srt
    { b with post := b.post ++ b.post.flatMap (depreciatePost today mat rep period periods) }

/-- book.go:179-195 `AdjustPost`; the factor is the exact value of the float. -/
def Book.adjustPost (srt : List Posting → List Posting) (mat : Str → Bool) (rep : Str → Str)
    (f : Rat) (b : Book) : Book :=
  Book.compact srt
    { b with
      post := b.post ++ b.post.flatMap fun p =>
        if mat p.acct then [p.byFactor (-f), p.byAcctFactor (rep p.acct) f] else [] }

/-- book_utils.go:16-27 `RegexAccounts`: the mapper. -/
def regexAccount (mat : Str → Bool) (rep : Str → Str) (replace alt acct : Str) : Str :=
  if alt ≠ [] ∧ mat acct = false then alt
  else if replace ≠ [] then rep acct
  else acct

/-- book_utils.go:16-27 `RegexAccounts`. -/
def Book.regexAccounts (srt : List Posting → List Posting) (mat : Str → Bool) (rep : Str → Str)
    (replace alt : Str) (b : Book) : Book :=
  b.mapAccount srt (regexAccount mat rep replace alt)

/-- book_utils.go:33-40: the currency mapper of `RegexCCY` (the price map is in
`Model/PriceMap.lean`). -/
def regexCCYMap (mat : Str → Bool) (rep : Str → Str) (_date : Int) (ccy : Str) : Rat × Str :=
  if mat ccy then (1, rep ccy) else (1, ccy)

/-- book_utils.go:59-66 `FilterByDateSince`. -/
def Book.filterByDateSince (minDate : Int) (b : Book) : Book :=
  if minDate = 0 then b else b.filterTransaction fun d _ _ => decide (d ≥ minDate)

/-- book_utils.go:68-75 `FilterByDateAsof`. -/
def Book.filterByDateAsof (maxDate : Int) (b : Book) : Book :=
  if maxDate = 0 then b else b.filterTransaction fun d _ _ => decide (d < maxDate)

/-- book_utils.go:78-87 `FilterByAccount`. -/
def Book.filterByAccount (acct : Str) (b : Book) : Book :=
  b.filterTransaction fun _ _ t => t.any fun p => decide (p.acct = acct)

/-- book.go:203-207: the map from matching account to the balance of its last posting. -/
def lastBal (mat : Str → Bool) (l : List Posting) (a : Str) : Option Rat :=
  ((l.filter fun p => mat p.acct && decide (p.acct = a)).getLast?).map (·.bal)

/-- `sort.Strings` on distinct strings, as insertion sort. -/
def insertStr (s : Str) : List Str → List Str
  | [] => [s]
  | t :: ts => if s ≤ t then s :: t :: ts else t :: insertStr s ts
/-- `sort.Strings`. -/
def sortStr (l : List Str) : List Str := l.foldr insertStr []

/-- book.go:199-217 `Accounts`; `keys` enumerates the map's keys in some order (the result is
sorted, so the order is irrelevant). -/
def Book.accounts (mat : Str → Bool) (onlyWithBalance : Bool) (b : Book) : List Str :=
  let keys := ((b.post.filter fun p => mat p.acct).map (·.acct)).dedup
  sortStr (keys.filter fun a => !onlyWithBalance || decide (lastBal mat b.post a ≠ some 0))

/-- book_dedup.go:13-23: advance in the reference transactions while they are before
(date, payee).  The list is `reftrans[refidx:]`. -/
def dedupAdvance (date : Int) (payee : Str) : List Txn → List Txn
  | [] => []
  | [] :: rs => [] :: rs      -- reftrans[refidx][0] would panic; transactions are never empty
  | (q :: qs) :: rs =>
    if q.date < date then dedupAdvance date payee rs
    else if q.date = date ∧ q.payee < payee then dedupAdvance date payee rs
    else (q :: qs) :: rs

/-- book_dedup.go:25-36: keep the transaction unless the reference at the cursor is the same. -/
def dedupKeep (date : Int) (payee : Str) : List Txn → Bool
  | [] => true
  | [] :: _ => true
  | (q :: _) :: _ => !(decide (q.payee = payee) && decide (q.date = date))

/-- book_dedup.go:10-37: `FilterTransaction` with the stateful closure. -/
def dedupLoop : List Txn → List Txn → List Txn
  | [], _ => []
  | [] :: ts, ref => dedupLoop ts ref
  | (p :: ps) :: ts, ref =>
    let ref' := dedupAdvance p.date p.payee ref
    if dedupKeep p.date p.payee ref' then (p :: ps) :: dedupLoop ts ref' else dedupLoop ts ref'

/-- book_dedup.go:7-38 `RemoveDuplicatesOf`. -/
def Book.removeDuplicatesOf (b : Book) (srt : List Posting → List Posting) (main : Book) : Book :=
  let ts := dedupLoop b.trans (main.transactions srt)
  { b with post := ts.flatten, trans := ts }

end Verif
