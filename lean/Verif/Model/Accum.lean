import Verif.Model.Builder

/-! # Summaries: /repo/book/book_accum.go

`div` is the divider.  Go maps used as sets are lists without duplicates; where the code ranges
over the map, `o` reorders it.  Values only: the aliasing of the posting array is in `Model/Alias.lean`. -/

namespace Verif

/-- book_accum.go:23-27: after the loop of `findMaxCommonPrefix`; `l`, `r` are `left[i:]`, `right[i:]`. -/
def prefixEnd (div l r : Str) (i pre : Nat) : Nat :=
  if (!l.isEmpty && div.isPrefixOf l) || (!r.isEmpty && div.isPrefixOf r) || (l.isEmpty && r.isEmpty) then i else pre

/-- book_accum.go:13-21: the loop of `findMaxCommonPrefix` on the rests of the two names. -/
def prefixLoop (div : Str) : Str → Str → Nat → Nat → Nat
  | x :: l, y :: r, i, pre =>
    if x ≠ y then prefixEnd div (x :: l) (y :: r) i pre
    else prefixLoop div l r (i + 1) (if div.isPrefixOf (x :: l) then i else pre)
  | l, r, i, pre => prefixEnd div l r i pre

/-- book_accum.go:11-30 `findMaxCommonPrefix`. -/
def findMaxCommonPrefix (left right div : Str) : Str := left.take (prefixLoop div left right 0 0)

/-- Hexadecimal digits of a natural number, with enough fuel. -/
def natHexAux : Nat → Nat → Str
  | 0, n => [if n % 16 < 10 then 48 + n % 16 else 87 + n % 16]
  | f + 1, n =>
    if n < 16 then [if n < 10 then 48 + n else 87 + n]
    else natHexAux f (n / 16) ++ [if n % 16 < 10 then 48 + n % 16 else 87 + n % 16]
/-- `%x` of a natural number. -/
def natHex (n : Nat) : Str := natHexAux n n
/-- `%0wx` of an integer: zero padded to width `w`, the sign counting. -/
def hexPad (w : Nat) (i : Int) : Str :=
  let ds := natHex i.natAbs
  if i < 0 then 45 :: (List.replicate (w - 1 - ds.length) 48 ++ ds)
  else List.replicate (w - ds.length) 48 ++ ds

/-- Truncation of a rational towards zero (Go's conversion of a float to an integer). -/
def ratTrunc (r : Rat) : Int := r.num.tdiv r.den

/-- book_accum.go:32-37 `getSortOrder`.  Simplification: the float64 arithmetic is exact and the
conversion to int64 does not overflow. -/
def getSortOrder (a : Rat) : Str := hexPad 15 (1000000000 * 1000000 - ratTrunc (a * 1000000))

/-- book_accum.go:39-50: the loop of `getSortOrderString` from index `i`; `val` is the map. -/
def sortOrderLoop (val : Str → Option Rat) (div acct : Str) (i : Nat) : Nat → List Str
  | 0 => []
  | f + 1 =>
    let rest := sortOrderLoop val div acct (i + 1) f
    if i ≠ acct.length ∧ div.isPrefixOf (acct.drop i) = false then rest
    else
      match val (acct.take i) with
      | some v => getSortOrder v :: rest
      | none => rest

/-- `strings.Join`. -/
def joinWith (sep : Str) : List Str → Str
  | [] => []
  | [s] => s
  | s :: ss => s ++ sep ++ joinWith sep ss

/-- book_accum.go:39-50 `getSortOrderString`. -/
def getSortOrderString (val : Str → Option Rat) (acct div : Str) : Str :=
  joinWith div (sortOrderLoop val div acct 1 acct.length)

/-- book_accum.go:56-77: the loop of `splitByStrings`; `pre` is `acct[:i]`, the list `acct[i:]`;
`last` as in the code, `n` the length of `o`.  `none` = panic (slice bounds, line 70). -/
def splitLoop (S : List Str) (acct : Str) (incl : Bool) (div : Str) (last n : Nat) (pre : Str) : Str → Option (Nat × Nat)
  | [] => if incl && decide (acct ∈ S) then some (n + 1, acct.length) else some (n, last)
  | c :: suf =>
    if div.isPrefixOf (c :: suf) ∧ pre ∈ S then
      if pre.length < last then none
      else splitLoop S acct incl div (pre.length + div.length) (n + 1) (pre ++ [c]) suf
    else splitLoop S acct incl div last n (pre ++ [c]) suf

/-- book_accum.go:52-80 `splitByStrings`: level and term. -/
def splitByStrings (S : List Str) (acct : Str) (incl : Bool) (div : Str) : Option (Nat × Str) :=
  match splitLoop S acct incl div 0 0 [] acct with
  | some (n, last) => some (n, acct.drop last)
  | none => none

/-- Order of (account, currency) pairs, book_accum.go:100-111. -/
def pairLe (a b : Str × Str) : Bool := decide (a.1 < b.1) || (decide (a.1 = b.1) && decide (a.2 ≤ b.2))
/-- Insertion into a sorted list of pairs. -/
def insertPair (a : Str × Str) : List (Str × Str) → List (Str × Str)
  | [] => [a]
  | b :: l => if pairLe a b then a :: b :: l else b :: insertPair a l
/-- book_accum.go:84-111: all (account, currency) pairs, sorted (the pairs are distinct, so the
sort has one possible result). -/
def acctList (posts : List Posting) : List (Str × Str) :=
  ((posts.map fun p => (p.acct, p.ccy)).dedup).foldr insertPair []

/-- book_accum.go:133-142: the zero posting appended for a missing account. -/
def zeroPost (h : Posting) (e : Str × Str) : Posting :=
  ⟨h.date, h.payee, h.tnote, e.1, e.2, 0, [], 0, 0, [], []⟩

/-- book_accum.go:113-159: the scan.  `h` is `posts[transIdx]`, `exp` is `acctList[scanIdx:]`, `rest` is
`posts[postIdx:postEnd]`; the result is what is appended.  `none` = panic (index, line 126) or
out of fuel (the code would loop). -/
def emptyLoop (accts : List (Str × Str)) : Nat → Posting → List (Str × Str) → List Posting → Option (List Posting)
  | 0, _, _, _ => none
  | f + 1, h, exp, rest =>
    let same := fun q : Posting => decide (q.date = h.date ∧ q.payee = h.payee)
    match rest, exp with
    | [], [] => some []
    | [], e :: es => (emptyLoop accts f h es []).map (zeroPost h e :: ·)
    | q :: qs, [] =>
      if same q then none
      else emptyLoop accts f q accts (q :: qs)
    | q :: qs, e :: es =>
      if same q ∧ e = (q.acct, q.ccy) then emptyLoop accts f h es qs
      else (emptyLoop accts f h es (q :: qs)).map (zeroPost h e :: ·)

/-- book_accum.go:82-166 `addEmptyAccounts`. -/
def addEmptyAccounts (srt : List Posting → List Posting) (posts : List Posting) : Option (List Posting) :=
  match posts with
  | [] => none        -- posts[transIdx] on an empty slice; the caller never passes one
  | p :: _ =>
    let accts := acctList posts
    (emptyLoop accts (posts.length * (accts.length + 1) + 1) p accts posts).map fun app => srt (posts ++ app)

/-- book_accum.go:202-218: the accounts to be accumulated. -/
def accumSet (toCCY div : Str) (posts : List Posting) : List Str :=
  ((posts.filter fun p => decide (p.ccy ≠ toCCY)).map (·.acct) ++
    (List.zipWith (fun p q : Posting => findMaxCommonPrefix p.acct q.acct div) posts posts.tail).filter
      (fun k => decide (k ≠ []))).dedup

/-- book_accum.go:285-299: account and value in the base currency; `none` = panic in the lookup. -/
def convertPost (prices : PriceBook) (toCCY : Str) (p : Posting) : Option (Str × Rat) :=
  if p.ccy ≠ toCCY then (prices.getPrice p.date p.ccy toCCY).map fun r => (p.acct, p.val * r.1)
  else some (p.acct, p.val)

/-- book_accum.go:237-245: the total of an accumulated account. -/
def sumBelow (div k : Str) (cposts : List (Str × Rat)) : Rat :=
  ((cposts.filter fun c => decide (c.1 = k) || (k ++ div).isPrefixOf c.1).map (·.2)).sum

/-- book_accum.go:228-249: the map `acctval`: accumulated accounts, else the last converted value. -/
def acctVal (S : List Str) (div : Str) (cposts : List (Str × Rat)) (a : Str) : Option Rat :=
  if a ∈ S then some (sumBelow div a cposts) else ((cposts.filter fun c => decide (c.1 = a)).getLast?).map (·.2)

/-- book_accum.go:252-255: level, term and sort key of an ordinary row. -/
def leafRow (S : List Str) (div : Str) (cposts : List (Str × Rat)) (p : Posting) : Option Posting :=
  (splitByStrings S p.acct true div).map fun lt =>
    { p with acctlevel := lt.1, acctterm := lt.2, acctsort := getSortOrderString (acctVal S div cposts) p.acct div }

/-- book_accum.go:258-278: the summary row of account `k` (`h` is `posts[transIdx]`). -/
def summaryRow (S : List Str) (div toCCY : Str) (cposts : List (Str × Rat)) (h : Posting) (k : Str) : Option Posting :=
  (splitByStrings S k false div).map fun lt =>
    ⟨h.date, h.payee, h.tnote, k, toCCY, sumBelow div k cposts, [], 0, lt.1, lt.2,
      getSortOrderString (acctVal S div cposts) k div⟩

/-- book_accum.go:222-305 for one run of postings of the same date and payee: ordinary rows and
summary rows. -/
def blockRows (prices : PriceBook) (toCCY div : Str) (S : List Str) (o : List Str → List Str) (g : Txn) :
    Option (List Posting × List Posting) :=
  match g with
  | [] => some ([], [])
  | h :: _ =>
    match g.mapM (convertPost prices toCCY) with
    | none => none
    | some cposts =>
      match g.mapM (leafRow S div cposts), (o S).mapM (summaryRow S div toCCY cposts h) with
      | some l, some s => some (l, s)
      | _, _ => none

/-- book_accum.go:317-333: hide one account, negate the credit accounts. -/
def hideFlip (credit : Option (Str → Bool)) (hidden : Str) (l : List Posting) : List Posting :=
  (l.filter fun p => !(decide (hidden ≠ []) && decide (p.acct = hidden))).map fun p =>
    match credit with
    | some m => if m p.acct then { p with val := -p.val } else p
    | none => p

/-- The map order (book_accum.go:235 and 258) used in the transaction `g`. -/
def mapOrder (o : Int → Str → List Str → List Str) (g : Txn) : List Str → List Str :=
  match g with
  | [] => id
  | h :: _ => o h.date h.payee

/-- book_accum.go:168-346 `Accumulate` (result only; the book itself is compacted).  `o` gives the
map order in each transaction.  `none` = panic. -/
def Book.accumulate (b : Book) (srt : List Posting → List Posting) (toCCY div : Str) (credit : Option (Str → Bool))
    (hidden : Str) (o : Int → Str → List Str → List Str) : Option (List Txn) :=
  let b1 := b.compact srt
  if b1.post = [] then some (b1.transactions srt)
  else
    match addEmptyAccounts srt b1.post with
    | none => none
    | some posts =>
      let S := accumSet toCCY div posts
      match (groupTxns posts).mapM fun g =>
          blockRows b.prices toCCY div S (mapOrder o g) g with
      | none => none
      | some blocks =>
        let eposts := hideFlip credit hidden (srt ((blocks.map (·.1)).flatten ++ (blocks.map (·.2)).flatten))
        if eposts = [] then none          -- eposts[1], line 342
        else some (groupTxns eposts)

end Verif
