import Verif.Model.Date

/-! # Prices: /repo/book/price.go -/

namespace Verif

/-- price.go:8-11 `type Price struct`. -/
structure Price where
  date : Int
  val : Rat
deriving DecidableEq, Repr

/-- price.go:22-28 `PriceType`. -/
inductive PriceType
  | outOfRange | inferred | exact | trade | none
deriving DecidableEq, Repr

/-- price.go:34 `type PriceList []Price`. -/
abbrev PriceList := List Price

/-- `big.NewRat(a, b)`: panics (`none`) when `b` is zero. -/
def newRat (a b : Int) : Option Rat := if b = 0 then Option.none else some ((a : Rat) / (b : Rat))

/-- price.go:68-78 and 110-119: linear interpolation between two recorded prices;
`none` = panic (equal day numbers, or a date `AsDays` cannot handle). -/
def interpolate (lo hi : Price) (date : Int) : Option (Rat × PriceType) :=
  match daysSince date lo.date, daysSince hi.date lo.date with
  | some a, some b =>
    match newRat a b with
    | some f => some ((hi.val - lo.val) * f + lo.val, PriceType.inferred)
    | Option.none => Option.none
  | _, _ => Option.none

/-- Result of the binary search loop of price.go:96-108. -/
inductive SearchRes
  | found (i : Nat)      -- return at line 106
  | stop (minIdx : Nat)  -- loop left, minIdx as at line 111
  | panic                -- index out of range
  | outOfFuel

/-- price.go:96-108: the search loop. -/
def searchLoop (p : PriceList) (date : Int) : Nat → Nat → Nat → SearchRes
  | 0, _, _ => .outOfFuel
  | f + 1, minIdx, maxIdx =>
    if minIdx < maxIdx then
      let midIdx := (minIdx + maxIdx) / 2
      match p[midIdx]? with
      | Option.none => .panic
      | some pm =>
        if date > pm.date then
          if midIdx = minIdx then .stop minIdx else searchLoop p date f midIdx maxIdx
        else if date < pm.date then searchLoop p date f minIdx midIdx
        else .found midIdx
    else .stop minIdx

/-- price.go:81-120 `PriceList.GetPrice`; `none` = panic. -/
def PriceList.getPrice (p : PriceList) (date : Int) : Option (Rat × PriceType) :=
  match p.head?, p.getLast? with
  | some first, some last =>
    if date < first.date then some (first.val, PriceType.outOfRange)
    else if date > last.date then some (last.val, PriceType.outOfRange)
    else
      match searchLoop p date (p.length + 1) 0 p.length with
      | .found i => (p[i]?).map fun q => (q.val, PriceType.exact)
      | .stop i =>
        match p[i]?, p[i + 1]? with
        | some lo, some hi => interpolate lo hi date
        | _, _ => Option.none
      | .panic => Option.none
      | .outOfFuel => Option.none
  | _, _ => Option.none   -- p[0] on an empty list

/-- price.go:37-44 `PriceIterator` and `GetIterator`. -/
structure PriceIterator where
  idx : Nat
  pl : PriceList

/-- price.go:42-44 `GetIterator`. -/
def PriceList.getIterator (p : PriceList) : PriceIterator := ⟨0, p⟩

/-- price.go:49-51: `for idx < len(pl) && pl[idx].date < date { idx++ }`. -/
def iterAdvance (pl : PriceList) (date : Int) : Nat → Nat → Nat
  | 0, idx => idx
  | f + 1, idx =>
    match pl[idx]? with
    | some q => if q.date < date then iterAdvance pl date f (idx + 1) else idx
    | Option.none => idx

/-- price.go:46-79 `PriceIterator.GetPrice`: the new iterator and the result (`none` = panic). -/
def PriceIterator.getPrice (pi : PriceIterator) (date : Int) :
    PriceIterator × Option (Rat × PriceType) :=
  let idx := iterAdvance pi.pl date (pi.pl.length - pi.idx) pi.idx
  let pi' : PriceIterator := { pi with idx := idx }
  (pi',
    if idx = pi.pl.length then (pi.pl.getLast?).map fun q => (q.val, PriceType.outOfRange)
    else
      match pi.pl[idx]? with
      | Option.none => Option.none
      | some q =>
        if q.date = date then some (q.val, PriceType.exact)
        else if idx = 0 then some (q.val, PriceType.outOfRange)
        else
          match pi.pl[idx - 1]? with
          | some lo => interpolate lo q date
          | Option.none => Option.none)

/-- The price maps of price.go:123-125, 171-173: `map[PricePair]PriceList`, as an
association list with distinct keys (unit, ccy). -/
abbrev PriceBook := List ((Str × Str) × PriceList)

/-- Go map lookup. -/
def PriceBook.find (b : PriceBook) (k : Str × Str) : Option PriceList :=
  match b with
  | [] => Option.none
  | (k', v) :: b => if k' = k then some v else PriceBook.find b k

/-- Go map assignment `m[k] = v`. -/
def PriceBook.set (b : PriceBook) (k : Str × Str) (v : PriceList) : PriceBook :=
  match b with
  | [] => [(k, v)]
  | (k', v') :: b => if k' = k then (k, v) :: b else (k', v') :: PriceBook.set b k v

/-- price.go:136-149 `addPrice`. -/
def PriceBook.addPrice (b : PriceBook) (date : Int) (unit ccy : Str) (val : Rat) : PriceBook :=
  match b.find (unit, ccy) with
  | Option.none => b.set (unit, ccy) [⟨date, val⟩]
  | some v => b.set (unit, ccy) (v ++ [⟨date, val⟩])

/-- Insertion into a list sorted by date, after equal dates. -/
def insertPrice (q : Price) : PriceList → PriceList
  | [] => [q]
  | r :: rs => if q.date < r.date then q :: r :: rs else r :: insertPrice q rs

/-- price.go:159-164 `sort.SliceStable` by date (a stable sort is determined by its input, so
insertion sort gives the same list). -/
def sortPrices (l : PriceList) : PriceList := l.foldl (fun acc q => insertPrice q acc) []

/-- price.go:152-168 `build`. -/
def PriceBook.build (b : PriceBook) : PriceBook := b.map fun kv => (kv.1, sortPrices kv.2)

/-- price.go:182-196 `getPrice`; `none` = panic (from the list lookup, or `Inv` of zero). -/
def PriceBook.getPrice (b : PriceBook) (date : Int) (unit ccy : Str) : Option (Rat × PriceType) :=
  if unit = ccy then some (1, PriceType.exact)
  else
    match b.find (unit, ccy) with
    | some v => v.getPrice date
    | Option.none =>
      match b.find (ccy, unit) with
      | some v =>
        match v.getPrice date with
        | some (r, pt) => if r = 0 then Option.none else some (r⁻¹, pt)
        | Option.none => Option.none
      | Option.none => some (1, PriceType.none)

/-- price.go:206-220 `merge`. -/
def PriceType.merge (p m : PriceType) : PriceType :=
  if p = .none ∨ m = .none then .none
  else if p = .outOfRange ∨ m = .outOfRange then .outOfRange
  else if p = .inferred ∨ m = .inferred then .inferred
  else if p = .exact ∨ m = .exact then .exact
  else .trade

end Verif
