import Verif.Model.Builder

/-! # The register: /repo/book/registry.go, `InferRate` and `InferRates` of
/repo/book/transaction.go, `ShowReport` of /repo/cmd/register/show_register.go -/

namespace Verif

/-- `big.Rat.Sign`. -/
def ratSign (r : Rat) : Int := if r < 0 then -1 else if r = 0 then 0 else 1

/-- `big.Rat.Quo`: panics (`none`) on division by zero. -/
def ratQuo (a b : Rat) : Option Rat := if b = 0 then none else some (a / b)

/-- transaction.go:56-91: the loop of `InferRate`; `last` is `lastAccount`.  Outer `none` = panic
(index out of range, or `Quo` by zero) or out of fuel; inner `none` = nil. -/
def inferLoop (t : Txn) (base unit : Str) : Nat → Int → Nat → Option (Option Rat)
  | 0, _, _ => none
  | f + 1, last, i =>
    -- the part of the loop body after the check, lines 77-88
    let next : Unit → Option (Option Rat) := fun _ =>
      if i = t.length then some none
      else
        match t[i]? with
        | none => none
        | some ti =>
          if last = -1 then inferLoop t base unit f i (i + 1)
          else
            match t[last.toNat]? with
            | none => none
            | some tl => inferLoop t base unit f (if tl.acct ≠ ti.acct then (i : Int) else last) (i + 1)
    -- lines 62-75
    if (i : Int) - last = 2 then
      match (if 1 ≤ i then t[i - 1]? else none), (if 2 ≤ i then t[i - 2]? else none) with
      | some a, some b =>
        if ratSign a.val + ratSign b.val = 0 then
          if a.ccy = base ∧ b.ccy = unit then (ratQuo a.val b.val).map fun r => some (-r)
          else if a.ccy = unit ∧ b.ccy = base then (ratQuo b.val a.val).map fun r => some (-r)
          else next ()
        else next ()
      | _, _ => none
    else next ()

/-- transaction.go:55-94 `InferRate`. -/
def inferRate (t : Txn) (base unit : Str) : Option (Option Rat) := inferLoop t base unit (t.length + 1) (-1) 0

/-- registry.go:11-29 `RegistryEntry`. -/
structure RegEntry where
  date : Int
  account : Str
  payee : Str
  counterAccount : Str
  amount : Rat
  ccy : Str
  balance : Rat
  note : Str
  tnote : Str
  baseCCY : Str
  baseAmount : Rat
  baseSource : PriceType
  baseBalance : Rat
deriving DecidableEq

/-- registry.go:79-92: the counter-postings of `p`. -/
def counterPosts (t : Txn) (p : Posting) : List Posting :=
  t.filter fun tp => decide (tp.acct ≠ p.acct) && decide (ratSign tp.val ≠ ratSign p.val) && decide (tp.ccy = p.ccy)

/-- `strings.Join`. -/
def joinStr (sep : Str) : List Str → Str
  | [] => []
  | [s] => s
  | s :: ss => s ++ sep ++ joinStr sep ss

/-- registry.go:75-111: the (counter-account, amount) pairs of a posting; `none` = panic
(`Inv` of zero, line 104). -/
def regAllocs (t : Txn) (p : Posting) (split : Bool) : Option (List (Str × Rat)) :=
  let cs := counterPosts t p
  let sumamt := (cs.map (·.val)).sum
  if cs.length > 1 && !split then some [(joinStr b!";" (cs.map (·.acct)), p.val)]
  else if sumamt = 0 then none
  else some (cs.map fun tp => (tp.acct, tp.val * p.val * sumamt⁻¹))

/-- registry.go:61-62: the totals carried along. -/
structure RegState where
  bals : List (Str × Rat)
  baseBal : Rat

/-- registry.go:127-137: base amount and source of one row; `none` = panic. -/
def regBase (prices : PriceBook) (base : Str) (t : Txn) (date : Int) (p : Posting) (amt : Rat) : Option (Rat × PriceType) :=
  if p.ccy = base then some (amt, .exact)
  else
    match inferRate t base p.ccy with
    | none => none
    | some (some r) => some (r * amt, .trade)
    | some none =>
      match prices.getPrice date base p.ccy with
      | none => none
      | some (r, src) => some (r * amt, src)

/-- registry.go:113-155: the rows of one posting (the balance entry of the currency, created at
lines 114-118, is created by the first addition here). -/
def regRows (prices : PriceBook) (base : Str) (t : Txn) (date : Int) (payee : Str) (p : Posting) :
    List (Str × Rat) → RegState → Option (RegState × List RegEntry)
  | [], s => some (s, [])
  | (v, amt) :: as, s =>
    let bals := amtAdd s.bals p.ccy amt
    let bal := (amtFind bals p.ccy).getD 0
    match regBase prices base t date p amt with
    | none => none
    | some (baseAmt, src) =>
      let s' : RegState := ⟨bals, s.baseBal + baseAmt⟩
      match regRows prices base t date payee p as s' with
      | none => none
      | some (s'', rows) =>
        some (s'', ⟨date, p.acct, payee, v, amt, p.ccy, bal, p.note, p.tnote, base, baseAmt, src, s.baseBal + baseAmt⟩ :: rows)

/-- registry.go:68-156: the postings of one transaction (`all` is the whole transaction). -/
def regTxn (prices : PriceBook) (base : Str) (mat : Str → Bool) (split : Bool) (all : Txn) :
    List Posting → RegState → Option (RegState × List RegEntry)
  | [], s => some (s, [])
  | p :: ps, s =>
    if mat p.acct then
      match all, regAllocs all p split with
      | f :: _, some as =>
        match regRows prices base all f.date f.payee p as s with
        | none => none
        | some (s', rows) =>
          match regTxn prices base mat split all ps s' with
          | none => none
          | some (s'', rows') => some (s'', rows ++ rows')
      | _, _ => none
    else regTxn prices base mat split all ps s

/-- registry.go:66-157: all transactions. -/
def regAll (prices : PriceBook) (base : Str) (mat : Str → Bool) (split : Bool) :
    List Txn → RegState → Option (RegState × List RegEntry)
  | [], s => some (s, [])
  | t :: ts, s =>
    match regTxn prices base mat split t t s with
    | none => none
    | some (s', rows) =>
      match regAll prices base mat split ts s' with
      | none => none
      | some (s'', rows') => some (s'', rows ++ rows')

/-- registry.go:58-160 `ExtractRegister`; `none` = panic. -/
def Book.extractRegister (b : Book) (srt : List Posting → List Posting) (base : Str) (mat : Str → Bool) (split : Bool) :
    Option (List RegEntry) :=
  (regAll b.prices base mat split (b.transactions srt) ⟨[], 0⟩).map (·.2)

/-- registry.go:38-48: the loop of `FilterByDate`: start and end index (`startIdx` `none` = -1). -/
def fbdLoop (mn mx : Int) : List RegEntry → Nat → Option Nat → Nat → Option Nat × Nat
  | [], _, start, stop => (start, stop)
  | r :: rs, i, start, stop =>
    let start' := if start = none ∧ (mn = 0 ∨ r.date ≥ mn) then some i else start
    if mx ≠ 0 ∧ r.date ≥ mx then (start', i)
    else fbdLoop mn mx rs (i + 1) start' stop

/-- registry.go:30-56 `FilterByDate`, after the parsing of the dates; `none` = slice panic. -/
def filterByDate (mn mx : Int) (rep : List RegEntry) : Option (List RegEntry) :=
  if mn = 0 ∧ mx = 0 then some rep
  else
    match fbdLoop mn mx rep 0 none rep.length with
    | (none, _) => some []
    | (some i, j) => if i ≤ j then some ((rep.drop i).take (j - i)) else none

/-- registry.go:30-56 `FilterByDate`. -/
def filterByDateStr (today : Int) (mindate maxdate : Str) (rep : List RegEntry) : Option (List RegEntry) :=
  filterByDate (dateFromString today mindate) (dateFromString today maxdate) rep

/-- show_register.go:18-26: the count restriction. -/
def countRows (count : Int) (rep : List RegEntry) : List RegEntry :=
  let rep := if count > 0 ∧ (rep.length : Int) > count then rep.take count.toNat else rep
  if count < 0 ∧ (rep.length : Int) > -1 * count then rep.drop ((rep.length : Int) + count).toNat else rep

/-- show_register.go:28-35: the reversal; `none` entries are nil pointers. -/
def orderRows (asc : Bool) (rep : List RegEntry) : List (Option RegEntry) :=
  if asc then rep.map some
  else
    (List.range rep.length).map fun j =>
      -- ndata[len-i-1] = report[i] for i < len/2
      if rep.length - j - 1 < rep.length / 2 then rep[rep.length - j - 1]? else none

/-- show_register.go:15-36: the rows handed to the printer (text and CSV dereference them, so a
nil entry is a crash). -/
def showRows (count : Int) (asc : Bool) (rep : List RegEntry) : List (Option RegEntry) :=
  orderRows asc (countRows count rep)

/-- transaction.go:23-53: the loop of `InferRates`, with fuel: there is no exit from the loop.
`none` = out of fuel; `some ()` = it ended by a panic (`Quo` by zero, or index out of range). -/
def inferRatesLoop (t : Txn) (base : Str) : Nat → Nat → Nat → Option Unit
  | 0, _, _ => none
  | f + 1, last, i =>
    if i < t.length ∧ (t[last]?).map (·.acct) = (t[i]?).map (·.acct) then inferRatesLoop t base f last (i + 1)
    else if i - last = 2 then
      match t[i - 1]?, t[i - 2]? with
      | some a, some b =>
        if a.ccy = base then (if b.val = 0 then some () else inferRatesLoop t base f i (i + 1))
        else if b.ccy = base then (if a.val = 0 then some () else inferRatesLoop t base f i (i + 1))
        else inferRatesLoop t base f i (i + 1)
      | _, _ => some ()
    else inferRatesLoop t base f i (i + 1)

end Verif
