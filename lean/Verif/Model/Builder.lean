import Verif.Model.Book

/-! # The book builder: /repo/book/builder.go -/

namespace Verif

/-- Go map lookup of `map[string]*big.Rat`, as an association list with distinct keys. -/
def amtFind (m : List (Str × Rat)) (c : Str) : Option Rat :=
  match m with
  | [] => none
  | (k, v) :: m => if k = c then some v else amtFind m c

/-- builder.go:118-126: add `amt` to the entry of `c`, creating it if missing. -/
def amtAdd (m : List (Str × Rat)) (c : Str) (amt : Rat) : List (Str × Rat) :=
  match m with
  | [] => [(c, amt)]
  | (k, v) :: m => if k = c then (k, v + amt) :: m else (k, v) :: amtAdd m c amt

/-- builder.go:8-16 `type Builder struct`.  `prevTrans` is the key set of the map. -/
structure Builder where
  post : List Posting
  prevTrans : List Str
  currAmts : List (Str × Rat)
  currDate : Int
  currPayee : Str
  currNote : Str
  prices : PriceBook

/-- builder.go:57-67 `NewBookBuilder`. -/
def Builder.new : Builder := ⟨[], [], [], -1, [], [], []⟩

/-- builder.go:69-78 `checkAndClearTransaction`; `none` = panic.  (The map is iterated in an
unspecified order; the outcome does not depend on it.) -/
def Builder.checkAndClear (b : Builder) : Option Builder :=
  if b.currAmts.all (fun kv => decide (kv.2 = 0)) then
    some { b with currAmts := b.currAmts.map fun kv => (kv.1, 0) }
  else none

/-- builder.go:92, 102: `fmt.Sprintf("%d %s", date, payee)`. -/
def txnKey (date : Int) (payee : Str) : Str := intDec date ++ 32 :: payee

/-- builder.go:101: `fmt.Sprintf("%s (%d)", payee, idx)`. -/
def numbered (payee : Str) (idx : Nat) : Str := payee ++ b!" (" ++ natDec idx ++ b!")"

/-- builder.go:91-103: the renaming loop.  `cur` is `b.currPayee`.  `none` = out of fuel. -/
def renameLoop (prev : List Str) (date : Int) (payee : Str) : Nat → Nat → Str → Option Str
  | 0, _, _ => none
  | f + 1, idx, cur =>
    if txnKey date cur ∈ prev then
      renameLoop prev date payee f (idx + 1) (numbered payee (idx + 1))
    else some cur

/-- builder.go:80-105 `NewTransaction`; `none` = panic.  The loop gets one more round than
there are keys in use (that this is always enough is proved in C02). -/
def Builder.newTransaction (b : Builder) (date : Int) (payee note : Str) : Option Builder :=
  match b.checkAndClear with
  | none => none
  | some b =>
    match renameLoop b.prevTrans date payee (b.prevTrans.length + 1) 1 payee with
    | none => none
    | some py =>
      some { b with currDate := date, currPayee := py, currNote := note,
                    prevTrans := txnKey date py :: b.prevTrans }

/-- builder.go:107-127 `AddPosting`. -/
def Builder.addPosting (b : Builder) (acct ccy : Str) (amt : Rat) (note : Str) : Builder :=
  { b with
    post := b.post ++ [⟨b.currDate, b.currPayee, b.currNote, acct, ccy, amt, note, 0, 0, [], []⟩]
    currAmts := amtAdd b.currAmts ccy amt }

/-- builder.go:129-131 `GetLastCCYBals`. -/
def Builder.getLastCCYBals (b : Builder) : List (Str × Rat) := b.currAmts

/-- builder.go:133-135 `AddPrice`. -/
def Builder.addPrice (b : Builder) (date : Int) (unit ccy : Str) (val : Rat) : Builder :=
  { b with prices := b.prices.addPrice date unit ccy val }

/-- builder.go:22-28: the largest (reduced) denominator per currency. -/
def maxDen (m : List (Str × Nat)) (c : Str) (den : Nat) : List (Str × Nat) :=
  match m with
  | [] => [(c, den)]
  | (k, v) :: m => if k = c then (k, if v < den then den else v) :: m else (k, v) :: maxDen m c den

/-- builder.go:33-41: `p := 1; c := 0; for p < v { p *= 10; c++ }`, with fuel. -/
def decLoop (v : Nat) : Nat → Nat → Nat → Nat
  | 0, _, c => c
  | f + 1, p, c => if p < v then decLoop v f (p * 10) (c + 1) else c

/-- builder.go:30-43: number of decimals of one currency (`v` rounds are ample). -/
def decimals (v : Nat) : Nat := decLoop v v 1 0

/-- builder.go:21-43: the decimals of all currencies. -/
def ccyDecimals (l : List Posting) : List (Str × Nat) :=
  (l.foldl (fun m p => maxDen m p.ccy p.val.den) []).map fun kv => (kv.1, decimals kv.2)

/-- builder.go:18-55 `Build`; `none` = panic. -/
def Builder.build (srt : List Posting → List Posting) (b : Builder) : Option Book :=
  match b.checkAndClear with
  | none => none
  | some b =>
    some (Book.compact srt
      { post := b.post, trans := List.replicate b.post.length [], prices := b.prices.build,
        ccy := ccyDecimals b.post })

/-- A call on the builder. -/
inductive Call
  | newTransaction (date : Int) (payee note : Str)
  | addPosting (acct ccy : Str) (amt : Rat) (note : Str)
  | addPrice (date : Int) (unit ccy : Str) (val : Rat)

/-- One call; `none` = panic. -/
def Builder.call (b : Builder) : Call → Option Builder
  | .newTransaction d p n => b.newTransaction d p n
  | .addPosting a c v n => some (b.addPosting a c v n)
  | .addPrice d u c v => some (b.addPrice d u c v)

/-- A sequence of calls; `none` = some call panicked. -/
def Builder.calls (b : Builder) : List Call → Option Builder
  | [] => some b
  | c :: cs =>
    match b.call c with
    | none => none
    | some b => b.calls cs

end Verif
