import Verif.Model.Loader

/-! # Errors of the ledger loader, with their places: /repo/loader/lexer.go, /repo/loader/parser.go

The loader once more, function by function as in `Model/Loader.lean`, with what is lost there: the row and the column at which `rr.stop`
was called, the messages, and the wrapping of a panic as an error of `ParseFile`.  (`Proofs/LoaderErr.lean` proves that the two models
read the same.)  A parser changes the unread runes and may end by a panic. -/

namespace Verif

/-- A panic while a file is read: `rr.stop` with `s` still unread (its head is `rr.ch`), or another panic. -/
inductive Fault
  | stop (s : Reader) (msg : Str)
  | panic (msg : Str)

/-- What a method of the reader does. -/
abbrev P (α : Type) := StateT Reader (Except Fault) α

/-- `rr.ch` -/
def P.ch : P Nat := do return (← get).ch

/-- lexer.go:34-38 `stop`; the place is added in `Fault.text`. -/
def P.stop {α : Type} (msg : Str) : P α := do throw (.stop (← get) msg)

/-- A panic that is not `rr.stop`. -/
def P.panic {α : Type} (msg : Str) : P α := throw (.panic msg)

/-- lexer.go:91-99 `consumeWS` -/
def P.ws : P Unit := modify consumeWS

/-- The loops `for p(rr.ch) { buf.WriteRune(rr.ch); rr.next() }`. -/
def P.span (p : Nat → Bool) : P Str := do
  let s ← get
  set (s.dropWhile p)
  return s.takeWhile p

/-- `if q(rr.ch) { rr.next() }`, and whether it was so. -/
def P.skip (q : Nat → Bool) : P Bool := do
  let s ← get
  if q s.ch then
    set s.next
    return true
  return false

/-- `expected '%c', got '%c'` -/
def expectedGot (e c : Nat) : Str := b!"expected '" ++ [e] ++ b!"', got '" ++ [c] ++ b!"'"

/-- lexer.go:101-106 `consume`; parser.go:172-175. -/
def P.consume (e : Nat) : P Unit := do
  if !(← P.skip (· == e)) then P.stop (expectedGot e (← P.ch))

/-- lexer.go:56-69 `parseNumber`. -/
def P.number (min max : Nat) : P Int := do
  let ds ← P.span isDigit
  if ds.length < min ∨ ds.length > max then
    P.stop (b!"expected number digit length of min:max of " ++ natDec min ++ b!":" ++ natDec max ++ b!", found " ++ natDec ds.length ++ b!" digits")
  else return (digitsVal ds : Int)

/-- lexer.go:71-79 `parseDate`, lexer.go:81-89 `parseTime`: three numbers with a separator. -/
def P.triple (w sep : Nat) : P Int := do
  let a ← P.number 1 w
  P.consume sep
  let b ← P.number 1 2
  P.consume sep
  let c ← P.number 1 2
  return (a * 100 + b) * 100 + c

/-- lexer.go:125-137 `parseQuotedString`. -/
def P.quoted : P Str := do
  P.consume 34
  let s ← P.span fun c => inLine c && c != 34
  P.consume 34
  return s

/-- lexer.go:148-174: the loop of `parseAmt`. -/
def P.digits : P (Int × Int) := do
  let s ← get
  set (amtLoop false 0 1 s).2.2
  return ((amtLoop false 0 1 s).1, (amtLoop false 0 1 s).2.1)

/-- lexer.go:139-179 `parseAmt`; the panic is that of `big.NewRat`. -/
def P.amt : P Rat := do
  P.ws
  let neg ← P.skip (· == 45)
  let r ← P.digits
  match newRat (if neg then wrap64 (r.1 * -1) else r.1) r.2 with
  | some v => return v
  | none => P.panic b!"division by zero"

/-- parser.go:33-46 `parsePayee`. -/
def P.payee : P Str := do
  P.ws
  if (← P.ch) = 34 then return trimSpace (← P.quoted)
  else return trimSpace (← P.span fun c => inLine c && c != 59)

/-- parser.go:48-63 `parseNote`. -/
def P.note : P Str := do
  P.ws
  if ← P.skip (· == 59) then
    P.ws
    P.span inLine
  else return []

/-- parser.go:65-73 `parseTransaction`, up to the end of the line. -/
def P.transaction : P (Int × Str × Str) := do
  let date ← P.triple 4 47
  P.ws
  if ← P.skip (· == 42) then P.ws
  let payee ← P.payee
  let note ← P.note
  return (date, payee, note)

/-- parser.go:80-90 `parseToEOL`. -/
def P.toEOL : P Str := do
  P.ws
  P.span inLine

/-- parser.go:92-119 `parseAccount`. -/
def P.account : P Str := do
  P.ws
  let _ ← P.skip fun c => c == 33 || c == 91
  let a ← P.span isAcctRune
  let _ ← P.skip (· == 93)
  return a

/-- parser.go:144-158 `parseCCY`. -/
def P.ccy : P Str := do
  P.ws
  if (← P.ch) = 34 then P.quoted else P.span isCCYRune

/-- parser.go:132-142 `parseCCYAmt`. -/
def P.ccyAmt : P (Str × Rat) := do
  let c ← P.ch
  if c = 34 ∨ isCCYRune c = true then
    let ccy ← P.ccy
    let amt ← P.amt
    return (ccy, amt)
  else
    let amt ← P.amt
    let ccy ← P.ccy
    return (ccy, amt)

/-- parser.go:171-185 `parsePrice`, up to the end of the line. -/
def P.price : P (Int × Str × Str × Rat) := do
  P.consume 80
  P.ws
  let date ← P.triple 4 47
  P.ws
  let _ ← P.triple 2 58
  let unit ← P.ccy
  P.ws
  let r ← P.ccyAmt
  return (date, unit, r.1, r.2)

/-- parser.go:298-321 `parsePosting`, up to the end of the line: account as written, currency, amount, note. -/
def P.posting : P (Str × Str × Rat × Str) := do
  P.ws
  let acct ← P.account
  P.ws
  let neg ← P.skip (· == 45)
  let r ← P.ccyAmt
  P.ws
  if ← P.skip (· == 64) then
    P.ws
    let _ ← P.ccyAmt
  let note ← P.note
  return (acct, r.1, if neg then -r.2 else r.2, note)

/-- lexer.go:40-54 `parseIdentifier`. -/
def P.identifier (e : Env) : P Str := do
  P.ws
  let s ← P.span e.isIdent
  P.ws
  return s.map e.upper

/-- parser.go:270-283: an alias command, after the keyword. -/
def P.alias' : P (Str × Str) := do
  let short ← P.account
  P.ws
  if ← P.skip (· == 61) then
    P.ws
    let long ← P.account
    P.ws
    if long = [] then P.stop b!"expected account for alias, got empty account"
    else
      let _ ← P.toEOL
      return (short, long)
  else P.stop (b!"expected '=' after alias, got '" ++ [← P.ch] ++ b!"'")

/-- parser.go:261-264: strip the quotes of an include file name; the panics are those of the Go runtime. -/
def P.unquote (f : Str) : P Str :=
  match f with
  | [] => P.panic b!"runtime error: index out of range [0] with length 0"
  | c :: r =>
    if c = 34 ∧ f.getLast? = some 34 then
      match r with
      | [] => P.panic b!"runtime error: slice bounds out of range [1:0]"
      | _ => pure r.dropLast
    else pure f

/-- What a line that begins with a word says: another file, or an alias. -/
inductive Command
  | incl (file : Str)
  | short (kv : Str × Str)

/-- parser.go:256-287: a line that begins with a word. -/
def P.command (e : Env) : P Command := do
  let command ← P.identifier e
  if command = b!"INCLUDE" then
    let f ← P.toEOL
    return .incl (← P.unquote f)
  else if command = b!"ALIAS" then return .short (← P.alias')
  else P.stop b!"expected include or alias"

/-- `big.Rat.String`: numerator, slash, denominator. -/
def ratString (r : Rat) : Str := intDec r.num ++ 47 :: natDec r.den

/-- builder.go:69-78: the panic of `checkAndClearTransaction`; `ord` are the entries of the map in the order in which they are visited. -/
def unbalancedMsg (ord : List (Str × Rat)) (b : Builder) : Str :=
  match ord.find? fun kv => decide (kv.2 ≠ 0) with
  | none => []
  | some kv => b!"In transaction (" ++ intDec b.currDate ++ 32 :: b.currPayee ++ b!") ccy " ++ kv.1 ++ b!" has balance of " ++ ratString kv.2 ++ b!"!"

/-- What one round of the loop parser.go:225-292 does. -/
inductive RStep
  | go (b : Builder) (als : Aliases) (s : Reader)
  | incl (file : Str) (s : Reader)
  | fault (f : Fault)

/-- parser.go:228-292: one round of the loop of `parseFileLocal`. -/
def readStep (e : Env) (b : Builder) (als : Aliases) (s0 : Reader) : RStep :=
  let s := consumeWS s0
  if s.ch = 59 ∨ s.ch = 10 ∨ s.ch = 0 then .go b als (skipLine s)
  else if s.length = s0.length then
    if s.ch = 61 ∨ s.ch = 68 then .go b als (skipLine s)
    else if s.ch = 80 then
      match P.price.run s with
      | .error f => .fault f
      | .ok (x, s) => .go (b.addPrice x.1 x.2.1 x.2.2.1 x.2.2.2) als (skipEOL s)
    else if isDigit s.ch then
      match P.transaction.run s with
      | .error f => .fault f
      | .ok (x, s) =>
        match b.newTransaction x.1 x.2.1 x.2.2 with
        | none => .fault (.panic (unbalancedMsg (e.ord b) b))
        | some b => .go b als (skipEOL s)
    else
      match (P.command e).run s with
      | .error f => .fault f
      | .ok (.incl f, s) => .incl f s
      | .ok (.short kv, s) => .go b (kv :: als) s
  else
    match P.posting.run s with
    | .error f => .fault f
    | .ok (x, s) => .go (postingEffect e.ord (als.resolve x.1, x.2) b) als (skipEOL s)

/-- How `ParseFile` ends: `err` with the text of the error. -/
inductive ReadEnd
  | ok (b : Builder) (als : Aliases)
  | err (msg : Str)
  | fatal
  | running

/-- How the loop of `parseFileLocal` ends: `fault` is a panic in this file, `err` the error of an included one (parser.go:266-268). -/
inductive LoopEnd
  | ok (b : Builder) (als : Aliases)
  | fault (f : Fault)
  | err (msg : Str)
  | fatal
  | running

/-- parser.go:225-295: the loop of `parseFileLocal`, given what including a file does. -/
def readLoop (e : Env) (filename : Str) (inc : Builder → Aliases → Str → ReadEnd) : Nat → Builder → Aliases → Reader → LoopEnd
  | 0, _, _, _ => .running
  | f + 1, b, als, s =>
    if s.ch = 0 then .ok b als
    else
      match readStep e b als s with
      | .fault x => .fault x
      | .go b als s => readLoop e filename inc f b als s
      | .incl file s =>
        match inc b als (e.join filename file) with
        | .ok b _ => readLoop e filename inc f b als s
        | .err m => .err m
        | .fatal => .fatal
        | .running => .running

/-- lexer.go:24-32, 108-123: row and column when `s` is unread: `next` has been called once for every rune before `s` and once for its
head (or the end of the file); a line end begins a new row. -/
def placeOf (content s : Reader) : Nat × Nat :=
  let seen := if s.length = 0 then content ++ [0] else content.take (content.length - s.length + 1)
  (1 + seen.count 10, (seen.reverse.takeWhile (· != 10)).length)

/-- lexer.go:34-38: what is panicked with. -/
def Fault.text (content : Reader) : Fault → Str
  | .stop s msg => natDec (placeOf content s).1 ++ b!":" ++ natDec (placeOf content s).2 ++ b!": " ++ msg
  | .panic msg => msg

/-- parser.go:210-214: a panic as an error. -/
def parsingFailure (filename msg : Str) : Str := b!"parsing failure: " ++ filename ++ b!": " ++ msg

/-- parser.go:210-214, 294: the end of the loop as the end of `parseFileLocal`. -/
def LoopEnd.close (filename content : Str) : LoopEnd → ReadEnd
  | .ok b als => .ok b als
  | .fault f => .err (parsingFailure filename (f.text content))
  | .err m => .err m
  | .fatal => .fatal
  | .running => .running

/-- parser.go:201-295 `parseFileLocal`. -/
def readLedger (e : Env) : Nat → Builder → Aliases → Str → ReadEnd
  | 0, _, _, _ => .running
  | depth + 1, b, als, filename =>
    match e.files filename with
    | none => .fatal
    | some content => (readLoop e filename (readLedger e depth) (content.length + 1) b als content).close filename content

end Verif
