import Verif.Model.Builder
import Verif.Model.Date

/-! # The ledger loader: /repo/loader/lexer.go, /repo/loader/parser.go, /repo/cmd/app/app.go:59-66

A reader is the list of runes not yet consumed: its head is `rr.ch`, the empty list is the end
of the file.  Go represents the end of the file by rune 0, so a NUL in the file looks like the
end; nothing in the code moves past it, as every `rr.next()` follows a test for another rune.
Runes are code points: the UTF-8 decoding of `bufio.Reader.ReadRune` is not modelled.
`rr.stop` and every other panic is `none` here; the positions and messages are in `Model/LoaderErr.lean`. -/

namespace Verif

/-- The unread runes. -/
abbrev Reader := List Nat

/-- The current rune `rr.ch`; 0 (`eof`, lexer.go:21) at the end. -/
def Reader.ch (s : Reader) : Nat := s.headD 0

/-- lexer.go:108-123 `next`. -/
def Reader.next (s : Reader) : Reader := s.tail

/-- `unicode.IsSpace`: '\t', '\n', '\v', '\f', '\r', ' ', U+0085, U+00A0 and the other
runes with the White_Space property. -/
def isSpace (c : Nat) : Bool :=
  decide (9 ≤ c ∧ c ≤ 13) || c == 32 || c == 0x85 || c == 0xA0 || c == 0x1680 ||
  decide (0x2000 ≤ c ∧ c ≤ 0x200A) || c == 0x2028 || c == 0x2029 || c == 0x202F ||
  c == 0x205F || c == 0x3000

/-- lexer.go:94: white space other than the end of the line. -/
def isBlank (c : Nat) : Bool := isSpace c && c != 10

/-- lexer.go:91-99 `consumeWS`, without the count. -/
def consumeWS (s : Reader) : Reader := s.dropWhile isBlank

/-- lexer.go:101-106 `consume`. -/
def consumeRune (e : Nat) (s : Reader) : Option Reader :=
  match s with
  | [] => none
  | c :: s => if c = e then some s else none

/-- lexer.go:56-69 `parseNumber`.  (The number is an `int`; at most `max` ≤ 4 digits are
accepted, so it cannot overflow on acceptance.) -/
def parseNumber (min max : Nat) (s : Reader) : Option (Int × Reader) :=
  let ds := s.takeWhile isDigit
  if ds.length < min ∨ ds.length > max then none
  else some ((digitsVal ds : Int), s.dropWhile isDigit)

/-- The common shape of lexer.go:71-79 `parseDate` and lexer.go:81-89 `parseTime`: three numbers
with a separator. -/
def parseTriple (w sep : Nat) (s : Reader) : Option (Int × Reader) :=
  match parseNumber 1 w s with
  | none => none
  | some (a, s) =>
  match consumeRune sep s with
  | none => none
  | some s =>
  match parseNumber 1 2 s with
  | none => none
  | some (b, s) =>
  match consumeRune sep s with
  | none => none
  | some s =>
  match parseNumber 1 2 s with
  | none => none
  | some (c, s) => some ((a * 100 + b) * 100 + c, s)

/-- lexer.go:71-79 `parseDate`. -/
def parseDate (s : Reader) : Option (Int × Reader) := parseTriple 4 47 s

/-- lexer.go:81-89 `parseTime`. -/
def parseTime (s : Reader) : Option (Int × Reader) := parseTriple 2 58 s

/-- lexer.go:129, parser.go:41, 58 …: neither end of file nor end of line. -/
def inLine (c : Nat) : Bool := c != 0 && c != 10

/-- lexer.go:125-137 `parseQuotedString`. -/
def parseQuotedString (s : Reader) : Option (Str × Reader) :=
  match consumeRune 34 s with
  | none => none
  | some s =>
    let p := fun c => inLine c && c != 34
    match consumeRune 34 (s.dropWhile p) with
    | none => none
    | some s' => some (s.takeWhile p, s')

/-- Go `int64` arithmetic wraps around. -/
def wrap64 (x : Int) : Int := (x + 2 ^ 63) % 2 ^ 64 - 2 ^ 63

/-- lexer.go:148-174: the loop of `parseAmt`; `num`, `mag` are `int64`. -/
def amtLoop (isDec : Bool) (num mag : Int) : Reader → Int × Int × Reader
  | [] => (num, mag, [])
  | c :: s =>
    if isDigit c then
      amtLoop isDec (wrap64 (wrap64 (num * 10) + (c - 48 : Nat)))
        (if isDec then wrap64 (mag * 10) else mag) s
    else if !isDec && c == 46 then amtLoop true num mag s
    else if c == 44 then amtLoop isDec num mag s
    else (num, mag, c :: s)

/-- lexer.go:142-146, parser.go:305-309: an optional minus sign. -/
def optMinus (s : Reader) : Bool × Reader := if s.ch = 45 then (true, s.next) else (false, s)

/-- lexer.go:139-179 `parseAmt`; `big.NewRat(num, 0)` panics. -/
def parseAmt (s : Reader) : Option (Rat × Reader) :=
  let m := optMinus (consumeWS s)
  let r := amtLoop false 0 1 m.2
  (newRat (if m.1 then wrap64 (r.1 * -1) else r.1) r.2.1).map fun v => (v, r.2.2)

/-- `strings.TrimSpace`. -/
def trimSpace (s : Str) : Str := ((s.dropWhile isSpace).reverse.dropWhile isSpace).reverse

/-- parser.go:33-46 `parsePayee`. -/
def parsePayee (s : Reader) : Option (Str × Reader) :=
  let s := consumeWS s
  if s.ch = 34 then
    (parseQuotedString s).map fun y => (trimSpace y.1, y.2)
  else
    let p := fun c => inLine c && c != 59
    some (trimSpace (s.takeWhile p), s.dropWhile p)

/-- parser.go:48-63 `parseNote`. -/
def parseNote (s : Reader) : Str × Reader :=
  let s := consumeWS s
  if s.ch ≠ 59 then ([], s)
  else
    let s := consumeWS s.next
    (s.takeWhile inLine, s.dropWhile inLine)

/-- parser.go:74-76 and elsewhere: `if rr.ch == eol { rr.next() }`. -/
def skipEOL (s : Reader) : Reader := if s.ch = 10 then s.next else s

/-- parser.go:65-78 `parseTransaction`. -/
def parseTransaction (s : Reader) : Option ((Int × Str × Str) × Reader) :=
  match parseDate s with
  | none => none
  | some (date, s) =>
    let s := consumeWS s
    let s := if s.ch = 42 then consumeWS s.next else s
    match parsePayee s with
    | none => none
    | some (payee, s) =>
      let (note, s) := parseNote s
      some ((date, payee, note), skipEOL s)

/-- parser.go:80-90 `parseToEOL`. -/
def parseToEOL (s : Reader) : Str × Reader :=
  let s := consumeWS s
  (s.takeWhile inLine, s.dropWhile inLine)

/-- parser.go:99-104: runes of an account name. -/
def isAcctRune (c : Nat) : Bool :=
  decide (97 ≤ c ∧ c ≤ 122) || decide (65 ≤ c ∧ c ≤ 90) || c == 38 || c == 39 || isDigit c ||
  c == 58 || c == 95

/-- parser.go:92-119 `parseAccount`.  (The second loop, parser.go:109-114, accepts fewer
runes than the first, so it does nothing.) -/
def parseAccount (s : Reader) : Str × Reader :=
  let s := consumeWS s
  let s : Reader := if s.ch = 33 ∨ s.ch = 91 then s.next else s
  let a := s.takeWhile isAcctRune
  let s : Reader := s.dropWhile isAcctRune
  (a, if s.ch = 93 then s.next else s)

/-- parser.go:121-130 `IsCCYRune`. -/
def isCCYRune (c : Nat) : Bool :=
  c != 0 && c != 59 && c != 64 && c != 10 && !isSpace c && c != 45 && c != 46 && !isDigit c

/-- parser.go:144-158 `parseCCY`. -/
def parseCCY (s : Reader) : Option (Str × Reader) :=
  let s := consumeWS s
  if s.ch = 34 then parseQuotedString s
  else some (s.takeWhile isCCYRune, s.dropWhile isCCYRune)

/-- parser.go:132-142 `parseCCYAmt`. -/
def parseCCYAmt (s : Reader) : Option ((Str × Rat) × Reader) :=
  if s.ch = 34 ∨ isCCYRune s.ch = true then
    match parseCCY s with
    | none => none
    | some (ccy, s) =>
      match parseAmt s with
      | none => none
      | some (amt, s) => some ((ccy, amt), s)
  else
    match parseAmt s with
    | none => none
    | some (amt, s) =>
      match parseCCY s with
      | none => none
      | some (ccy, s) => some ((ccy, amt), s)

/-- parser.go:160-169 `skipLine`. -/
def skipLine (s : Reader) : Reader := skipEOL (s.dropWhile inLine)

/-- parser.go:171-189 `parsePrice`: date, unit, currency, amount. -/
def parsePrice (s : Reader) : Option ((Int × Str × Str × Rat) × Reader) :=
  match consumeRune 80 s with
  | none => none
  | some s =>
  match parseDate (consumeWS s) with
  | none => none
  | some (date, s) =>
  match parseTime (consumeWS s) with
  | none => none
  | some (_, s) =>
  match parseCCY s with
  | none => none
  | some (unit, s) =>
  match parseCCYAmt (consumeWS s) with
  | none => none
  | some ((ccy, amt), s) => some ((date, unit, ccy, amt), skipEOL s)

/-- The alias map; a later entry shadows an earlier one of the same name. -/
abbrev Aliases := List (Str × Str)

/-- parser.go:300-303: the account an alias stands for, or the account itself. -/
def Aliases.resolve (m : Aliases) (a : Str) : Str :=
  match m with
  | [] => a
  | (k, v) :: m => if k = a then v else Aliases.resolve m a

/-- parser.go:315-320: a price after an `@` is read and dropped. -/
def skipAtPrice (s : Reader) : Option Reader :=
  if s.ch = 64 then (parseCCYAmt (consumeWS s.next)).map (·.2) else some s

/-- parser.go:298-322: the text of a posting line: account (aliases resolved), currency,
amount, note.  The price after an `@` is read and dropped. -/
def parsePostingLine (als : Aliases) (s : Reader) : Option ((Str × Str × Rat × Str) × Reader) :=
  let (acct, s) := parseAccount (consumeWS s)
  let acct := als.resolve acct
  let m := optMinus (consumeWS s)
  match parseCCYAmt m.2 with
  | none => none
  | some ((ccy, dec), s) =>
    let dec := if m.1 then -dec else dec
    match skipAtPrice (consumeWS s) with
    | none => none
    | some s =>
      let (note, s) := parseNote s
      some ((acct, ccy, dec, note), skipEOL s)

/-- parser.go:324-333: the elided amount; `ord` are the entries of `GetLastCCYBals()` in the
order in which the range loop produces them.  (The loop adds to the very entry it is at, so
it sees every entry as it was before the loop.) -/
def addElided (acct note : Str) (ord : List (Str × Rat)) (b : Builder) : Builder :=
  ord.foldl (fun b kv => if kv.2 ≠ 0 then b.addPosting acct kv.1 (-kv.2) note else b) b

/-- parser.go:324-337: the effect of a posting line. -/
def postingEffect (ord : Builder → List (Str × Rat)) (l : Str × Str × Rat × Str) (b : Builder) : Builder :=
  if l.2.1 = [] then addElided l.1 l.2.2.2 (ord b) b
  else b.addPosting l.1 l.2.1 l.2.2.1 l.2.2.2

/-- What the loader depends on: the files (`none`: cannot be opened), `filepath.Join` of the
directory of the first and the second argument, `unicode.IsDigit || IsLetter`,
`unicode.ToUpper`, and the order in which the map of `GetLastCCYBals` is iterated (a function of
the builder, in which no two non-trivial iterations of a run agree). -/
structure Env where
  files : Str → Option (List Nat)
  join : Str → Str → Str
  letter : Nat → Bool
  upper : Nat → Nat
  ord : Builder → List (Str × Rat)

/-- The contract of the iteration: every entry exactly once. -/
def Env.Ok (e : Env) : Prop := ∀ b, (e.ord b).Perm b.getLastCCYBals

/-- lexer.go:44-46: runes of a command.  (Rune 0 is neither a letter nor a digit.) -/
def Env.isIdent (e : Env) (c : Nat) : Bool := c != 0 && (e.letter c || c == 95)

/-- lexer.go:40-54 `parseIdentifier`. -/
def parseIdentifier (e : Env) (s : Reader) : Str × Reader :=
  let s := consumeWS s
  ((s.takeWhile e.isIdent).map e.upper, consumeWS (s.dropWhile e.isIdent))

/-- How loading a file ends. -/
inductive Outcome
  /-- normally, with this builder and alias map -/
  | ok (b : Builder) (als : Aliases)
  /-- `ParseFile` returns an error -/
  | err
  /-- `log.Fatal` ends the process (a file cannot be opened) -/
  | fatal
  /-- still running when the fuel was used up -/
  | running

/-- parser.go:261-264: strip the quotes of an include file name; `none` = the panic of
`ifile[0]` on an empty name, or of the slice `[1:0]` on a name that is one quote. -/
def unquote (f : Str) : Option Str :=
  match f with
  | [] => none
  | c :: r =>
    if c = 34 ∧ f.getLast? = some 34 then
      match r with
      | [] => none
      | _ => some r.dropLast
    else some f

/-- parser.go:270-283: an alias command, after the keyword. -/
def parseAlias (s : Reader) : Option ((Str × Str) × Reader) :=
  let (short, s) := parseAccount s
  let s := consumeWS s
  match consumeRune 61 s with
  | none => none
  | some s =>
    let (long, s) := parseAccount (consumeWS s)
    let s := consumeWS s
    if long = [] then none else some ((short, long), (parseToEOL s).2)

/-- What one round of the loop parser.go:225-292 does. -/
inductive Step
  /-- go on -/
  | go (b : Builder) (als : Aliases) (s : Reader)
  /-- read another file, then go on -/
  | incl (file : Str) (s : Reader)
  /-- panic -/
  | stop

/-- parser.go:228-292: one round of the loop of `parseFileLocal`. -/
def parseStep (e : Env) (b : Builder) (als : Aliases) (s0 : Reader) : Step :=
  let s := consumeWS s0
  if s.ch = 59 ∨ s.ch = 10 ∨ s.ch = 0 then .go b als (skipLine s)
  else if s.length = s0.length then
    if s.ch = 61 ∨ s.ch = 68 then .go b als (skipLine s)
    else if s.ch = 80 then
      match parsePrice s with
      | none => .stop
      | some ((d, u, c, v), s) => .go (b.addPrice d u c v) als s
    else if isDigit s.ch then
      match parseTransaction s with
      | none => .stop
      | some ((d, p, n), s) =>
        match b.newTransaction d p n with
        | none => .stop
        | some b => .go b als s
    else
      let (command, s) := parseIdentifier e s
      if command = b!"INCLUDE" then
        match unquote (parseToEOL s).1 with
        | none => .stop
        | some f => .incl f (parseToEOL s).2
      else if command = b!"ALIAS" then
        match parseAlias s with
        | none => .stop
        | some (kv, s) => .go b (kv :: als) s
      else .stop
  else
    match parsePostingLine als s with
    | none => .stop
    | some (l, s) => .go (postingEffect e.ord l b) als s

/-- parser.go:225-295: the loop of `parseFileLocal`, given what including a file does. -/
def parseLoop (e : Env) (filename : Str) (inc : Builder → Aliases → Str → Outcome) :
    Nat → Builder → Aliases → Reader → Outcome
  | 0, _, _, _ => .running
  | f + 1, b, als, s =>
    if s.ch = 0 then .ok b als
    else
      match parseStep e b als s with
      | .stop => .err
      | .go b als s => parseLoop e filename inc f b als s
      | .incl file s =>
        match inc b als (e.join filename file) with
        | .ok b _ => parseLoop e filename inc f b als s
        | o => o

/-- parser.go:201-295 `parseFileLocal`; `depth` bounds the nesting of includes.  The loop gets
one round more than the file has runes, which always suffices (C58). -/
def parseFileLocal (e : Env) : Nat → Builder → Aliases → Str → Outcome
  | 0, _, _, _ => .running
  | depth + 1, b, als, filename =>
    match e.files filename with
    | none => .fatal
    | some content => parseLoop e filename (parseFileLocal e depth) (content.length + 1) b als content

/-- parser.go:197-199 `ParseFile`. -/
def parseFile (e : Env) (depth : Nat) (b : Builder) (filename : Str) : Outcome :=
  parseFileLocal e depth b [] filename

/-- How `LoadBook` ends. -/
inductive LoadOutcome
  | ok (b : Book)
  | err
  | fatal
  /-- an unrecovered panic -/
  | crash
  | running

/-- app.go:58-66 `LoadBook`. -/
def loadBook (srt : List Posting → List Posting) (e : Env) (depth : Nat) (filename : Str) : LoadOutcome :=
  match parseFile e depth Builder.new filename with
  | .err => .err
  | .fatal => .fatal
  | .running => .running
  | .ok b _ =>
    match b.build srt with
    | none => .crash
    | some bk => .ok bk

end Verif
