import Verif.Model.Ops
import Verif.Model.PriceMap

/-! # Operation strings and macros: /repo/cmd/app/book_op.go -/

namespace Verif

/-- `strings.Split(s, sep)` for a one-byte separator. -/
def splitB (c : Nat) : Str → List Str
  | [] => [[]]
  | x :: xs =>
    if x = c then [] :: splitB c xs
    else
      match splitB c xs with
      | [] => [[x]]
      | f :: fs => (x :: f) :: fs

/-- What the operations take from outside: the clock, `sort.Slice`, the regular expression
engine (`valid` = compiles, `mat` = `MatchString`, `rep pat repl` = `ReplaceAllString`), the
rounding of a decimal to a float64 (`none` = out of range) and the order in which the price
map is walked. -/
structure OpEnv where
  today : Int
  srt : List Posting → List Posting
  valid : Str → Bool
  mat : Str → Str → Bool
  rep : Str → Str → Str → Str
  float : Rat → Option Rat
  walk : (Str → Bool) → (Str → Str) → PriceBook → PriceBook

/-- The walk of the price map is a run of the loop (book_utils.go:42-56). -/
def OpEnv.Ok (e : OpEnv) : Prop :=
  IsSort e.srt ∧ ∀ mat rep m, RegexCCYPrices mat rep m (e.walk mat rep m)

/-- A parsed operation. -/
inductive Prim
  | mapccy (search replace : Str)
  | map (search replace alt : Str)
  | move (search acct : Str) (factor : Rat)
  | asof (d : Int)
  | since (d : Int)
  | combine (typ : Str)
  | depreciate (search acct : Str) (months : Int)

/-- ASCII letters. -/
def isAlpha (c : Nat) : Bool := (decide (65 ≤ c) && decide (c ≤ 90)) || (decide (97 ≤ c) && decide (c ≤ 122))

/-- `[0-9A-Za-z_]` -/
def isWord (c : Nat) : Bool := isAlpha c || isDigit c || c == 95

/-- book_op.go:77,111-116: `^[A-Za-z][0-9A-Za-z_]*=` without the `=`, and what follows it. -/
def opPrefix : Str → Option (Str × Str)
  | [] => none
  | c :: cs =>
    if isAlpha c then
      match cs.dropWhile isWord with
      | 61 :: rest => some (c :: cs.takeWhile isWord, rest)
      | _ => none
    else none

/-- book_op.go:80 `^/([^/]+)/([^/]+)/$` -/
def reTwo (s : Str) : Option (Str × Str) :=
  match splitB 47 s with
  | [[], x, y, []] => if x ≠ [] ∧ y ≠ [] then some (x, y) else none
  | _ => none

/-- book_op.go:81 `^/([^/]+)/([^/]+)/(([^/]+)/)?$` (group 4 is "" when absent) -/
def reMap (s : Str) : Option (Str × Str × Str) :=
  match splitB 47 s with
  | [[], x, y, []] => if x ≠ [] ∧ y ≠ [] then some (x, y, []) else none
  | [[], x, y, z, []] => if x ≠ [] ∧ y ≠ [] ∧ z ≠ [] then some (x, y, z) else none
  | _ => none

/-- `[0-9.]` -/
def isNumC (c : Nat) : Bool := isDigit c || c == 46

/-- book_op.go:82-83 `^/([^/]+)/([^/]+)/([0-9\.]+)/$` -/
def reNum (s : Str) : Option (Str × Str × Str) :=
  match splitB 47 s with
  | [[], x, y, z, []] => if x ≠ [] ∧ y ≠ [] ∧ z ≠ [] ∧ z.all isNumC then some (x, y, z) else none
  | _ => none

/-- `strconv.ParseFloat(s, 64)` on `[0-9.]+`: at most one point and at least one digit; the
value is the decimal rounded by `e.float`. -/
def parseFloat (e : OpEnv) (s : Str) : Option Rat :=
  match splitB 46 s with
  | [i] => if i = [] then none else e.float (digitsVal i)
  | [i, f] =>
    if i = [] ∧ f = [] then none else e.float ((digitsVal (i ++ f) : Rat) / 10 ^ f.length)
  | _ => none

/-- ASCII lower case; `strings.EqualFold` against a lower case ASCII word without `k` and `s`
(the only letters with non-ASCII foldings; none of date.go:19 `FloorTypes` has one) is
equality after it. -/
def lower (c : Nat) : Nat := if 65 ≤ c ∧ c ≤ 90 then c + 32 else c

/-- date.go:19 `FloorTypes` -/
def floorTypes : List Str := [b!"yearly", b!"quarterly", b!"monthly", b!"today", b!"none"]

/-- book_op.go:111-180: everything of an operation that does not touch the book. -/
def parsePrim (e : OpEnv) (op : Str) : Option Prim :=
  match opPrefix op with
  | none => none
  | some (typ, act) =>
    if typ = b!"mapccy" then (reTwo act).map fun a => .mapccy a.1 a.2
    else if typ = b!"map" then (reMap act).map fun a => .map a.1 a.2.1 a.2.2
    else if typ = b!"move" then
      (reNum act).bind fun a => (parseFloat e a.2.2).map fun f => .move a.1 a.2.1 f
    else if typ = b!"asof" then
      if dateFromString e.today act = 0 then none else some (.asof (dateFromString e.today act))
    else if typ = b!"since" then
      if dateFromString e.today act = 0 then none else some (.since (dateFromString e.today act))
    else if typ = b!"combine" then
      (floorTypes.find? fun t => decide (act.map lower = t)).map .combine
    else if typ = b!"depreciate" then
      (reNum act).bind fun a => (atoi a.2.2).map fun n => .depreciate a.1 a.2.1 n
    else none

/-- book_op.go:124-180 and book_utils.go:16-56: the effect on the book; `none` = panic
(`regexp.MustCompile` of an invalid expression). -/
def Prim.apply (e : OpEnv) : Prim → Book → Option Book
  | .mapccy s r, b =>
    if e.valid s then
      some { b.mapAmount (regexCCYMap (e.mat s) (e.rep s r)) with prices := e.walk (e.mat s) (e.rep s r) b.prices }
    else none
  | .map s r alt, b => if e.valid s then some (b.regexAccounts e.srt (e.mat s) (e.rep s r) r alt) else none
  | .move s a f, b => if e.valid s then some (b.adjustPost e.srt (e.mat s) (e.rep s a) f) else none
  | .asof d, b => some (b.filterByDateAsof d)
  | .since d, b => some (b.filterByDateSince d)
  | .combine t, b => some (b.splitBy e.srt e.today t)
  | .depreciate s a n, b =>
    if e.valid s then some (b.depreciate e.srt e.today (e.mat s) (e.rep s a) b!"monthly" n) else none

/-- How a call of `BookOps` ends.  The book is changed in place, so an error leaves the book
as the operations before it made it; the error message names the operations in `trace`,
outermost first. -/
inductive OpEnd
  | ok (b : Book)
  | err (b : Book) (trace : List Str)
  | panic
  | diverge

/-- The error wrapping `'%s': %v` of book_op.go:88 and 102. -/
def OpEnd.wrap (op : Str) : OpEnd → OpEnd
  | .err b t => .err b (op :: t)
  | r => r

/-- The loops book_op.go:86-90 and 100-105: in order, up to the first failure. -/
def runAll (f : Str → Book → OpEnd) : List Str → Book → OpEnd
  | [], b => .ok b
  | o :: os, b =>
    match f o b with
    | .ok b' => runAll f os b'
    | r => r

/-- book_op.go:111-180 for an operation that is not a macro. -/
def primOp (e : OpEnv) (op : Str) (b : Book) : OpEnd :=
  match parsePrim e op with
  | none => .err b []
  | some p =>
    match p.apply e b with
    | none => .panic
    | some b' => .ok b'

/-- book_op.go:95-181 `bookOp`; `mac` is the macro table, the first argument bounds the depth
of the recursion (`diverge` = the bound was reached; Go would overflow the stack). -/
def bookOp (e : OpEnv) (mac : Str → Option (List Str)) : Nat → Str → Book → OpEnd
  | 0, _, _ => .diverge
  | n + 1, op, b =>
    match mac op with
    | some ms => (runAll (bookOp e mac n) ms b).wrap op
    | none => primOp e op b

/-- book_op.go:85-93 `BookOps`. -/
def bookOps (e : OpEnv) (mac : Str → Option (List Str)) (n : Nat) (ops : List Str) (b : Book) : OpEnd :=
  runAll (fun op b => (bookOp e mac n op b).wrap op) ops b

end Verif
