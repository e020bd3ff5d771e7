import Verif.Model.LoaderErr
import Verif.Spec.File

/-! # Specification: where a file is refused -/

namespace Verif.Spec

/-- What `ParseFile` says of the contents `s` of the file `fn` (includes nested at most `depth` deep), from the state `b`, `als`. -/
def saysOf (e : Env) (depth : Nat) (fn : Str) (b : Builder) (als : Aliases) (s : List Nat) : ReadEnd :=
  (readLoop e fn (readLedger e depth) (s.length + 1) b als s).close fn s

/-- No text, or complete lines. -/
def CompleteLines (s : List Nat) : Prop := ∀ c, s.getLast? = some c → c = 10

/-- Nothing, or text that begins with the end of a line. -/
def AtLineEnd (s : List Nat) : Prop := ∀ c, s.head? = some c → c = 10

/-- The contents are refused with the error `err` because of the line `line`: the lines before it are accepted, and what comes after it
does not matter. -/
structure RefusedAt (e : Env) (depth : Nat) (fn : Str) (b : Builder) (als : Aliases) (before line after : List Nat) (err : Str) : Prop where
  lines : CompleteLines before
  oneLine : 10 ∉ line
  ends : AtLineEnd after
  fine : ∃ b' als', saysOf e depth fn b als before = .ok b' als'
  bad : ∀ after', AtLineEnd after' → (after' = [] ↔ after = []) → saysOf e depth fn b als (before ++ line ++ after') = .err err

/-- An error with a place. -/
def errorAt (fn : Str) (row col : Nat) (why : Str) : Str :=
  b!"parsing failure: " ++ fn ++ b!": " ++ natDec row ++ b!":" ++ natDec col ++ b!": " ++ why

/-- An error without one. -/
def errorIn (fn : Str) (why : Str) : Str := b!"parsing failure: " ++ fn ++ b!": " ++ why

/-- Go's own panics while a file is read: an amount of more than 18 decimals whose denominator becomes zero; `include` without a name; `include "`. -/
def panicTexts : List Str :=
  [b!"division by zero", b!"runtime error: index out of range [0] with length 0", b!"runtime error: slice bounds out of range [1:0]"]

/-- A transaction that does not balance: date and payee under which it is filed, a currency and what is left over in it. -/
def unbalancedIn (date : Int) (payee ccy : Str) (left : Rat) : Str :=
  b!"In transaction (" ++ intDec date ++ b!" " ++ payee ++ b!") ccy " ++ ccy ++ b!" has balance of " ++ intDec left.num ++ b!"/" ++ natDec left.den ++ b!"!"

end Verif.Spec
