import Mathlib.Data.List.Lex
import Mathlib.Tactic.Ring
import Mathlib.Tactic.Linarith
import Mathlib.Algebra.Order.Field.Rat
import Mathlib.Algebra.Order.Field.Basic
import Mathlib.Algebra.BigOperators.Group.List.Basic

/-!
# Strings and numerals

Go strings are byte sequences; the ledger loader works on runes.  Both are lists of
code units here, compared lexicographically (Go's `<` on strings is byte-wise, and UTF-8
keeps the order of the runes).
-/

namespace Verif

/-- A Go `string` (bytes) or `[]rune`, as a list of code units. -/
abbrev Str := List Nat

/-- `b!"abc"` is the literal list of the UTF-8 bytes of the string. -/
syntax:max "b!" noWs str : term
macro_rules
  | `(b!$s:str) => do
    let bs := s.getString.toUTF8.data.toList.map (·.toNat)
    let es ← bs.mapM fun b => `($(Lean.quote b))
    let arr := es.toArray
    `(([$arr,*] : List Nat))

/-- Decimal digits of a natural number (`strconv.Itoa` / `%d` on non-negative numbers),
with enough fuel. -/
def natDecAux : Nat → Nat → Str
  | 0, n => [48 + n % 10]
  | f + 1, n => if n < 10 then [48 + n] else natDecAux f (n / 10) ++ [48 + n % 10]

/-- `%d` of a non-negative number. -/
def natDec (n : Nat) : Str := natDecAux n n

/-- `%d` of an integer: a minus sign if negative. -/
def intDec (i : Int) : Str := if i < 0 then 45 :: natDec i.natAbs else natDec i.natAbs

/-- `%0wd` of an integer: zero padded to width `w`, the sign counting. -/
def intPad (w : Nat) (i : Int) : Str :=
  let ds := natDec i.natAbs
  if i < 0 then 45 :: (List.replicate (w - 1 - ds.length) 48 ++ ds)
  else List.replicate (w - ds.length) 48 ++ ds

/-- Is the code unit an ASCII digit? -/
def isDigit (c : Nat) : Bool := decide (48 ≤ c) && decide (c ≤ 57)

/-- Value of a digit string read in base ten. -/
def digitsVal (s : Str) : Nat := s.foldl (fun a c => a * 10 + (c - 48)) 0

theorem natDecAux_fuel (f g n : Nat) (hf : n ≤ f) (hg : n ≤ g) :
    natDecAux f n = natDecAux g n := by
  induction f generalizing g n with
  | zero =>
    have : n = 0 := by omega
    subst this
    cases g <;> simp [natDecAux]
  | succ f ih =>
    cases g with
    | zero =>
      have : n = 0 := by omega
      subst this
      simp [natDecAux]
    | succ g =>
      simp only [natDecAux]
      split
      · rfl
      · rw [ih g (n / 10) (by omega) (by omega)]

theorem natDec_lt {n : Nat} (h : n < 10) : natDec n = [48 + n] := by
  unfold natDec
  cases n with
  | zero => rfl
  | succ n => simp [natDecAux, h]

theorem natDec_ge {n : Nat} (h : 10 ≤ n) : natDec n = natDec (n / 10) ++ [48 + n % 10] := by
  unfold natDec
  cases n with
  | zero => omega
  | succ n =>
    conv_lhs => unfold natDecAux
    rw [if_neg (by omega)]
    rw [natDecAux_fuel n ((n+1)/10) ((n+1)/10) (by omega) (Nat.le_refl _)]

theorem digitsVal_append_one (s : Str) (c : Nat) :
    digitsVal (s ++ [c]) = digitsVal s * 10 + (c - 48) := by
  simp [digitsVal]

theorem digitsVal_natDec (n : Nat) : digitsVal (natDec n) = n := by
  induction n using Nat.strong_induction_on with
  | _ n ih =>
    by_cases h : n < 10
    · rw [natDec_lt h]; simp [digitsVal]
    · rw [natDec_ge (by omega), digitsVal_append_one, ih (n/10) (by omega)]
      omega

theorem natDec_injective {m n : Nat} (h : natDec m = natDec n) : m = n := by
  rw [← digitsVal_natDec m, ← digitsVal_natDec n, h]

theorem natDec_digits (n : Nat) : ∀ c ∈ natDec n, 48 ≤ c ∧ c ≤ 57 := by
  induction n using Nat.strong_induction_on with
  | _ n ih =>
    by_cases h : n < 10
    · rw [natDec_lt h]; simp; omega
    · rw [natDec_ge (by omega)]
      intro c hc
      rcases List.mem_append.1 hc with hc | hc
      · exact ih (n/10) (by omega) c hc
      · simp at hc; omega

theorem natDec_ne_nil (n : Nat) : natDec n ≠ [] := by
  by_cases h : n < 10
  · rw [natDec_lt h]; simp
  · rw [natDec_ge (by omega)]; simp

end Verif
