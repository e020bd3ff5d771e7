import Verif.Basic

/-! # Specification: kinds of characters in ledger files

Stated here apart from the model's own character tests, so that the properties of reading and writing ledger files do not depend on them. -/

namespace Verif.Spec

/-- A decimal digit. -/
def digitChar (c : Nat) : Bool := decide (48 ≤ c) && decide (c ≤ 57)

/-- White space in Unicode (property White_Space). -/
def spaceChar (c : Nat) : Bool :=
  decide (9 ≤ c ∧ c ≤ 13) || c == 32 || c == 0x85 || c == 0xA0 || c == 0x1680 ||
  decide (0x2000 ≤ c ∧ c ≤ 0x200A) || c == 0x2028 || c == 0x2029 || c == 0x202F ||
  c == 0x205F || c == 0x3000

/-- White space other than the line feed. -/
def blankChar (c : Nat) : Bool := spaceChar c && c != 10

/-- A character of a line: neither line feed nor NUL. -/
def lineChar (c : Nat) : Bool := c != 0 && c != 10

/-- A character of an account name: a letter or digit of the English alphabet, `&`, `'`, `:` or `_`. -/
def acctChar (c : Nat) : Bool :=
  decide (97 ≤ c ∧ c ≤ 122) || decide (65 ≤ c ∧ c ≤ 90) || c == 38 || c == 39 || digitChar c ||
  c == 58 || c == 95

/-- A character of a currency name without quotes: anything but NUL, line feed, white space, digits, `;`, `@`, `-` and `.`. -/
def ccyChar (c : Nat) : Bool :=
  c != 0 && c != 59 && c != 64 && c != 10 && !spaceChar c && c != 45 && c != 46 && !digitChar c

end Verif.Spec
