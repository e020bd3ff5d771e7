import Verif.Basic

/-! # Specification: account names -/

namespace Verif.Spec

/-- A rune of an account name the loader knows: a letter or digit of the English alphabet, `&`, `'`,
`:` or `_`. -/
def NameRune (c : Nat) : Prop :=
  (97 ≤ c ∧ c ≤ 122) ∨ (65 ≤ c ∧ c ≤ 90) ∨ (48 ≤ c ∧ c ≤ 57) ∨ c = 38 ∨ c = 39 ∨ c = 58 ∨ c = 95

instance (c : Nat) : Decidable (NameRune c) := inferInstanceAs (Decidable (_ ∨ _))

/-- A name of such runes only. -/
def PlainName (s : Str) : Prop := ∀ c ∈ s, NameRune c

instance (s : Str) : Decidable (PlainName s) := inferInstanceAs (Decidable (∀ _ ∈ _, _))

end Verif.Spec
