import Verif.Spec.DateText
import Verif.Model.BookOp

/-! # Specification: operations as they are written -/

namespace Verif.Spec

/-- A part between slashes. -/
def Part (s : Str) : Prop := s ≠ [] ∧ 47 ∉ s

/-- An unsigned decimal numeral and its value: digits with perhaps one point among, before or after them. -/
inductive Decimal : Str → Rat → Prop
  | whole (z) : Digits 1 z.length z → Decimal z (numberOf z)
  | point (i f) : Digits 0 i.length i → Digits 0 f.length f → i ++ f ≠ [] →
      Decimal (i ++ 46 :: f) ((numberOf (i ++ f) : Rat) / 10 ^ f.length)

/-- English capitals made small. -/
def small (c : Nat) : Nat := if 65 ≤ c ∧ c ≤ 90 then c + 32 else c

/-- What an operation means, `day` being the reading of dates (C26) and `float` the rounding of a number to a double: the seven operations and
nothing else. -/
inductive OpMeans (day : Str → Int) (float : Rat → Option Rat) : Str → Prim → Prop
  | map (s r) : Part s → Part r → OpMeans day float (b!"map=/" ++ s ++ b!"/" ++ r ++ b!"/") (.map s r [])
  | mapElse (s r alt) : Part s → Part r → Part alt →
      OpMeans day float (b!"map=/" ++ s ++ b!"/" ++ r ++ b!"/" ++ alt ++ b!"/") (.map s r alt)
  | mapccy (s r) : Part s → Part r → OpMeans day float (b!"mapccy=/" ++ s ++ b!"/" ++ r ++ b!"/") (.mapccy s r)
  | move (s r z v f) : Part s → Part r → Decimal z v → float v = some f →
      OpMeans day float (b!"move=/" ++ s ++ b!"/" ++ r ++ b!"/" ++ z ++ b!"/") (.move s r f)
  | depreciate (s r z) : Part s → Part r → Digits 1 z.length z → numberOf z < 2 ^ 63 →
      OpMeans day float (b!"depreciate=/" ++ s ++ b!"/" ++ r ++ b!"/" ++ z ++ b!"/") (.depreciate s r (numberOf z))
  | asof (a) : day a ≠ 0 → OpMeans day float (b!"asof=" ++ a) (.asof (day a))
  | since (a) : day a ≠ 0 → OpMeans day float (b!"since=" ++ a) (.since (day a))
  | combine (a k) : k ∈ [b!"yearly", b!"quarterly", b!"monthly", b!"today", b!"none"] → a.map small = k →
      OpMeans day float (b!"combine=" ++ a) (.combine k)

end Verif.Spec
