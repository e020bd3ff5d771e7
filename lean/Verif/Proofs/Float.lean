import Verif.Spec.Float
import Mathlib.Tactic.Linarith
import Mathlib.Tactic.Positivity
import Mathlib.Tactic.Ring

/-! # Rounding to `float64`: consequences, and an executable rounding -/

namespace Verif
open Spec

/-- A whole number of units of a decimal place is found again after rounding to `float64`, as long as
there are fewer than 2^52 units. -/
theorem rounded_units {fl : Rat → Rat} (hf : DoubleRounding fl) {rd : Rat → Nat} (hr : NearestNat rd) {dec : Nat}
    (hd : dec ≤ 300) {v : Rat} {k : Int} (hk : v * 10 ^ dec = k) (hb : |k| < 2 ^ 52) :
    rd (|fl v| * 10 ^ dec) = k.natAbs ∧ (fl v < 0 ↔ v < 0) := by
  have h10 : (0 : Rat) < 10 ^ dec := by positivity
  have h1 : (1 : Rat) ≤ 10 ^ dec := one_le_pow₀ (by norm_num)
  have hkabs : |v| * 10 ^ dec = (k.natAbs : Rat) := by
    rw [← abs_of_pos h10, ← abs_mul, hk, Nat.cast_natAbs]; simp
  have hkb : (k.natAbs : Rat) < 2 ^ 52 := by
    have : k.natAbs < 2 ^ 52 := by rw [Int.abs_eq_natAbs] at hb; omega
    exact_mod_cast this
  have hbig : |v| ≤ 10 ^ 300 := by
    have : |v| ≤ |v| * 10 ^ dec := le_mul_of_one_le_right (abs_nonneg v) h1
    have h2 : (2 : Rat) ^ 52 ≤ 10 ^ 300 :=
      le_trans (pow_le_pow_left₀ (by norm_num) (by norm_num : (2 : Rat) ≤ 10) 52) (pow_le_pow_right₀ (by norm_num) (by norm_num))
    exact le_trans this (le_trans (le_of_eq hkabs) (le_trans hkb.le h2))
  have hsmall : v = 0 ∨ 1 / 10 ^ 300 ≤ |v| := by
    by_cases hk0 : k = 0
    · left
      rw [hk0] at hk
      simpa using hk
    · right
      have : (1 : Rat) ≤ k.natAbs := by
        have : 1 ≤ k.natAbs := by omega
        exact_mod_cast this
      have h3 : (10 : Rat) ^ dec ≤ 10 ^ 300 := pow_le_pow_right₀ (by norm_num) hd
      rw [div_le_iff₀ (by positivity)]
      calc (1 : Rat) ≤ |v| * 10 ^ dec := by rw [hkabs]; exact this
        _ ≤ |v| * 10 ^ 300 := mul_le_mul_of_nonneg_left h3 (abs_nonneg v)
  have hc := hf.close v hbig hsmall
  constructor
  · have h4 := hr (|fl v| * 10 ^ dec) (by positivity)
    have h5 : abs (|fl v| - |v|) ≤ |v| / 2 ^ 53 := le_trans (abs_abs_sub_abs_le _ _) hc
    have h6 : abs (|fl v| * 10 ^ dec - (k.natAbs : Rat)) ≤ (k.natAbs : Rat) / 2 ^ 53 := by
      rw [← hkabs, ← sub_mul, abs_mul, abs_of_pos h10]
      calc abs (|fl v| - |v|) * 10 ^ dec ≤ (|v| / 2 ^ 53) * 10 ^ dec := mul_le_mul_of_nonneg_right h5 h10.le
        _ = |v| * 10 ^ dec / 2 ^ 53 := by ring
    have h7 : (k.natAbs : Rat) / 2 ^ 53 < 1 / 2 := by
      rw [div_lt_iff₀ (by positivity)]; linarith
    have h8 : |((rd (|fl v| * 10 ^ dec) : Rat)) - k.natAbs| < 1 := by
      have := abs_sub_le (rd (|fl v| * 10 ^ dec) : Rat) (|fl v| * 10 ^ dec) k.natAbs
      linarith
    have h9 : |((rd (|fl v| * 10 ^ dec) : Int)) - (k.natAbs : Int)| < 1 := by exact_mod_cast h8
    have := Int.abs_lt_one_iff.1 h9
    omega
  · rcases eq_or_ne v 0 with h0 | h0
    · subst h0
      have : fl 0 = 0 := by simpa using hc
      rw [this]
    · have hv : 0 < |v| := abs_pos.2 h0
      have h5 : |fl v - v| < |v| := lt_of_le_of_lt hc (by rw [div_lt_iff₀ (by positivity)]; linarith)
      obtain ⟨h6, h7⟩ := abs_lt.1 h5
      constructor
      · intro h
        by_contra hn
        rw [abs_of_nonneg (not_lt.1 hn)] at h6
        linarith
      · intro h
        rw [abs_of_neg h] at h7
        linarith

/-- Halves to even: the rounding `strconv` uses. -/
def halfEven (x : Rat) : Nat :=
  let n := x.floor.toNat
  if x - n < 1 / 2 then n else if 1 / 2 < x - n then n + 1 else if n % 2 = 0 then n else n + 1

theorem floor_toNat {x : Rat} (hx : 0 ≤ x) : ((x.floor.toNat : Rat)) ≤ x ∧ x < (x.floor.toNat : Rat) + 1 := by
  have h0 : 0 ≤ x.floor := by rw [Rat.le_floor_iff]; simpa using hx
  have e : ((x.floor.toNat : Rat)) = (x.floor : Rat) := by
    have : ((x.floor.toNat : Int)) = x.floor := Int.toNat_of_nonneg h0
    exact_mod_cast congrArg (Int.cast (R := Rat)) this
  rw [e]
  refine ⟨?_, ?_⟩
  · exact Rat.le_floor_iff.1 (le_refl x.floor)
  · have : x.floor < x.floor + 1 := by omega
    have := Rat.floor_lt_iff.1 this
    exact_mod_cast this

theorem halfEven_nearest : NearestNat halfEven := by
  intro x hx
  obtain ⟨h1, h2⟩ := floor_toNat hx
  unfold halfEven
  simp only
  split
  · rw [abs_le]; constructor <;> linarith
  · split
    · push_cast; rw [abs_le]; constructor <;> linarith
    · split
      · rw [abs_le]; constructor <;> linarith
      · push_cast; rw [abs_le]; constructor <;> linarith

/-- The exponent of the last place for a positive number: between 2^52 and 2^53 units. -/
def unitExp (x : Rat) : Int :=
  let e : Int := (Nat.log2 x.num.natAbs : Int) - (Nat.log2 x.den : Int) - 53
  if x < (2 : Rat) ^ (e + 53) then e else e + 1

/-- An executable rounding to 53 bits, halves to even (without limits on the exponent). -/
def toDouble (x : Rat) : Rat :=
  if x = 0 then 0
  else (if x < 0 then -1 else 1) * ((halfEven (|x| / (2 : Rat) ^ unitExp |x|) : Rat) * (2 : Rat) ^ unitExp |x|)

theorem unitExp_spec {x : Rat} (hx : 0 < x) :
    (2 : Rat) ^ 52 * (2 : Rat) ^ unitExp x ≤ x ∧ x < (2 : Rat) ^ 53 * (2 : Rat) ^ unitExp x := by
  have hn : 0 < x.num := Rat.num_pos.2 hx
  have hna : x.num.natAbs ≠ 0 := by omega
  have hd : x.den ≠ 0 := x.den_nz
  obtain ⟨n1, n2⟩ : 2 ^ Nat.log2 x.num.natAbs ≤ x.num.natAbs ∧ x.num.natAbs < 2 ^ (Nat.log2 x.num.natAbs + 1) :=
    ⟨Nat.log2_self_le hna, Nat.lt_log2_self⟩
  obtain ⟨d1, d2⟩ : 2 ^ Nat.log2 x.den ≤ x.den ∧ x.den < 2 ^ (Nat.log2 x.den + 1) := ⟨Nat.log2_self_le hd, Nat.lt_log2_self⟩
  unfold unitExp
  generalize Nat.log2 x.num.natAbs = a at *
  generalize Nat.log2 x.den = b at *
  simp only
  have hdp : (0 : Rat) < x.den := by positivity
  have hxe : x = (x.num.natAbs : Rat) / x.den := by
    have h1 := x.num_div_den
    have h2 : ((x.num.natAbs : Rat)) = (x.num : Rat) := by
      rw [Nat.cast_natAbs, abs_of_pos hn]
    rw [h2]; exact h1.symm
  have N1 : (2 : Rat) ^ a ≤ x.num.natAbs := by exact_mod_cast n1
  have N2 : (x.num.natAbs : Rat) < 2 ^ (a + 1) := by exact_mod_cast n2
  have D1 : (2 : Rat) ^ b ≤ x.den := by exact_mod_cast d1
  have D2 : (x.den : Rat) < 2 ^ (b + 1) := by exact_mod_cast d2
  -- 2^(a-b-1) < x < 2^(a-b+1)
  have z : ∀ m n : Int, (2 : Rat) ^ (m + n) = 2 ^ m * 2 ^ n := fun m n => zpow_add₀ (by norm_num) m n
  have U : x < (2 : Rat) ^ ((a : Int) - b + 1) := by
    have e : (2 : Rat) ^ ((a : Int) - b + 1) = 2 ^ (a + 1) / 2 ^ b := by
      rw [show (a : Int) - b + 1 = ((a + 1 : Nat) : Int) - (b : Int) by push_cast; ring, zpow_sub₀ (by norm_num), zpow_natCast, zpow_natCast]
    rw [e, hxe]
    calc (x.num.natAbs : Rat) / x.den ≤ (x.num.natAbs : Rat) / 2 ^ b := div_le_div_of_nonneg_left (by positivity) (by positivity) D1
      _ < 2 ^ (a + 1) / 2 ^ b := div_lt_div_of_pos_right N2 (by positivity)
  have L : (2 : Rat) ^ ((a : Int) - b - 1) ≤ x := by
    have e : (2 : Rat) ^ ((a : Int) - b - 1) = 2 ^ a / 2 ^ (b + 1) := by
      rw [show (a : Int) - b - 1 = (a : Int) - ((b + 1 : Nat) : Int) by push_cast; ring, zpow_sub₀ (by norm_num), zpow_natCast, zpow_natCast]
    rw [e, hxe]
    calc (2 : Rat) ^ a / 2 ^ (b + 1) ≤ (2 : Rat) ^ a / x.den := div_le_div_of_nonneg_left (by positivity) hdp D2.le
      _ ≤ (x.num.natAbs : Rat) / x.den := div_le_div_of_nonneg_right N1 hdp.le
  have p52 : (2 : Rat) ^ 52 = (2 : Rat) ^ (52 : Int) := by norm_num
  have p53 : (2 : Rat) ^ 53 = (2 : Rat) ^ (53 : Int) := by norm_num
  rw [p52, p53, ← z, ← z]
  split
  · rename_i h
    constructor
    · rw [show (52 : Int) + ((a : Int) - b - 53) = (a : Int) - b - 1 by ring]; exact L
    · rw [show (53 : Int) + ((a : Int) - b - 53) = (a : Int) - b - 53 + 53 by ring]; exact h
  · rename_i h
    constructor
    · rw [show (52 : Int) + ((a : Int) - b - 53 + 1) = (a : Int) - b - 53 + 53 by ring]; exact not_lt.1 h
    · rw [show (53 : Int) + ((a : Int) - b - 53 + 1) = (a : Int) - b + 1 by ring]; exact U

theorem toDouble_rounding : DoubleRounding toDouble := by
  have key : ∀ x : Rat, x ≠ 0 → (halfEven (|x| / (2 : Rat) ^ unitExp |x|) ≤ 2 ^ 53) ∧
      abs ((halfEven (|x| / (2 : Rat) ^ unitExp |x|) : Rat) * (2 : Rat) ^ unitExp |x| - |x|) ≤ |x| / 2 ^ 53 := by
    intro x hx
    have hp : 0 < |x| := abs_pos.2 hx
    obtain ⟨h1, h2⟩ := unitExp_spec hp
    generalize unitExp |x| = e at *
    have he : (0 : Rat) < 2 ^ e := by positivity
    have hq := halfEven_nearest (|x| / 2 ^ e) (by positivity)
    have hq2 := abs_le.1 hq
    constructor
    · have hlt : |x| / 2 ^ e < 2 ^ 53 := by rw [div_lt_iff₀ he]; exact h2
      have h3 : (halfEven (|x| / 2 ^ e) : Rat) < 2 ^ 53 + 1 := by linarith [hq2.2]
      have : halfEven (|x| / 2 ^ e) < 2 ^ 53 + 1 := by exact_mod_cast h3
      omega
    · have e1 : (halfEven (|x| / 2 ^ e) : Rat) * 2 ^ e - |x| = ((halfEven (|x| / 2 ^ e) : Rat) - |x| / 2 ^ e) * 2 ^ e := by
        rw [sub_mul, div_mul_cancel₀ _ he.ne']
      rw [e1, abs_mul, abs_of_pos he]
      calc abs ((halfEven (|x| / 2 ^ e) : Rat) - |x| / 2 ^ e) * 2 ^ e ≤ 1 / 2 * 2 ^ e := mul_le_mul_of_nonneg_right hq he.le
        _ ≤ |x| / 2 ^ 53 := by rw [le_div_iff₀ (by positivity)]; linarith
  refine ⟨?_, ?_⟩
  · intro x _
    by_cases hx : x = 0
    · exact ⟨0, 0, by norm_num, by simp [toDouble, hx]⟩
    · obtain ⟨h1, _⟩ := key x hx
      unfold toDouble
      rw [if_neg hx]
      generalize halfEven (|x| / (2 : Rat) ^ unitExp |x|) = n at *
      by_cases hs : x < 0
      · refine ⟨-(n : Int), unitExp |x|, ?_, ?_⟩
        · rw [abs_neg, Nat.abs_cast]; exact_mod_cast h1
        · rw [if_pos hs]; push_cast; ring
      · refine ⟨(n : Int), unitExp |x|, ?_, ?_⟩
        · rw [Nat.abs_cast]; exact_mod_cast h1
        · rw [if_neg hs]; push_cast; ring
  · intro x _ _
    by_cases hx : x = 0
    · simp [toDouble, hx]
    · obtain ⟨_, h1⟩ := key x hx
      unfold toDouble
      rw [if_neg hx]
      by_cases hs : x < 0
      · rw [if_pos hs]
        have e : -1 * ((halfEven (|x| / (2 : Rat) ^ unitExp |x|) : Rat) * (2 : Rat) ^ unitExp |x|) - x =
            -((halfEven (|x| / (2 : Rat) ^ unitExp |x|) : Rat) * (2 : Rat) ^ unitExp |x| - |x|) := by
          rw [abs_of_neg hs]; ring
        rw [e, abs_neg]; exact h1
      · rw [if_neg hs, one_mul]
        have e : |x| = x := abs_of_nonneg (not_lt.1 hs)
        rw [e] at h1 ⊢
        exact h1

/-- 2^53 + 1 is not a `float64`. -/
theorem not_double : ¬ IsDouble (2 ^ 53 + 1) := by
  rintro ⟨m, e, hm, h⟩
  by_cases he : 0 < e
  · obtain ⟨k, rfl⟩ : ∃ k : Nat, e = (k : Int) + 1 := ⟨(e - 1).toNat, by omega⟩
    have h2 : (2 : Rat) ^ ((k : Int) + 1) = ((2 ^ (k + 1) : Int) : Rat) := by
      rw [show (k : Int) + 1 = ((k + 1 : Nat) : Int) by push_cast; ring, zpow_natCast]; norm_num
    rw [h2] at h
    have h3 : ((2 : Int) ^ 53 + 1) = m * 2 ^ (k + 1) := by exact_mod_cast h
    have h4 : (2 : Int) ∣ m * 2 ^ (k + 1) := Dvd.dvd.mul_left (dvd_pow_self 2 (by omega)) m
    rw [← h3] at h4
    revert h4; decide
  · have h1 : (2 : Rat) ^ e ≤ 1 := by
      have := zpow_le_zpow_right₀ (a := (2 : Rat)) (by norm_num) (show e ≤ 0 by omega)
      simpa using this
    have h0 : (0 : Rat) < 2 ^ e := by positivity
    have hm' : (m : Rat) ≤ 2 ^ 53 := by
      have : m ≤ 2 ^ 53 := le_trans (le_abs_self m) hm
      exact_mod_cast this
    have : (m : Rat) * 2 ^ e ≤ 2 ^ 53 := by
      by_cases hmm : 0 ≤ (m : Rat)
      · calc (m : Rat) * 2 ^ e ≤ m * 1 := mul_le_mul_of_nonneg_left h1 hmm
          _ ≤ 2 ^ 53 := by linarith
      · have : (m : Rat) * 2 ^ e ≤ 0 := mul_nonpos_of_nonpos_of_nonneg (by linarith) h0.le
        have : (0 : Rat) ≤ 2 ^ 53 := by positivity
        linarith
    rw [← h] at this
    linarith

end Verif
