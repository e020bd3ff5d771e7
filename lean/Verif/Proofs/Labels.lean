import Verif.Spec.Labels
import Verif.Proofs.Order2

/-! Lemmas on the order of the rows of a summary. -/

namespace Verif
open Spec

/-! ## Sort keys -/

/-- The digits of a sort key, read back. -/
def hexVal (s : Str) : Nat := s.foldl (fun a c => a * 16 + (if c < 58 then c - 48 else c - 87)) 0

theorem hexVal_append (s : Str) (c : Nat) : hexVal (s ++ [c]) = hexVal s * 16 + (if c < 58 then c - 48 else c - 87) := by
  simp [hexVal, List.foldl_append]

theorem hexDigit (n : Nat) (h : n < 16) :
    (if (if n < 10 then 48 + n else 87 + n) < 58 then (if n < 10 then 48 + n else 87 + n) - 48 else (if n < 10 then 48 + n else 87 + n) - 87) = n := by
  split <;> split at * <;> omega

theorem hexVal_natHexAux : ∀ f n, n ≤ f → hexVal (natHexAux f n) = n := by
  intro f
  induction f with
  | zero => intro n h; have : n = 0 := by omega
            subst this; rfl
  | succ f ih =>
    intro n h
    unfold natHexAux
    split
    · rename_i hn
      have := hexVal_append [] (if n < 10 then 48 + n else 87 + n)
      rw [List.nil_append] at this
      rw [this, hexDigit n hn]
      simp [hexVal]
    · rw [hexVal_append, hexDigit _ (Nat.mod_lt _ (by omega)), ih _ (by omega)]
      omega

theorem hexVal_zeros (k : Nat) (s : Str) : hexVal (List.replicate k 48 ++ s) = hexVal s := by
  induction k with
  | zero => rfl
  | succ k ih =>
    rw [List.replicate_succ, List.cons_append]
    conv_rhs => rw [← ih]
    simp [hexVal]

theorem natHexAux_length : ∀ w f n, n ≤ f → n < 16 ^ (w + 1) → (natHexAux f n).length ≤ w + 1 ∧ natHexAux f n ≠ [] ∧ 45 ∉ natHexAux f n := by
  intro w
  induction w with
  | zero =>
    intro f n h hn
    have hd : ∀ m, m < 16 → 45 ≠ (if m < 10 then 48 + m else 87 + m) := by intro m hm; split <;> omega
    cases f with
    | zero => have : n = 0 := by omega
              subst this; decide
    | succ f =>
      unfold natHexAux
      rw [if_pos (by simpa using hn)]
      exact ⟨by simp, by simp, by simp; exact hd n (by simpa using hn)⟩
  | succ w ih =>
    intro f n h hn
    have hd : ∀ m, m < 16 → 45 ≠ (if m < 10 then 48 + m else 87 + m) := by intro m hm; split <;> omega
    cases f with
    | zero => have : n = 0 := by omega
              subst this; exact ⟨by simp [natHexAux], by simp [natHexAux], by decide⟩
    | succ f =>
      unfold natHexAux
      split
      · rename_i hlt
        exact ⟨by simp, by simp, by simp; exact hd n hlt⟩
      · have hq : n / 16 < 16 ^ (w + 1) := by
          rw [Nat.div_lt_iff_lt_mul (by omega)]
          rw [pow_succ] at hn
          exact hn
        obtain ⟨h1, h2, h3⟩ := ih f (n / 16) (by omega) hq
        refine ⟨by simp; omega, by simp, ?_⟩
        simp only [List.mem_append, List.mem_singleton, not_or]
        exact ⟨h3, hd _ (Nat.mod_lt _ (by omega))⟩

theorem hexPad_length (i : Int) (h : i.natAbs < 16 ^ 14) : (hexPad 15 i).length = 15 := by
  obtain ⟨h1, _, _⟩ := natHexAux_length 13 i.natAbs i.natAbs (le_refl _) h
  unfold hexPad natHex
  simp only
  split <;> simp <;> omega

theorem hexPad_inj (i j : Int) (hi : i.natAbs < 16 ^ 14) (hj : j.natAbs < 16 ^ 14) (h : hexPad 15 i = hexPad 15 j) : i = j := by
  have v : ∀ (k : Nat) (n : Nat), hexVal (List.replicate k 48 ++ natHex n) = n := fun k n => by
    rw [hexVal_zeros]; exact hexVal_natHexAux n n (le_refl _)
  have nm : ∀ (k n : Nat), n < 16 ^ 14 → ∀ s, List.replicate k 48 ++ natHex n ≠ 45 :: s := by
    intro k n hn s e
    have : 45 ∈ List.replicate k 48 ++ natHex n := by rw [e]; simp
    rcases List.mem_append.1 this with h | h
    · have := List.eq_of_mem_replicate h; omega
    · exact (natHexAux_length 13 n n (le_refl _) hn).2.2 h
  unfold hexPad at h
  simp only at h
  split at h <;> split at h
  · have := congrArg hexVal (List.cons.inj h).2
    rw [v, v] at this; omega
  · exact absurd h.symm (nm _ _ hj _)
  · exact absurd h (nm _ _ hi _)
  · have := congrArg hexVal h
    rw [v, v] at this; omega

/-- Amounts whose sort keys have the usual width. -/
def Fits (v : Rat) : Prop := (1000000000 * 1000000 - ratTrunc (v * 1000000)).natAbs < 16 ^ 14

theorem fits_of_bound {v : Rat} (h : |v| ≤ 10000000000) : Fits v := by
  unfold Fits ratTrunc
  obtain ⟨h1, h2⟩ := abs_le.1 h
  generalize hw : v * 1000000 = w
  have hden : (0 : Int) < w.den := by exact_mod_cast w.pos
  have hwn : (w.num : Rat) = w * w.den := by
    have := Rat.num_div_den w
    have hne : (w.den : Rat) ≠ 0 := by exact_mod_cast w.den_nz
    rw [div_eq_iff hne] at this
    exact this
  have hdq : (0 : Rat) < w.den := by exact_mod_cast w.pos
  have b1 : w.num ≤ 10000000000000000 * w.den := by
    have : (w.num : Rat) ≤ 10000000000000000 * w.den := by
      rw [hwn]; apply mul_le_mul_of_nonneg_right _ hdq.le; rw [← hw]; linarith
    exact_mod_cast this
  have b2 : -10000000000000000 * w.den ≤ w.num := by
    have : -10000000000000000 * (w.den : Rat) ≤ (w.num : Rat) := by
      rw [hwn]; apply mul_le_mul_of_nonneg_right _ hdq.le; rw [← hw]; linarith
    exact_mod_cast this
  have habs : (w.num.tdiv w.den).natAbs ≤ 10000000000000000 := by
    rw [Int.natAbs_tdiv]
    apply Nat.div_le_of_le_mul
    have : ((w.den : Int).natAbs) = w.den := rfl
    rw [this]
    have h3 : (w.num.natAbs : Int) ≤ w.den * 10000000000000000 := by omega
    exact_mod_cast h3
  have e : (16:Nat) ^ 14 = 72057594037927936 := by norm_num
  rw [e]
  omega

theorem sortOrder_inj {v w : Rat} (hv : Fits v) (hw : Fits w) (h : getSortOrder v = getSortOrder w) :
    ratTrunc (v * 1000000) = ratTrunc (w * 1000000) := by
  have := hexPad_inj _ _ hv hw h
  omega

/-! ## Strings -/

theorem join_prefix {d : Nat} {n : Nat} (hn : 0 < n) : ∀ (K K' : List Str), (∀ s ∈ K, s.length = n) → (∀ s ∈ K', s.length = n) →
    joinWith [d] K <+: joinWith [d] K' → K <+: K' := by
  intro K
  induction K with
  | nil => intro K' _ _ _; exact List.nil_prefix
  | cons x K ih =>
    intro K' h1 h2 h
    have hx := h1 x (by simp)
    have hfirst : ∀ (r : Str) (y : Str) (r' : Str), y.length = n → x ++ r <+: y ++ r' → x = y ∧ r <+: r' := by
      intro r y r' hy hp
      obtain ⟨s, e⟩ := hp
      rw [List.append_assoc] at e
      obtain ⟨e1, e2⟩ := List.append_inj e (by omega)
      exact ⟨e1, s, e2⟩
    cases K' with
    | nil =>
      cases K with
      | nil => simp only [joinWith] at h; have := h.length_le; simp at this; subst this; simp at hx; omega
      | cons x2 K => simp only [joinWith] at h; have := h.length_le; simp at this
    | cons y K' =>
      have hy := h2 y (by simp)
      cases K with
      | nil =>
        cases K' with
        | nil =>
          simp only [joinWith] at h
          rw [h.eq_of_length (by omega)]
        | cons y2 K' =>
          simp only [joinWith] at h
          have := hfirst [] y _ hy (by rw [List.append_nil, List.append_assoc] at *; exact h)
          rw [this.1]; exact ⟨_, rfl⟩
      | cons x2 K =>
        cases K' with
        | nil =>
          simp only [joinWith] at h
          have := h.length_le; simp at this; omega
        | cons y2 K' =>
          simp only [joinWith] at h
          rw [List.append_assoc, List.append_assoc] at h
          obtain ⟨e, h'⟩ := hfirst _ y _ hy h
          rw [e, List.prefix_cons_inj]
          apply ih _ (fun s hs => h1 s (by simp [hs])) (fun s hs => h2 s (by simp [hs]))
          exact (List.prefix_append_right_inj [d]).1 h'

theorem join_append_lt {d : Nat} (K : List Str) (hK : K ≠ []) (x : Str) (r : List Str) :
    joinWith [d] K <+: joinWith [d] (K ++ x :: r) ∧ (joinWith [d] K).length < (joinWith [d] (K ++ x :: r)).length := by
  induction K with
  | nil => exact absurd rfl hK
  | cons k K ih =>
    cases K with
    | nil =>
      simp only [List.cons_append, List.nil_append, joinWith]
      exact ⟨⟨[d] ++ joinWith [d] (x :: r), by simp⟩, by simp⟩
    | cons k2 K =>
      obtain ⟨h1, h2⟩ := ih (by simp)
      simp only [List.cons_append, joinWith] at h1 h2 ⊢
      refine ⟨(List.prefix_append_right_inj _).2 h1, ?_⟩
      simp only [List.length_append] at h2 ⊢; omega

theorem between_prefix : ∀ (K s p : Str), ¬ s < K → ¬ p < s → K <+: p → K <+: s := by
  intro K
  induction K with
  | nil => intro s p _ _ _; exact List.nil_prefix
  | cons a K ih =>
    intro s p h1 h2 h3
    obtain ⟨r, rfl⟩ := h3
    cases s with
    | nil => exact absurd (List.nil_lt_cons a K) h1
    | cons b s =>
      rw [List.cons_lt_cons_iff] at h1
      rw [List.cons_append, List.cons_lt_cons_iff] at h2
      have e : b = a := by
        rcases lt_trichotomy b a with h | h | h
        · exact absurd (Or.inl h) h1
        · exact h
        · exact absurd (Or.inl h) h2
      subst e
      rw [List.prefix_cons_inj]
      exact ih s (K ++ r) (fun h => h1 (Or.inr ⟨rfl, h⟩)) (fun h => h2 (Or.inr ⟨rfl, h⟩)) ⟨r, rfl⟩

theorem prefix_lt {a c : Str} (h : a <+: c) (hl : a.length < c.length) : a < c := by
  obtain ⟨s, rfl⟩ := h
  induction a with
  | nil =>
    cases s with
    | nil => simp at hl
    | cons x s => exact List.nil_lt_cons x s
  | cons a l ih =>
    rw [List.cons_append, List.cons_lt_cons_iff]
    exact Or.inr ⟨rfl, ih (by simpa using hl)⟩

/-! ## Names -/

theorem above_trans {d : Nat} {x y z : Str} (h1 : Above [d] x y) (h2 : AtOrAbove [d] y z) : Above [d] x z := by
  rcases h2 with rfl | h
  · exact h1
  · obtain ⟨s, rfl⟩ := h1
    obtain ⟨t, rfl⟩ := h
    exact ⟨s ++ [d] ++ t, by simp⟩

theorem atOrAbove_trans {d : Nat} {x y z : Str} (h1 : AtOrAbove [d] x y) (h2 : AtOrAbove [d] y z) : AtOrAbove [d] x z := by
  rcases h1 with rfl | h
  · exact h2
  · exact Or.inr (above_trans h h2)

theorem above_length {d : Nat} {x y : Str} (h : Above [d] x y) : x.length < y.length := by
  have := (above_take h).2; simp at this; omega

theorem atOrAbove_take {d : Nat} {x a : Str} (h : AtOrAbove [d] x a) : x = a.take x.length ∧ x.length ≤ a.length := by
  rcases h with rfl | h
  · simp
  · have := above_take h; exact ⟨this.1, by have := this.2; omega⟩

/-- Two accounts at or above a third, the first shorter. -/
theorem above_of_shorter {d : Nat} {x y a : Str} (hx : AtOrAbove [d] x a) (hy : AtOrAbove [d] y a) (hl : x.length < y.length) : Above [d] x y := by
  have hya := atOrAbove_take hy
  have hx' : Above [d] x a := by
    rcases hx with rfl | h
    · omega
    · exact h
  have hyp : y <+: a := by rw [hya.1]; exact List.take_prefix _ _
  exact List.prefix_of_prefix_length_le hx' hyp (by simp; omega)

theorem eq_of_same_length {d : Nat} {x y a : Str} (hx : AtOrAbove [d] x a) (hy : AtOrAbove [d] y a) (hl : x.length = y.length) : x = y := by
  rw [(atOrAbove_take hx).1, (atOrAbove_take hy).1, hl]

/-! ## The chain of accounts in a sort key -/

/-- The accounts whose values make up the sort key. -/
def chainLoop (val : Str → Option Rat) (div acct : Str) (i : Nat) : Nat → List Str
  | 0 => []
  | f + 1 =>
    if i ≠ acct.length ∧ div.isPrefixOf (acct.drop i) = false then chainLoop val div acct (i + 1) f
    else if (val (acct.take i)).isSome then acct.take i :: chainLoop val div acct (i + 1) f
    else chainLoop val div acct (i + 1) f

def chain (val : Str → Option Rat) (d : Nat) (acct : Str) : List Str := chainLoop val [d] acct 1 acct.length

def keyOf (val : Str → Option Rat) (x : Str) : Str := getSortOrder ((val x).getD 0)

theorem sortOrderLoop_chain (val : Str → Option Rat) (div acct : Str) : ∀ f i,
    sortOrderLoop val div acct i f = (chainLoop val div acct i f).map (keyOf val) := by
  intro f
  induction f with
  | zero => intro i; rfl
  | succ f ih =>
    intro i
    unfold sortOrderLoop chainLoop
    simp only
    by_cases hc : i ≠ acct.length ∧ div.isPrefixOf (acct.drop i) = false
    · rw [if_pos hc, if_pos hc]; exact ih _
    · rw [if_neg hc, if_neg hc]
      cases hv : val (acct.take i) with
      | none => simp [ih]
      | some v => simp [ih, keyOf, hv]

theorem sortString_chain (val : Str → Option Rat) (d : Nat) (acct : Str) :
    getSortOrderString val acct [d] = joinWith [d] ((chain val d acct).map (keyOf val)) := by
  unfold getSortOrderString chain
  rw [sortOrderLoop_chain]

theorem chainLoop_mem (val : Str → Option Rat) (d : Nat) (acct : Str) : ∀ f i, i + f = acct.length + 1 → ∀ x,
    x ∈ chainLoop val [d] acct i f ↔ i ≤ x.length ∧ AtOrAbove [d] x acct ∧ (val x).isSome := by
  intro f
  induction f with
  | zero =>
    intro i hi x
    constructor
    · intro h; cases h
    · rintro ⟨h1, h2, _⟩
      have := (atOrAbove_take h2).2; omega
  | succ f ih =>
    intro i hi x
    have hat : (i ≠ acct.length ∧ [d].isPrefixOf (acct.drop i) = false) ↔ ¬ AtOrAbove [d] (acct.take i) acct := by
      have hab := above_iff_take (div := [d]) (List.take_append_drop i acct).symm
      unfold AtOrAbove
      rw [not_or, show Above [d] (acct.take i) acct ↔ (acct.take i ++ [d]) <+: acct from Iff.rfl] at *
      constructor
      · rintro ⟨h1, h2⟩
        refine ⟨fun e => ?_, fun h => ?_⟩
        · have := congrArg List.length e
          rw [List.length_take] at this; omega
        · have := isPrefixOf_iff.2 (hab.1 h)
          rw [this] at h2; cases h2
      · rintro ⟨h1, h2⟩
        refine ⟨fun e => h1 (by rw [e, List.take_length]), ?_⟩
        rw [Bool.eq_false_iff]
        exact fun h => h2 (hab.2 (isPrefixOf_iff.1 h))
    have hlen : (acct.take i).length = i := by rw [List.length_take]; omega
    have key : ∀ x, AtOrAbove [d] x acct → (i ≤ x.length ↔ x = acct.take i ∨ i + 1 ≤ x.length) := by
      intro x hx
      constructor
      · intro h
        by_cases e : x.length = i
        · left; rw [(atOrAbove_take hx).1, e]
        · right; omega
      · rintro (h | h)
        · rw [h, hlen]
        · omega
    unfold chainLoop
    by_cases hc : i ≠ acct.length ∧ [d].isPrefixOf (acct.drop i) = false
    · rw [if_pos hc, ih _ (by omega)]
      constructor
      · rintro ⟨h1, h2⟩; exact ⟨by omega, h2⟩
      · rintro ⟨h1, h2, h3⟩
        rcases (key x h2).1 h1 with e | e
        · exact absurd (e ▸ h2) (hat.1 hc)
        · exact ⟨e, h2, h3⟩
    · rw [if_neg hc]
      have hat' : AtOrAbove [d] (acct.take i) acct := by
        by_contra h; exact hc (hat.2 h)
      split
      · rename_i hv
        rw [List.mem_cons, ih _ (by omega)]
        constructor
        · rintro (rfl | ⟨h1, h2⟩)
          · exact ⟨by omega, hat', hv⟩
          · exact ⟨by omega, h2⟩
        · rintro ⟨h1, h2, h3⟩
          rcases (key x h2).1 h1 with e | e
          · exact Or.inl e
          · exact Or.inr ⟨e, h2, h3⟩
      · rename_i hv
        rw [ih _ (by omega)]
        constructor
        · rintro ⟨h1, h2⟩; exact ⟨by omega, h2⟩
        · rintro ⟨h1, h2, h3⟩
          rcases (key x h2).1 h1 with e | e
          · exact absurd (e ▸ h3) hv
          · exact ⟨e, h2, h3⟩

theorem chainLoop_sorted (val : Str → Option Rat) (d : Nat) (acct : Str) : ∀ f i, i + f = acct.length + 1 →
    (chainLoop val [d] acct i f).Pairwise (fun x y => x.length < y.length) := by
  intro f
  induction f with
  | zero => intro i _; exact List.Pairwise.nil
  | succ f ih =>
    intro i hi
    unfold chainLoop
    split
    · exact ih _ (by omega)
    · split
      · refine List.pairwise_cons.2 ⟨?_, ih _ (by omega)⟩
        intro y hy
        have := ((chainLoop_mem val d acct f (i + 1) (by omega) y).1 hy).1
        rw [List.length_take]; omega
      · exact ih _ (by omega)

theorem mem_chain {val : Str → Option Rat} {d : Nat} {acct x : Str} :
    x ∈ chain val d acct ↔ x ≠ [] ∧ AtOrAbove [d] x acct ∧ (val x).isSome := by
  unfold chain
  rw [chainLoop_mem val d acct _ _ (by omega)]
  rw [show x ≠ [] ↔ 1 ≤ x.length from by cases x <;> simp]

theorem chain_sorted (val : Str → Option Rat) (d : Nat) (acct : Str) : (chain val d acct).Pairwise (fun x y => x.length < y.length) :=
  chainLoop_sorted val d acct _ _ (by omega)

theorem sorted_eq {l m : List Str} (h1 : l.Pairwise (fun x y => x.length < y.length)) (h2 : m.Pairwise (fun x y => x.length < y.length))
    (h : ∀ x, x ∈ l ↔ x ∈ m) : l = m := by
  induction l generalizing m with
  | nil => cases m with
    | nil => rfl
    | cons y m => exact absurd ((h y).2 (by simp)) (by simp)
  | cons x l ih =>
    cases m with
    | nil => exact absurd ((h x).1 (by simp)) (by simp)
    | cons y m =>
      obtain ⟨a1, a2⟩ := List.pairwise_cons.1 h1
      obtain ⟨b1, b2⟩ := List.pairwise_cons.1 h2
      have e : x = y := by
        by_contra hne
        have hx : x ∈ m := by
          rcases List.mem_cons.1 ((h x).1 (by simp)) with e | e
          · exact absurd e hne
          · exact e
        have hy : y ∈ l := by
          rcases List.mem_cons.1 ((h y).2 (by simp)) with e | e
          · exact absurd e.symm hne
          · exact e
        have := a1 y hy
        have := b1 x hx
        omega
      subst e
      congr 1
      refine ih a2 b2 fun z => ?_
      constructor
      · intro hz
        rcases List.mem_cons.1 ((h z).1 (by simp [hz])) with e | e
        · subst e; have := a1 z hz; omega
        · exact e
      · intro hz
        rcases List.mem_cons.1 ((h z).2 (by simp [hz])) with e | e
        · subst e; have := b1 z hz; omega
        · exact e

/-- The chain of an account above continues in the chain of the account below. -/
theorem chain_append {val : Str → Option Rat} {d : Nat} {k a : Str} (h : Above [d] k a) :
    ∃ r, chain val d a = chain val d k ++ r ∧ ∀ x, x ∈ r ↔ x ∈ chain val d a ∧ k.length < x.length := by
  refine ⟨(chain val d a).filter (fun x => decide (k.length < x.length)), ?_, by intro x; simp [List.mem_filter]⟩
  apply sorted_eq (chain_sorted _ _ _)
  · rw [List.pairwise_append]
    refine ⟨chain_sorted _ _ _, (chain_sorted _ _ _).sublist List.filter_sublist, ?_⟩
    intro x hx y hy
    have h1 := (atOrAbove_take (mem_chain.1 hx).2.1).2
    have h2 := (List.mem_filter.1 hy).2
    simp only [decide_eq_true_eq] at h2
    omega
  · intro x
    rw [List.mem_append, List.mem_filter]
    constructor
    · intro hx
      by_cases hl : k.length < x.length
      · exact Or.inr ⟨hx, by simpa using hl⟩
      · left
        have hm := mem_chain.1 hx
        refine mem_chain.2 ⟨hm.1, ?_, hm.2.2⟩
        by_cases e : x.length = k.length
        · left; exact (eq_of_same_length hm.2.1 (Or.inr h) e).symm
        · right; exact above_of_shorter hm.2.1 (Or.inr h) (by omega)
    · rintro (hx | hx)
      · have hm := mem_chain.1 hx
        exact mem_chain.2 ⟨hm.1, atOrAbove_trans hm.2.1 (Or.inr h), hm.2.2⟩
      · exact hx.1

/-- Without ties the chain of keys determines the chain of accounts. -/
theorem chain_eq {val : Str → Option Rat} {d : Nat} {k z : Str}
    (hdiff : ∀ c e, c ∈ chain val d k → e ∈ chain val d z → c ≠ e →
      (∀ w, (val w).isSome → w ≠ [] → (Above [d] w c ↔ Above [d] w e)) → keyOf val c ≠ keyOf val e) :
    ∀ (l1 l2 pre : List Str), chain val d k = pre ++ l1 → chain val d z = pre ++ l2 →
      l1.map (keyOf val) <+: l2.map (keyOf val) → l1 <+: l2 := by
  intro l1
  induction l1 with
  | nil => intro l2 pre _ _ _; exact List.nil_prefix
  | cons c l1 ih =>
    intro l2 pre h1 h2 h
    cases l2 with
    | nil => have := h.length_le; simp at this
    | cons e l2 =>
      rw [List.map_cons, List.map_cons, List.cons_prefix_cons] at h
      have hbelow : ∀ (a c : Str) (l : List Str), chain val d a = pre ++ c :: l → ∀ w, (val w).isSome → w ≠ [] → (Above [d] w c ↔ w ∈ pre) := by
        intro a c l ha w hv hne
        have hs := chain_sorted val d a
        rw [ha, List.pairwise_append, List.pairwise_cons] at hs
        have hc := mem_chain.1 (show c ∈ chain val d a by rw [ha]; simp)
        constructor
        · intro hw
          have hm : w ∈ chain val d a := mem_chain.2 ⟨hne, Or.inr (above_trans hw hc.2.1), hv⟩
          rw [ha] at hm
          have hl := above_length hw
          rcases List.mem_append.1 hm with h | h
          · exact h
          · rcases List.mem_cons.1 h with e | h
            · subst e; omega
            · have := hs.2.1.1 w h; omega
        · intro hw
          have hm := mem_chain.1 (show w ∈ chain val d a by rw [ha]; simp [hw])
          exact above_of_shorter hm.2.1 hc.2.1 (hs.2.2 w hw c (by simp))
      have e1 : c = e := by
        by_contra hne
        refine hdiff c e (by rw [h1]; simp) (by rw [h2]; simp) hne ?_ h.1
        intro w hv hw
        rw [hbelow k c l1 h1 w hv hw, hbelow z e l2 h2 w hv hw]
      subst e1
      rw [List.prefix_cons_inj]
      exact ih l2 (pre ++ [c]) (by rw [h1]; simp) (by rw [h2]; simp) h.2

end Verif
