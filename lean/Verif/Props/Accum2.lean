import Verif.Props.Accum

/-! # C50, C52: grouping accounts and the order of rows -/

namespace Verif
open Spec

/-! ## C50 -/

/-- C50 as stated. -/
def C50 : Prop := ∀ a c div : Str, div ≠ [] → DeepestCommon div a c (findMaxCommonPrefix a c div)

/-- C50 is false of the code: `A-B` and `A:C` are grouped under `A`. -/
theorem c50_common_prefix_fails : ¬ C50 := by
  intro h
  have := (h b!"A-B" b!"A:C" b!":" (by decide)).common
  have e : findMaxCommonPrefix b!"A-B" b!"A:C" b!":" = b!"A" := by decide +kernel
  rw [e] at this
  revert this
  decide

private theorem prefix_singleton {d : Nat} {l : Str} : [d].isPrefixOf l = true ↔ ∃ s, l = d :: s := by
  cases l with
  | nil => simp
  | cons x l =>
    simp only [List.isPrefixOf, Bool.and_true, beq_iff_eq, List.cons.injEq]
    constructor
    · rintro rfl; exact ⟨l, rfl, rfl⟩
    · rintro ⟨s, rfl, _⟩; rfl

private theorem prefix_of_append {k P l : Str} (h : k <+: P ++ l) (hl : k.length ≤ P.length) : k <+: P := by
  obtain ⟨t, ht⟩ := h
  rw [List.prefix_iff_eq_take]
  have := congrArg (List.take k.length) ht
  rw [List.take_left, List.take_append_of_le_length hl] at this
  exact this

/-- What the scan has found when it has passed the common part `P`. -/
private structure PreInv (d : Nat) (P : Str) (pre : Nat) : Prop where
  le : pre ≤ P.length
  div : pre = 0 ∨ (P.take pre ++ [d]) <+: P
  max : ∀ k : Str, (k ++ [d]) <+: P → k.length ≤ pre

private theorem atOrAbove_prefix {div k a : Str} (h : AtOrAbove div k a) : k <+: a := by
  rcases h with rfl | h
  · exact List.prefix_rfl
  · exact (List.prefix_append k div).trans h

/-- At the end of the scan. -/
private theorem prefixEnd_spec {d : Nat} {P l r : Str} {pre : Nat} (hi : PreInv d P pre)
    (hne : ∀ x s y t, l = x :: s → r = y :: t → x ≠ y) :
    (∀ k, AtOrAbove [d] k (P ++ l) → AtOrAbove [d] k (P ++ r) → k.length ≤ prefixEnd [d] l r P.length pre) ∧
    prefixEnd [d] l r P.length pre ≤ P.length ∧
    (¬ PartAtDivider d (P ++ l) (P ++ r) → prefixEnd [d] l r P.length pre = 0 ∨
      (AtOrAbove [d] (P.take (prefixEnd [d] l r P.length pre)) (P ++ l) ∧
       AtOrAbove [d] (P.take (prefixEnd [d] l r P.length pre)) (P ++ r))) ∧
    (prefixEnd [d] l r P.length pre = 0 ∨ AtOrAbove [d] (P.take (prefixEnd [d] l r P.length pre)) (P ++ l) ∨
       AtOrAbove [d] (P.take (prefixEnd [d] l r P.length pre)) (P ++ r)) := by
  have hlen : ∀ k, AtOrAbove [d] k (P ++ l) → AtOrAbove [d] k (P ++ r) → k.length ≤ P.length := by
    intro k h1 h2
    by_contra hc
    obtain ⟨t1, e1⟩ := atOrAbove_prefix h1
    obtain ⟨t2, e2⟩ := atOrAbove_prefix h2
    have hP : P <+: k := by
      have : P <+: k ++ t1 := by rw [e1]; exact List.prefix_append _ _
      exact prefix_of_append this (by omega)
    obtain ⟨w, rfl⟩ := hP
    rw [List.append_assoc, List.append_cancel_left_eq] at e1 e2
    cases w with
    | nil => simp at hc
    | cons x w => exact hne x _ x _ e1.symm e2.symm rfl
  have habove : ∀ k (z : Str), AtOrAbove [d] k (P ++ z) → k.length < P.length → (k ++ [d]) <+: P := by
    intro k z h hlt
    rcases h with h | h
    · have := congrArg List.length h; simp at this; omega
    · exact prefix_of_append h (by simp; omega)
  unfold prefixEnd
  by_cases hcond : (!l.isEmpty && [d].isPrefixOf l || !r.isEmpty && [d].isPrefixOf r || l.isEmpty && r.isEmpty) = true
  · rw [if_pos hcond]
    refine ⟨hlen, le_refl _, ?_, ?_⟩
    · intro hnp
      right
      rw [List.take_length]
      simp only [Bool.or_eq_true, Bool.and_eq_true, prefix_singleton] at hcond
      rcases hcond with (⟨_, s, rfl⟩ | ⟨_, s, rfl⟩) | ⟨h1, h2⟩
      · refine ⟨Or.inr ⟨s, by simp⟩, ?_⟩
        cases r with
        | nil => left; simp
        | cons y t =>
          have hy : y ≠ d := fun e => hne d s y t rfl rfl e.symm
          exact absurd ⟨P, y, s, t, hy, Or.inl ⟨rfl, rfl⟩⟩ hnp
      · refine ⟨?_, Or.inr ⟨s, by simp⟩⟩
        cases l with
        | nil => left; simp
        | cons y t =>
          have hy : y ≠ d := fun e => hne y t d s rfl rfl e
          exact absurd ⟨P, y, t, s, hy, Or.inr ⟨rfl, rfl⟩⟩ hnp
      · rw [List.isEmpty_iff] at h1 h2
        subst h1; subst h2
        exact ⟨Or.inl (by simp), Or.inl (by simp)⟩
    · right
      rw [List.take_length]
      simp only [Bool.or_eq_true, Bool.and_eq_true, prefix_singleton] at hcond
      rcases hcond with (⟨_, s, rfl⟩ | ⟨_, s, rfl⟩) | ⟨h1, h2⟩
      · exact Or.inl (Or.inr ⟨s, by simp⟩)
      · exact Or.inr (Or.inr ⟨s, by simp⟩)
      · rw [List.isEmpty_iff] at h1
        subst h1
        exact Or.inl (Or.inl (by simp))
  · rw [if_neg hcond]
    have both : pre = 0 ∨ (AtOrAbove [d] (P.take pre) (P ++ l) ∧ AtOrAbove [d] (P.take pre) (P ++ r)) := by
      rcases hi.div with h | h
      · exact Or.inl h
      · exact Or.inr ⟨Or.inr (h.trans (List.prefix_append _ _)), Or.inr (h.trans (List.prefix_append _ _))⟩
    refine ⟨?_, hi.le, fun _ => both, ?_⟩
    · intro k h1 h2
      have hk := hlen k h1 h2
      rcases Nat.lt_or_ge k.length P.length with hlt | hge
      · exact hi.max k (habove k l h1 hlt)
      · exfalso
        have ek : k = P := by
          have := (atOrAbove_prefix h1)
          exact (prefix_of_append this hk).eq_of_length (by omega)
        subst ek
        apply hcond
        simp only [Bool.or_eq_true, Bool.and_eq_true, prefix_singleton]
        rcases h1 with h1 | h1
        · have : l = [] := by simpa using h1
          subst this
          rcases h2 with h2 | h2
          · have : r = [] := by simpa using h2
            subst this; right; simp
          · rw [List.prefix_append_right_inj] at h2
            obtain ⟨s, rfl⟩ := h2
            left; right; exact ⟨rfl, s, rfl⟩
        · rw [List.prefix_append_right_inj] at h1
          obtain ⟨s, rfl⟩ := h1
          left; left; exact ⟨rfl, s, rfl⟩
    · rcases both with h | h
      · exact Or.inl h
      · exact Or.inr (Or.inl h.1)

private theorem prefixLoop_spec {d : Nat} : ∀ (l r P : Str) (pre : Nat), PreInv d P pre →
    ∃ n, prefixLoop [d] l r P.length pre = n ∧
    (∀ k, AtOrAbove [d] k (P ++ l) → AtOrAbove [d] k (P ++ r) → k.length ≤ n) ∧
    (P ++ l).take n <+: P ++ r ∧
    (¬ PartAtDivider d (P ++ l) (P ++ r) → n = 0 ∨
      (AtOrAbove [d] ((P ++ l).take n) (P ++ l) ∧ AtOrAbove [d] ((P ++ l).take n) (P ++ r))) ∧
    (n = 0 ∨ AtOrAbove [d] ((P ++ l).take n) (P ++ l) ∨ AtOrAbove [d] ((P ++ l).take n) (P ++ r)) := by
  have fin : ∀ (l r P : Str) (pre : Nat), PreInv d P pre → (∀ x s y t, l = x :: s → r = y :: t → x ≠ y) →
      prefixLoop [d] l r P.length pre = prefixEnd [d] l r P.length pre →
      ∃ n, prefixLoop [d] l r P.length pre = n ∧
      (∀ k, AtOrAbove [d] k (P ++ l) → AtOrAbove [d] k (P ++ r) → k.length ≤ n) ∧
      (P ++ l).take n <+: P ++ r ∧
      (¬ PartAtDivider d (P ++ l) (P ++ r) → n = 0 ∨
        (AtOrAbove [d] ((P ++ l).take n) (P ++ l) ∧ AtOrAbove [d] ((P ++ l).take n) (P ++ r))) ∧
      (n = 0 ∨ AtOrAbove [d] ((P ++ l).take n) (P ++ l) ∨ AtOrAbove [d] ((P ++ l).take n) (P ++ r)) := by
    intro l r P pre hi hne he
    obtain ⟨h1, h2, h3, h4⟩ := prefixEnd_spec hi hne
    refine ⟨_, he, ?_⟩
    rw [List.take_append_of_le_length h2]
    exact ⟨h1, (List.take_prefix _ _).trans (List.prefix_append _ _), h3, h4⟩
  intro l
  induction l with
  | nil =>
    intro r P pre hi
    exact fin [] r P pre hi (by rintro _ _ _ _ h; cases h) (by cases r <;> rfl)
  | cons x l ih =>
    intro r P pre hi
    cases r with
    | nil => exact fin (x :: l) [] P pre hi (by rintro _ _ _ _ _ h; cases h) rfl
    | cons y r =>
      by_cases hxy : x = y
      · subst hxy
        have hstep : prefixLoop [d] (x :: l) (x :: r) P.length pre =
            prefixLoop [d] l r (P ++ [x]).length (if [d].isPrefixOf (x :: l) then P.length else pre) := by
          rw [prefixLoop, if_neg (by simp), List.length_append]; rfl
        have hinv : PreInv d (P ++ [x]) (if [d].isPrefixOf (x :: l) then P.length else pre) := by
          have hmax : ∀ k : Str, (k ++ [d]) <+: P ++ [x] → ((k ++ [d]) <+: P ∨ (k = P ∧ d = x)) := by
            intro k hk
            rcases Nat.lt_or_ge k.length P.length with h | h
            · exact Or.inl (prefix_of_append hk (by simp; omega))
            · right
              have := hk.length_le
              simp at this
              have e := hk.eq_of_length (by simp; omega)
              have := List.append_inj' e rfl
              exact ⟨this.1, by simpa using this.2⟩
          by_cases hd : [d].isPrefixOf (x :: l) = true
          · rw [if_pos hd]
            obtain ⟨s, e⟩ := prefix_singleton.1 hd
            simp only [List.cons.injEq] at e
            obtain ⟨rfl, rfl⟩ := e
            refine ⟨by simp, Or.inr (by simp), ?_⟩
            intro k hk
            have := hk.length_le
            simp at this; omega
          · rw [if_neg hd]
            refine ⟨by simp; exact Nat.le_succ_of_le hi.le, ?_, ?_⟩
            · rcases hi.div with h | h
              · exact Or.inl h
              · right
                rw [List.take_append_of_le_length hi.le]
                exact h.trans (List.prefix_append _ _)
            · intro k hk
              rcases hmax k hk with h | ⟨_, h⟩
              · exact hi.max k h
              · exact absurd (prefix_singleton.2 ⟨l, by rw [h]⟩) hd
        obtain ⟨n, h1, h2, h3, h4, h5⟩ := ih r (P ++ [x]) _ hinv
        refine ⟨n, by rw [hstep]; exact h1, ?_⟩
        simp only [List.append_assoc, List.singleton_append] at h2 h3 h4 h5
        exact ⟨h2, h3, h4, h5⟩
      · exact fin (x :: l) (y :: r) P pre hi
          (by rintro _ _ _ _ h1 h2; cases h1; cases h2; exact hxy) (by rw [prefixLoop, if_pos hxy])

/-- C50, the part that holds (one-character divider): unless the two names part at a divider, the
grouping account is the longest account that is an ancestor of or equal to both.  Missing:
names that part at a divider, where the code is wrong. -/
theorem c50_common_prefix_partial (a c : Str) (d : Nat) (h : ¬ PartAtDivider d a c) :
    DeepestCommon [d] a c (findMaxCommonPrefix a c [d]) := by
  obtain ⟨n, h1, h2, h3, h4, h5⟩ := prefixLoop_spec (d := d) a c [] 0
    ⟨by simp, Or.inl rfl, fun k hk => by have := hk.length_le; simp at this⟩
  unfold findMaxCommonPrefix
  rw [show prefixLoop [d] a c 0 0 = n from h1]
  simp only [List.nil_append] at h2 h3 h4 h5
  constructor
  · rcases h4 h with h | h
    · left; rw [h]; simp
    · exact Or.inr h
  · intro k k1 k2
    have hp := atOrAbove_prefix k1
    rw [List.prefix_iff_eq_take] at hp
    rw [hp]
    exact List.take_prefix_take_left (h2 k k1 k2)

/-- C50, for all names: the grouping account is always a common beginning of both names, contains
every common ancestor, and is above or equal to one of the two. -/
theorem c50_always (a c : Str) (d : Nat) :
    findMaxCommonPrefix a c [d] <+: a ∧ findMaxCommonPrefix a c [d] <+: c ∧
    (∀ k, AtOrAbove [d] k a → AtOrAbove [d] k c → k <+: findMaxCommonPrefix a c [d]) ∧
    (findMaxCommonPrefix a c [d] = [] ∨ AtOrAbove [d] (findMaxCommonPrefix a c [d]) a ∨
      AtOrAbove [d] (findMaxCommonPrefix a c [d]) c) := by
  obtain ⟨n, h1, h2, h3, h4, h5⟩ := prefixLoop_spec (d := d) a c [] 0
    ⟨by simp, Or.inl rfl, fun k hk => by have := hk.length_le; simp at this⟩
  unfold findMaxCommonPrefix
  rw [show prefixLoop [d] a c 0 0 = n from h1]
  simp only [List.nil_append] at h2 h3 h4 h5
  refine ⟨List.take_prefix _ _, h3, ?_, ?_⟩
  · intro k k1 k2
    have hp := atOrAbove_prefix k1
    rw [List.prefix_iff_eq_take] at hp
    rw [hp]
    exact List.take_prefix_take_left (h2 k k1 k2)
  · rcases h5 with h | h
    · left; rw [h]; simp
    · exact Or.inr h

private theorem loop_left {d x : Nat} (hx : x ≠ d) (s t : Str) : ∀ (p : Str) (i pre : Nat),
    prefixLoop [d] (p ++ d :: s) (p ++ x :: t) i pre = i + p.length
  | [], i, pre => by simp [prefixLoop, prefixEnd, List.isPrefixOf, Ne.symm hx]
  | y :: p, i, pre => by
    rw [List.cons_append, List.cons_append, prefixLoop, if_neg (by simp), loop_left hx s t p]
    simp; omega

private theorem loop_right {d x : Nat} (hx : x ≠ d) (s t : Str) : ∀ (p : Str) (i pre : Nat),
    prefixLoop [d] (p ++ x :: s) (p ++ d :: t) i pre = i + p.length
  | [], i, pre => by simp [prefixLoop, prefixEnd, List.isPrefixOf, hx]
  | y :: p, i, pre => by
    rw [List.cons_append, List.cons_append, prefixLoop, if_neg (by simp), loop_right hx s t p]
    simp; omega

/-- C50, exactly: with a divider of one character the grouping account is the longest common ancestor unless the names part at a divider after a common
beginning that is not empty. -/
theorem c50_exact (a c : Str) (d : Nat) : DeepestCommon [d] a c (findMaxCommonPrefix a c [d]) ↔
    ¬ ∃ p x s t, p ≠ [] ∧ x ≠ d ∧ ((a = p ++ d :: s ∧ c = p ++ x :: t) ∨ (a = p ++ x :: s ∧ c = p ++ d :: t)) := by
  have no : ∀ (p t : Str) (x : Nat), x ≠ d → ¬ AtOrAbove [d] p (p ++ x :: t) := by
    rintro p t x hx (h | h)
    · have := congrArg List.length h
      simp at this
    · rw [List.prefix_append_right_inj] at h
      have := (List.cons_prefix_cons.1 h).1
      exact hx this.symm
  constructor
  · rintro h ⟨p, x, s, t, hp, hx, ⟨rfl, rfl⟩ | ⟨rfl, rfl⟩⟩
    · have e : findMaxCommonPrefix (p ++ d :: s) (p ++ x :: t) [d] = p := by
        unfold findMaxCommonPrefix
        rw [loop_left hx]
        simp
      rw [e] at h
      rcases h.common with h | h
      · exact hp h
      · exact no p t x hx h.2
    · have e : findMaxCommonPrefix (p ++ x :: s) (p ++ d :: t) [d] = p := by
        unfold findMaxCommonPrefix
        rw [loop_right hx]
        simp
      rw [e] at h
      rcases h.common with h | h
      · exact hp h
      · exact no p s x hx h.1
  · intro h
    by_cases hpart : PartAtDivider d a c
    · obtain ⟨p, x, s, t, hx, hh⟩ := hpart
      rcases p with _ | ⟨y, p⟩
      · have e : findMaxCommonPrefix a c [d] = [] := by
          unfold findMaxCommonPrefix
          rcases hh with ⟨rfl, rfl⟩ | ⟨rfl, rfl⟩
          · rw [loop_left hx]; rfl
          · rw [loop_right hx]; rfl
        rw [e]
        have := (c50_always a c d).2.2.1
        rw [e] at this
        exact ⟨Or.inl rfl, this⟩
      · exact absurd ⟨y :: p, x, s, t, by simp, hx, hh⟩ h
    · exact c50_common_prefix_partial a c d hpart

example : findMaxCommonPrefix b!"Exp:Car:Fuel" b!"Exp:Car:Tax" b!":" = b!"Exp:Car" := by decide +kernel
example : findMaxCommonPrefix b!"Exp:Car" b!"Exp:Cards" b!":" = b!"Exp" := by decide +kernel
example : findMaxCommonPrefix b!"Exp" b!"Exp:Cards" b!":" = b!"Exp" := by decide +kernel
example : findMaxCommonPrefix b!"A" b!"B" b!":" = [] := by decide +kernel

/-- The hypothesis of the partial theorem is met by ordinary names. -/
example : ¬ PartAtDivider 58 b!"A:B" b!"A:C" := by
  rintro ⟨p, x, s, t, hx, ⟨h1, h2⟩ | ⟨h1, h2⟩⟩ <;>
    (rcases p with _ | ⟨p1, _ | ⟨p2, _ | ⟨p3, p⟩⟩⟩ <;> simp at h1 h2 <;> omega)

end Verif
