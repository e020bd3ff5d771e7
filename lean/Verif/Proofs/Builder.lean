import Verif.Spec.Builder
import Verif.Proofs.Compact
import Mathlib.Data.List.Nodup

/-! Lemmas on the builder. -/

namespace Verif
open Spec

/-- Balance of a currency in the open transaction. -/
def amtAt (m : List (Str × Rat)) (c : Str) : Rat := (amtFind m c).getD 0

theorem amtAt_add (m : List (Str × Rat)) (c : Str) (v : Rat) (c' : Str) :
    amtAt (amtAdd m c v) c' = amtAt m c' + (if c = c' then v else 0) := by
  induction m with
  | nil => by_cases h : c = c' <;> simp [amtAdd, amtAt, amtFind, h]
  | cons kv m ih =>
    obtain ⟨k, w⟩ := kv
    unfold amtAdd
    split
    · rename_i hk; subst hk
      by_cases h : k = c' <;> simp [amtAt, amtFind, h]
    · rename_i hk
      by_cases h : k = c'
      · subst h
        have : ¬ c = k := fun e => hk e.symm
        simp [amtAt, amtFind, this]
      · unfold amtAt at *
        simp [amtFind, h, ih]

theorem amtAdd_keys (m : List (Str × Rat)) (c : Str) (v : Rat) (h : (m.map (·.1)).Nodup) :
    ((amtAdd m c v).map (·.1)).Nodup ∧ ∀ k, k ∈ (amtAdd m c v).map (·.1) → k = c ∨ k ∈ m.map (·.1) := by
  induction m with
  | nil => simp [amtAdd]
  | cons kv m ih =>
    obtain ⟨k, w⟩ := kv
    simp only [List.map_cons, List.nodup_cons] at h
    obtain ⟨ih1, ih2⟩ := ih h.2
    unfold amtAdd
    split
    · simp only [List.map_cons, List.nodup_cons]
      exact ⟨h, fun k' hk' => Or.inr hk'⟩
    · rename_i hk
      simp only [List.map_cons, List.nodup_cons]
      refine ⟨⟨fun hm => ?_, ih1⟩, ?_⟩
      · rcases ih2 k hm with e | e
        · exact hk e
        · exact h.1 e
      · intro k' hk'
        rcases List.mem_cons.1 hk' with e | e
        · exact Or.inr (by simp [e])
        · rcases ih2 k' e with e | e
          · exact Or.inl e
          · exact Or.inr (by simp only [List.mem_cons]; exact Or.inr e)

theorem all_zero_iff (m : List (Str × Rat)) (h : (m.map (·.1)).Nodup) :
    m.all (fun kv => decide (kv.2 = 0)) = true ↔ ∀ c, amtAt m c = 0 := by
  induction m with
  | nil => simp [amtAt, amtFind]
  | cons kv m ih =>
    obtain ⟨k, w⟩ := kv
    simp only [List.map_cons, List.nodup_cons] at h
    have hk : amtAt m k = 0 := by
      have : amtFind m k = none := by
        clear ih
        induction m with
        | nil => rfl
        | cons x m ih2 =>
          simp only [List.map_cons, List.mem_cons, List.nodup_cons, not_or] at h
          unfold amtFind
          rw [if_neg (fun e => h.1.1 e.symm)]
          exact ih2 ⟨h.1.2, h.2.2⟩
      simp [amtAt, this]
    simp only [List.all_cons, Bool.and_eq_true, decide_eq_true_eq, ih h.2]
    constructor
    · rintro ⟨h1, h2⟩ c
      by_cases hc : k = c
      · simp [amtAt, amtFind, hc, h1]
      · have := h2 c
        unfold amtAt at *
        simp only [amtFind, hc, if_false]; exact this
    · intro ha
      constructor
      · have := ha k; simpa [amtAt, amtFind] using this
      · intro c
        by_cases hc : k = c
        · rw [← hc]; exact hk
        · have := ha c
          unfold amtAt at *
          simp only [amtFind, hc, if_false] at this; exact this

theorem net_append_one (c c' : Str) (v : Rat) (seg : List (Str × Rat)) :
    net c' (seg ++ [(c, v)]) = net c' seg + (if c = c' then v else 0) := by
  unfold net
  by_cases h : c = c' <;> simp [h]

theorem amtAt_clear (m : List (Str × Rat)) (c : Str) : amtAt (m.map fun kv => (kv.1, (0 : Rat))) c = 0 := by
  unfold amtAt
  induction m with
  | nil => rfl
  | cons kv m ih =>
    simp only [List.map_cons, amtFind]
    split
    · rfl
    · exact ih

/-! ### Names -/

theorem intDec_no_space (i : Int) : 32 ∉ intDec i := by
  unfold intDec
  have := natDec_digits i.natAbs
  split
  · intro h
    rcases List.mem_cons.1 h with h | h
    · omega
    · have := this 32 h; omega
  · intro h; have := this 32 h; omega

theorem intDec_injective {i j : Int} (h : intDec i = intDec j) : i = j := by
  unfold intDec at h
  have nm : ∀ n, ∀ l, (45 :: l) ≠ natDec n := by
    intro n l e
    have := natDec_digits n 45 (by rw [← e]; simp)
    omega
  split at h <;> split at h
  · have := natDec_injective (List.cons.inj h).2; omega
  · exact absurd h (nm _ _)
  · exact absurd h.symm (nm _ _)
  · have := natDec_injective h; omega

theorem split_at_space {a b c d : Str} (ha : 32 ∉ a) (hc : 32 ∉ c) (h : a ++ 32 :: b = c ++ 32 :: d) :
    a = c ∧ b = d := by
  induction a generalizing c with
  | nil =>
    cases c with
    | nil => simpa using h
    | cons x c => simp at h; exact absurd (by simp [h.1]) hc
  | cons y a ih =>
    cases c with
    | nil => simp at h; exact absurd (by simp [h.1]) ha
    | cons x c =>
      simp only [List.cons_append, List.cons.injEq] at h
      obtain ⟨e1, e2⟩ := ih (fun m => ha (by simp [m])) (fun m => hc (by simp [m])) h.2
      exact ⟨by rw [h.1, e1], e2⟩

theorem txnKey_injective {d d' : Int} {p p' : Str} (h : txnKey d p = txnKey d' p') : d = d' ∧ p = p' := by
  obtain ⟨h1, h2⟩ := split_at_space (intDec_no_space d) (intDec_no_space d') h
  exact ⟨intDec_injective h1, h2⟩

theorem numbered_injective {p : Str} {i j : Nat} (h : numbered p i = numbered p j) : i = j := by
  unfold numbered at h
  have h := List.append_cancel_right h
  exact natDec_injective (List.append_cancel_left h)

theorem numbered_ne (p : Str) (i : Nat) : numbered p i ≠ p := by
  intro h
  have := congrArg List.length h
  simp [numbered] at this

/-- The `i`-th name tried (from 1). -/
def cand (p : Str) (i : Nat) : Str := if i = 1 then p else numbered p i

theorem cand_injective {p : Str} {i j : Nat} (h : cand p i = cand p j) : i = j := by
  unfold cand at h
  split at h <;> split at h
  · omega
  · exact absurd h.symm (numbered_ne _ _)
  · exact absurd h (numbered_ne _ _)
  · exact numbered_injective h

theorem renameLoop_none {prev : List Str} {d : Int} {p : Str} {f i : Nat} (hi : 1 ≤ i)
    (h : renameLoop prev d p f i (cand p i) = none) : ∀ j < f, txnKey d (cand p (i + j)) ∈ prev := by
  induction f generalizing i with
  | zero => intro j hj; omega
  | succ f ih =>
    unfold renameLoop at h
    split at h
    · rename_i hm
      have e : numbered p (i + 1) = cand p (i + 1) := by unfold cand; rw [if_neg (by omega)]
      rw [e] at h
      intro j hj
      cases j with
      | zero => exact hm
      | succ j =>
        have := ih (by omega) h j (by omega)
        rwa [show i + 1 + j = i + (j + 1) by omega] at this
    · cases h

theorem renameLoop_some {prev : List Str} {d : Int} {p q : Str} {f i : Nat} (hi : 1 ≤ i)
    (h : renameLoop prev d p f i (cand p i) = some q) :
    ∃ k, i ≤ k ∧ q = cand p k ∧ txnKey d q ∉ prev ∧ ∀ j, i ≤ j → j < k → txnKey d (cand p j) ∈ prev := by
  induction f generalizing i with
  | zero => simp [renameLoop] at h
  | succ f ih =>
    unfold renameLoop at h
    split at h
    · rename_i hm
      have e : numbered p (i + 1) = cand p (i + 1) := by unfold cand; rw [if_neg (by omega)]
      rw [e] at h
      obtain ⟨k, hk, hq, hn, hj⟩ := ih (by omega) h
      refine ⟨k, by omega, hq, hn, fun j h1 h2 => ?_⟩
      by_cases hji : j = i
      · rw [hji]; exact hm
      · exact hj j (by omega) h2
    · rename_i hm
      cases h
      exact ⟨i, le_refl _, rfl, hm, fun j h1 h2 => by omega⟩

theorem renameLoop_ne_none (prev : List Str) (d : Int) (p : Str) :
    renameLoop prev d p (prev.length + 1) 1 p ≠ none := by
  intro h
  have h := renameLoop_none (p := p) (i := 1) (le_refl 1) (by simpa [cand] using h)
  have hnd : ((List.range (prev.length + 1)).map (fun j => txnKey d (cand p (1 + j)))).Nodup := by
    rw [List.nodup_map_iff_inj_on List.nodup_range]
    intro x _ y _ e
    have := cand_injective (txnKey_injective e).2
    omega
  have hsub : ((List.range (prev.length + 1)).map (fun j => txnKey d (cand p (1 + j)))) ⊆ prev := by
    intro k hk
    obtain ⟨j, hj, rfl⟩ := List.mem_map.1 hk
    exact h j (List.mem_range.1 hj)
  have := (List.subperm_of_subset hnd hsub).length_le
  simp at this

end Verif
