import Verif.Spec.IRR
import Mathlib.Analysis.SpecialFunctions.Pow.Deriv

namespace Verif
open Spec

/-! # C75 -/

/-- The rates that the Newton iteration visits. -/
def rateAt {F : Type} (A : Arith F) (c0 : F) (flows : List (F × F)) : Nat → F
  | 0 => A.start
  | k + 1 =>
    let g := rateAt A c0 flows k
    let newRate := A.sub g (A.div (residual A c0 flows g) (residualAdj A flows g))
    if A.lt newRate A.minusOne then A.floor else newRate

theorem irrLoop_spec {F : Type} (A : Arith F) (c0 : F) (flows : List (F × F)) (k : Nat) : ∀ j,
    ∃ i, i ≤ k ∧ irrLoop A c0 flows k (rateAt A c0 flows j) = rateAt A c0 flows (j + i) ∧
      (i = k ∨ A.lt (A.abs (residual A c0 flows (rateAt A c0 flows (j + i)))) A.epsilon = true ∨
        A.lt (A.abs (A.sub (A.sub (rateAt A c0 flows (j + i)) (A.div (residual A c0 flows (rateAt A c0 flows (j + i)))
          (residualAdj A flows (rateAt A c0 flows (j + i))))) (rateAt A c0 flows (j + i)))) A.epsilon = true) := by
  induction k with
  | zero => intro j; exact ⟨0, le_rfl, rfl, Or.inl rfl⟩
  | succ k ih =>
    intro j
    unfold irrLoop
    simp only
    split
    · rename_i h; exact ⟨0, by omega, rfl, Or.inr (Or.inl h)⟩
    · split
      · rename_i h; exact ⟨0, by omega, rfl, Or.inr (Or.inr h)⟩
      · obtain ⟨i, hi, h1, h2⟩ := ih (j + 1)
        refine ⟨i + 1, by omega, ?_, ?_⟩
        · rw [show j + (i + 1) = j + 1 + i by omega, ← h1]
          rfl
        · rw [show j + (i + 1) = j + 1 + i by omega]
          rcases h2 with h2 | h2
          · left; omega
          · right; exact h2

/-- C75, for any arithmetic (in particular IEEE floats): at most 10000 Newton steps from 0.1 are taken, and unless all 10000 are taken, the rate
returned has a residual, or a next step, smaller than 0.0001.  As long as 0.1 and -0.999999999 do not compare below -1, neither
does the result. -/
theorem c75_bounded {F : Type} (A : Arith F) (dates : List Int) (c0 : F) (cs : List F) (r : F)
    (h : calculateIRR A dates (c0 :: cs) = some r) :
    ∃ years flows, irrYears A dates = some years ∧ flows = years.tail.zip cs ∧ flows.length = cs.length ∧
      (∃ k, k ≤ 10000 ∧ r = rateAt A c0 flows k ∧
        (k = 10000 ∨ A.lt (A.abs (residual A c0 flows r)) A.epsilon = true ∨
          A.lt (A.abs (A.sub (A.sub r (A.div (residual A c0 flows r) (residualAdj A flows r))) r)) A.epsilon = true)) ∧
      (A.lt A.start A.minusOne = false → A.lt A.floor A.minusOne = false → A.lt r A.minusOne = false) := by
  unfold calculateIRR at h
  split at h
  · simp at h
  · rename_i years hy
    simp only at h
    split at h
    · simp at h
    · rename_i hlen
      simp only [Option.some.injEq] at h
      obtain ⟨k, hk, h1, h2⟩ := irrLoop_spec A c0 (years.tail.zip cs) 10000 0
      have hr : r = rateAt A c0 (years.tail.zip cs) k := by
        rw [← h]
        simpa [rateAt] using h1
      simp only [Nat.zero_add] at h2
      rw [← hr] at h2
      refine ⟨years, _, hy, rfl, ?_, ⟨k, hk, hr, h2⟩, ?_⟩
      · simp at hlen ⊢; omega
      · intro hs hf
        rw [hr]
        cases k with
        | zero => exact hs
        | succ k =>
          simp only [rateAt]
          split
          · exact hf
          · rename_i hh; simpa using hh

/-- C75: it does not crash when there is at least one date and cash flow, no more cash flows than dates, and all dates are real. -/
theorem c75_no_crash {F : Type} (A : Arith F) (dates : List Int) (cashflow : List F) (hd : dates ≠ []) (hc : cashflow ≠ [])
    (hlen : cashflow.length ≤ dates.length) (hv : ∀ d ∈ dates, ∃ y, asYears d = some y) :
    ∃ r, calculateIRR A dates cashflow = some r := by
  obtain ⟨d, ds, rfl⟩ := List.exists_cons_of_ne_nil hd
  obtain ⟨c0, cs, rfl⟩ := List.exists_cons_of_ne_nil hc
  have hm : ∀ ds : List Int, (∀ d ∈ ds, ∃ y, asYears d = some y) → ∃ ys, ds.mapM asYears = some ys ∧ ys.length = ds.length := by
    intro ds
    induction ds with
    | nil => intro _; exact ⟨[], rfl, rfl⟩
    | cons x ds ih =>
      intro h
      obtain ⟨ys, h1, h2⟩ := ih (fun d hd => h d (by simp [hd]))
      obtain ⟨y, hy⟩ := h x (by simp)
      exact ⟨y :: ys, by simp [List.mapM_cons, hy, h1], by simp [h2]⟩
  obtain ⟨s, hs⟩ := hv d (by simp)
  obtain ⟨ys, h1, h2⟩ := hm ds (fun d hd => hv d (by simp [hd]))
  simp only [List.length_cons] at hlen
  unfold calculateIRR irrYears
  simp only [hs, h1, Option.map_some, List.length_cons, List.length_map]
  rw [if_neg (by omega)]
  exact ⟨_, rfl⟩

theorem residual_real (c0 : ℝ) (flows : List (ℝ × ℝ)) (r : ℝ) : residual realArith c0 flows r = presentValue c0 flows r := by
  unfold residual presentValue
  induction flows generalizing c0 with
  | nil => simp
  | cons yc flows ih =>
    rw [List.foldl_cons, ih, List.map_cons, List.sum_cons]
    simp only [realArith]
    ring

theorem residualAdj_real (flows : List (ℝ × ℝ)) (r : ℝ) : residualAdj realArith flows r = presentValue' flows r := by
  unfold residualAdj presentValue'
  have : ∀ c : ℝ, flows.foldl (fun r' yc => realArith.sub r' (realArith.div (realArith.mul yc.1 yc.2)
      (realArith.pow (realArith.add realArith.one r) (realArith.add yc.1 realArith.one)))) c =
      c - (flows.map fun yc => yc.1 * yc.2 / (1 + r) ^ (yc.1 + 1)).sum := by
    induction flows with
    | nil => simp
    | cons yc flows ih =>
      intro c
      rw [List.foldl_cons, ih, List.map_cons, List.sum_cons]
      simp only [realArith]
      ring
  rw [this]
  simp [realArith]

/-- C75: what is divided by is the derivative of the present value. -/
theorem c75_newton (c0 : ℝ) (flows : List (ℝ × ℝ)) (r : ℝ) (hr : -1 < r) :
    HasDerivAt (presentValue c0 flows) (presentValue' flows r) r := by
  unfold presentValue presentValue'
  have h : HasDerivAt (fun r : ℝ => (flows.map fun yc => yc.2 / (1 + r) ^ yc.1).sum)
      (-(flows.map fun yc => yc.1 * yc.2 / (1 + r) ^ (yc.1 + 1)).sum) r := by
    induction flows with
    | nil => simpa using hasDerivAt_const r (0 : ℝ)
    | cons yc flows ih =>
      simp only [List.map_cons, List.sum_cons, neg_add]
      refine HasDerivAt.add ?_ ih
      have hpos : 0 < 1 + r := by linarith
      have h1 : HasDerivAt (fun r : ℝ => 1 + r) 1 r := by simpa using (hasDerivAt_id r).const_add 1
      have h2 := h1.rpow_const (p := yc.1) (Or.inl hpos.ne')
      have h3 : HasDerivAt (fun r : ℝ => yc.2 / (1 + r) ^ yc.1) ((0 * (1 + r) ^ yc.1 - yc.2 * (1 * yc.1 * (1 + r) ^ (yc.1 - 1))) / ((1 + r) ^ yc.1) ^ 2) r :=
        (hasDerivAt_const r yc.2).div h2 (Real.rpow_pos_of_pos hpos _).ne'
      have e : -(yc.1 * yc.2 / (1 + r) ^ (yc.1 + 1)) =
          (0 * (1 + r) ^ yc.1 - yc.2 * (1 * yc.1 * (1 + r) ^ (yc.1 - 1))) / ((1 + r) ^ yc.1) ^ 2 := by
        rw [Real.rpow_add hpos, Real.rpow_sub hpos, Real.rpow_one]
        have := (Real.rpow_pos_of_pos hpos yc.1).ne'
        field_simp
        try ring
      rw [e]
      exact h3
  simpa using h.const_add c0

/-- C75 over the real numbers: unless 10000 steps were taken, the rate returned brings the present value within 0.0001 of zero, or the next Newton step is shorter than 0.0001 (or
there is no next step, because the derivative vanishes); and the rate is never below -1. -/
theorem c75_real (dates : List Int) (c0 : ℝ) (cs : List ℝ) (r : ℝ) (h : calculateIRR realArith dates (c0 :: cs) = some r) :
    ∃ years flows, irrYears realArith dates = some years ∧ flows = years.tail.zip cs ∧
      (|presentValue c0 flows r| < 1 / 10000 ∨ |presentValue c0 flows r / presentValue' flows r| < 1 / 10000 ∨
        r = rateAt realArith c0 flows 10000) ∧ -1 ≤ r := by
  obtain ⟨years, flows, h1, h2, -, ⟨k, hk, hr, hstop⟩, hlow⟩ := c75_bounded realArith dates c0 cs r h
  refine ⟨years, flows, h1, h2, ?_, ?_⟩
  · rw [residual_real, residualAdj_real] at hstop
    rcases hstop with rfl | hstop | hstop
    · exact Or.inr (Or.inr hr)
    · refine Or.inl ?_
      simpa [realArith] using hstop
    · refine Or.inr (Or.inl ?_)
      have : |r - presentValue c0 flows r / presentValue' flows r - r| < 1 / 10000 := by simpa [realArith] using hstop
      rw [show r - presentValue c0 flows r / presentValue' flows r - r = -(presentValue c0 flows r / presentValue' flows r) by ring, abs_neg] at this
      exact this
  · have := hlow (by simp [realArith]; norm_num) (by simp [realArith]; norm_num)
    simpa [realArith] using this

/-- Non-vacuity: a deposit of 100 that returns 110 after a year. -/
example : ∃ r, calculateIRR realArith [20200101, 20210101] [-100, 110] = some r :=
  c75_no_crash _ _ _ (by simp) (by simp) (by simp) (by
    intro d hd
    have hall : ∀ d ∈ [(20200101 : Int), 20210101], (asYears d).isSome = true := by decide +kernel
    exact Option.isSome_iff_exists.1 (hall d hd))

/-- **C75**: the times of the cash flows are the years since the first one, which is now. -/
theorem c75_years (d : Int) (ds : List Int) (years : List ℝ) (h : irrYears realArith (d :: ds) = some years) :
    ∃ s ys, asYears d = some s ∧ List.Forall₂ (fun x y => asYears x = some y) ds ys ∧ years = 0 :: ys.map fun y : Rat => ((y : ℝ) - (s : ℝ)) := by
  simp only [irrYears] at h
  split at h
  · cases h
  · rename_i s hs
    obtain ⟨ys, h1, rfl⟩ := Option.map_eq_some_iff.1 h
    refine ⟨s, ys, hs, ?_, rfl⟩
    clear h hs
    induction ds generalizing ys with
    | nil => cases h1; exact .nil
    | cons x ds ih =>
      rw [List.mapM_cons] at h1
      obtain ⟨y, hy, h1⟩ := Option.bind_eq_some_iff.1 h1
      obtain ⟨ys', hys, h1⟩ := Option.bind_eq_some_iff.1 h1
      cases h1
      exact .cons hy (ih ys' hys)

end Verif
