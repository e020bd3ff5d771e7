import Verif.Props.Labels

/-! # C120: in a summary the larger amounts come first -/

namespace Verif
open Spec

/-- A hexadecimal digit as printed. -/
def HexDigit (c : Nat) : Prop := (48 ≤ c ∧ c < 58) ∨ (97 ≤ c ∧ c < 103)

theorem natHexAux_digits : ∀ f n, ∀ c ∈ natHexAux f n, HexDigit c := by
  have hd : ∀ m, m < 16 → HexDigit (if m < 10 then 48 + m else 87 + m) := by
    intro m hm; unfold HexDigit; split <;> omega
  intro f
  induction f with
  | zero => intro n c hc; simp only [natHexAux, List.mem_singleton] at hc; rw [hc]; exact hd _ (Nat.mod_lt _ (by omega))
  | succ f ih =>
    intro n c hc
    unfold natHexAux at hc
    split at hc
    · rename_i hn
      rw [List.mem_singleton] at hc; rw [hc]; exact hd n hn
    · rcases List.mem_append.1 hc with h | h
      · exact ih _ c h
      · rw [List.mem_singleton] at h; rw [h]; exact hd _ (Nat.mod_lt _ (by omega))

theorem hexVal_cons (c : Nat) (s : Str) : hexVal (c :: s) = (if c < 58 then c - 48 else c - 87) * 16 ^ s.length + hexVal s := by
  induction s using List.reverseRecOn with
  | nil => simp [hexVal]
  | append_singleton s x ih =>
    rw [← List.cons_append, hexVal_append, ih, hexVal_append, List.length_append, List.length_singleton, pow_succ]
    ring

theorem hexVal_lt (s : Str) (h : ∀ c ∈ s, HexDigit c) : hexVal s < 16 ^ s.length := by
  induction s with
  | nil => simp [hexVal]
  | cons c s ih =>
    rw [hexVal_cons, List.length_cons, pow_succ]
    have := ih (fun x hx => h x (by simp [hx]))
    have hc : (if c < 58 then c - 48 else c - 87) ≤ 15 := by
      have := h c (by simp)
      unfold HexDigit at this
      split <;> omega
    have := Nat.mul_le_mul_right (16 ^ s.length) hc
    omega

/-- Texts of hexadecimal digits of the same length are in the order of their values. -/
theorem hexVal_order : ∀ (s t : Str), s.length = t.length → (∀ c ∈ s, HexDigit c) → (∀ c ∈ t, HexDigit c) → ¬ t < s → hexVal s ≤ hexVal t := by
  intro s
  induction s with
  | nil => intro t hl _ _ _; simp [hexVal]
  | cons c s ih =>
    intro t hl hs ht hn
    cases t with
    | nil => simp at hl
    | cons x t =>
      rw [List.cons_lt_cons_iff] at hn
      rw [hexVal_cons, hexVal_cons]
      have hl' : s.length = t.length := by simpa using hl
      have h1 := hexVal_lt s (fun y hy => hs y (by simp [hy]))
      have hc := hs c (by simp)
      have hx := ht x (by simp)
      unfold HexDigit at hc hx
      rcases lt_trichotomy c x with h | h | h
      · have hlt : (if c < 58 then c - 48 else c - 87) + 1 ≤ (if x < 58 then x - 48 else x - 87) := by split <;> split <;> omega
        have := Nat.mul_le_mul_right (16 ^ s.length) hlt
        rw [← hl']
        rw [Nat.add_mul] at this
        omega
      · subst h
        have := ih t hl' (fun y hy => hs y (by simp [hy])) (fun y hy => ht y (by simp [hy])) (fun h => hn (Or.inr ⟨rfl, h⟩))
        rw [hl']; omega
      · exact absurd (Or.inl h) hn

theorem trunc_bound {v : Rat} (h : |v| ≤ 1000000000) : ratTrunc (v * 1000000) ≤ 1000000000 * 1000000 := by
  unfold ratTrunc
  obtain ⟨h1, h2⟩ := abs_le.1 h
  generalize hw : v * 1000000 = w
  have hden : (0 : Int) < w.den := by exact_mod_cast w.pos
  have hdq : (0 : Rat) < w.den := by exact_mod_cast w.pos
  have hwn : (w.num : Rat) = w * w.den := by
    have := Rat.num_div_den w
    have hne : (w.den : Rat) ≠ 0 := by exact_mod_cast w.den_nz
    rw [div_eq_iff hne] at this
    exact this
  have b1 : w.num ≤ 1000000000000000 * w.den := by
    have : (w.num : Rat) ≤ 1000000000000000 * w.den := by
      rw [hwn]; apply mul_le_mul_of_nonneg_right _ hdq.le; rw [← hw]; linarith
    exact_mod_cast this
  by_cases hn : 0 ≤ w.num
  · rw [Int.tdiv_eq_ediv_of_nonneg hn]
    exact Int.ediv_le_of_le_mul hden (by linarith)
  · have : w.num.tdiv w.den ≤ 0 := by
      have h3 : 0 ≤ (-w.num).tdiv w.den := Int.tdiv_nonneg (by omega) (by omega)
      rw [Int.neg_tdiv] at h3; omega
    omega

theorem trunc_order {v w : Rat} (h : ratTrunc (v * 1000000) ≤ ratTrunc (w * 1000000)) : v < w + 2 / 1000000 := by
  have hb : ∀ x : Rat, x - 1 < ratTrunc x ∧ (ratTrunc x : Rat) < x + 1 := by
    intro x
    unfold ratTrunc
    have hdq : (0 : Rat) < x.den := by exact_mod_cast x.pos
    have e : (x.num : Rat) = x * x.den := by
      have := Rat.num_div_den x
      have hne : (x.den : Rat) ≠ 0 := by exact_mod_cast x.den_nz
      rw [div_eq_iff hne] at this
      exact this
    have h1 := Int.mul_tdiv_add_tmod x.num x.den
    have h2 : |x.num.tmod x.den| < x.den := by
      rw [← Int.natCast_natAbs, Int.natAbs_tmod]
      have := Nat.mod_lt x.num.natAbs x.pos
      exact_mod_cast this
    have h3 : (x.den : Rat) * (x.num.tdiv x.den : Int) + (x.num.tmod x.den : Int) = x * x.den := by rw [← e]; exact_mod_cast h1
    obtain ⟨h4, h5⟩ := abs_lt.1 h2
    have h4' : -(x.den : Rat) < (x.num.tmod x.den : Int) := by exact_mod_cast h4
    have h5' : ((x.num.tmod x.den : Int) : Rat) < x.den := by exact_mod_cast h5
    constructor
    · by_contra hc
      have := mul_le_mul_of_nonneg_left (not_lt.1 hc) hdq.le
      linarith [mul_comm x (x.den : Rat), mul_sub (x.den : Rat) x 1]
    · by_contra hc
      have := mul_le_mul_of_nonneg_left (not_lt.1 hc) hdq.le
      linarith [mul_comm x (x.den : Rat), mul_add (x.den : Rat) x 1]
  have h1 := (hb (v * 1000000)).1
  have h2 := (hb (w * 1000000)).2
  have h3 : ((ratTrunc (v * 1000000) : Int) : Rat) ≤ (ratTrunc (w * 1000000) : Int) := by exact_mod_cast h
  linarith

theorem sortOrder_order {v w : Rat} (hv : |v| ≤ 1000000000) (hw : |w| ≤ 1000000000) (h : ¬ getSortOrder w < getSortOrder v) :
    w < v + 2 / 1000000 := by
  have dig : ∀ x : Rat, |x| ≤ 1000000000 → ∃ n : Nat, ((n : Nat) : Int) = 1000000000 * 1000000 - ratTrunc (x * 1000000) ∧
      (∀ c ∈ getSortOrder x, HexDigit c) ∧ hexVal (getSortOrder x) = n ∧ (getSortOrder x).length = 15 := by
    intro x hx
    have hb := trunc_bound hx
    obtain ⟨n, hn⟩ := Int.eq_ofNat_of_zero_le (show 0 ≤ 1000000000 * 1000000 - ratTrunc (x * 1000000) by omega)
    refine ⟨n, by omega, ?_, ?_, hexPad_length _ (fits_of_bound (by linarith))⟩
    · intro c hc
      unfold getSortOrder hexPad at hc
      rw [hn] at hc
      simp only at hc
      rw [if_neg (by omega)] at hc
      rcases List.mem_append.1 hc with hc | hc
      · rw [List.eq_of_mem_replicate hc]; unfold HexDigit; omega
      · exact natHexAux_digits _ _ c hc
    · unfold getSortOrder hexPad
      rw [hn]
      simp only
      rw [if_neg (by omega), hexVal_zeros]
      exact hexVal_natHexAux n n (le_refl _)
  obtain ⟨n, n1, n2, n3, n4⟩ := dig v hv
  obtain ⟨m, m1, m2, m3, m4⟩ := dig w hw
  have := hexVal_order _ _ (by rw [n4, m4]) n2 m2 h
  rw [n3, m3] at this
  apply trunc_order
  omega

theorem join_last {d : Nat} (l : List Str) (x y : Str) (h : ¬ joinWith [d] (l ++ [y]) < joinWith [d] (l ++ [x])) : ¬ y < x := by
  have app : ∀ (a s t : Str), a ++ s < a ++ t ↔ s < t := by
    intro a s t
    induction a with
    | nil => rfl
    | cons c a ih => rw [List.cons_append, List.cons_append, List.cons_lt_cons_iff, ih]; simp
  induction l with
  | nil => exact h
  | cons k l ih =>
    apply ih
    intro hlt
    apply h
    have e : ∀ z : Str, joinWith [d] (k :: l ++ [z]) = k ++ [d] ++ joinWith [d] (l ++ [z]) := by
      intro z
      cases l with
      | nil => rfl
      | cons k2 l => rfl
    rw [e, e, app]
    exact hlt

variable {base : Str} {d : Nat} {S : List Str} {val : Str → Option Rat} {g : Txn}

/-- The chain of an account with a row: the accounts above it, and itself. -/
theorem ColRows.chain_split (h : ColRows base d S val g) {x : Posting} (hx : x ∈ g) :
    ∃ l, chain val d x.acct = l ++ [x.acct] ∧ ∀ w, w ∈ l ↔ w ≠ [] ∧ (val w).isSome ∧ Above [d] w x.acct := by
  obtain ⟨l, r, e⟩ := List.append_of_mem (h.chain_ne hx)
  have hs := chain_sorted val d x.acct
  rw [e, List.pairwise_append, List.pairwise_cons] at hs
  have hr : r = [] := by
    cases r with
    | nil => rfl
    | cons z r =>
      have h1 := hs.2.1.1 z (by simp)
      have h2 := (atOrAbove_take (mem_chain.1 (show z ∈ chain val d x.acct by rw [e]; simp)).2.1).2
      omega
  subst hr
  refine ⟨l, e, fun w => ?_⟩
  constructor
  · intro hw
    have hm := mem_chain.1 (show w ∈ chain val d x.acct by rw [e]; simp [hw])
    refine ⟨hm.1, hm.2.2, ?_⟩
    rcases hm.2.1 with e' | h'
    · have := hs.2.2 w hw x.acct (by simp)
      rw [e'] at this; omega
    · exact h'
  · rintro ⟨h1, h2, h3⟩
    have hm : w ∈ chain val d x.acct := mem_chain.2 ⟨h1, Or.inr h3, h2⟩
    rw [e] at hm
    rcases List.mem_append.1 hm with hm | hm
    · exact hm
    · rw [List.mem_singleton] at hm
      subst hm
      have := above_length h3; omega

theorem ColRows.largestFirst (h : ColRows base d S val g) (hfit : ∀ x ∈ g, |x.val| ≤ 1000000000) : LargestFirst base [d] g := by
  unfold LargestFirst
  rw [List.pairwise_iff_forall_sublist]
  intro x y hsub hx hy hsib
  have hord := (List.pairwise_iff_forall_sublist.1 h.order) hsub
  obtain ⟨lx, ex, mx⟩ := h.chain_split hx.1
  obtain ⟨ly, ey, my⟩ := h.chain_split hy.1
  have hl : lx = ly := by
    have sx := chain_sorted val d x.acct
    have sy := chain_sorted val d y.acct
    rw [ex, List.pairwise_append] at sx
    rw [ey, List.pairwise_append] at sy
    apply sorted_eq sx.1 sy.1
    intro w
    rw [mx, my]
    constructor
    · rintro ⟨h1, h2, h3⟩
      obtain ⟨v, hv⟩ := Option.isSome_iff_exists.1 h2
      obtain ⟨z, hz, ez, _⟩ := h.heads w v hv
      have := hsib.2 z hz.1
      rw [ez] at this
      exact ⟨h1, h2, this.1 h3⟩
    · rintro ⟨h1, h2, h3⟩
      obtain ⟨v, hv⟩ := Option.isSome_iff_exists.1 h2
      obtain ⟨z, hz, ez, _⟩ := h.heads w v hv
      have := hsib.2 z hz.1
      rw [ez] at this
      exact ⟨h1, h2, this.2 h3⟩
  have hval : ∀ z, HeadRow base g z → keyOf val z.acct = getSortOrder z.val := by
    intro z hz
    obtain ⟨v, hv⟩ := Option.isSome_iff_exists.1 (h.valued z hz.1)
    obtain ⟨z', hz', e1, e2⟩ := h.heads z.acct v hv
    unfold keyOf
    rw [hv, Option.getD_some, ← e2]
    have hlev : z.acctlevel = z'.acctlevel := le_antisymm (hz.2.2 z' hz'.1 e1) (hz'.2.2 z hz.1 e1.symm)
    have hk : lineKey z' = lineKey z := by
      unfold lineKey
      rw [e1, hlev, hz.2.1, hz'.2.1]
    have := List.inj_on_of_nodup_map h.keys hz'.1 hz.1 hk
    rw [this]
  have hs := (isLess_sort (h.same y hy.1 x hx.1) hord).1
  rw [h.srt y hy.1, h.srt x hx.1, sortString_chain, sortString_chain, ex, ey, ← hl, List.map_append, List.map_append] at hs
  have := join_last _ _ _ hs
  rw [hval x hx, hval y hy] at this
  exact sortOrder_order (hfit x hx.1) (hfit y hy.1) this

/-- **C120** (in part): in the columns of a summary with a divider of one character (before `--credit` and `--hidden` negate and leave out rows), with
account names and amounts up to a thousand million, the larger of two siblings comes first. -/
theorem c120_largest_first_partial (le : Env) (depth : Nat) (e : OpEnv) (hs : IsSort e.srt) (fuel : Nat) (a : AppConf) (d : Nat) (hd : a.divider = [d])
    (r : ReportConf) (hr : r.sum = true) (ht : r.typ ≠ b!"Beancount") (o : Int → Str → List Str → List Str) (ho : ∀ d py l, (o d py l).Perm l)
    (args : List Str) (ts : List Txn) (h : reportCmd le depth e fuel a r o args = .ok ts) :
    ∃ gs : List Txn, ts = gs.map (shown (if r.credit = [] then none else some (e.mat r.credit)) r.hidden) ∧
      ∀ g ∈ gs, (∀ x ∈ g, x.acct ≠ [] ∧ |x.val| ≤ 1000000000) → LargestFirst a.baseCCY a.divider g := by
  obtain ⟨gs, h1, h2⟩ := summary_columns hs hd hr ht ho h
  refine ⟨gs, h1, fun g hg hx => ?_⟩
  obtain ⟨S, val, hc⟩ := h2 g hg (fun x hx' => (hx x hx').1)
  rw [hd]
  exact hc.largestFirst (fun x hx' => (hx x hx').2)

instance (base div t) : Decidable (LargestFirst base div t) := by unfold LargestFirst; infer_instance

/-- Two thousand million and three thousand million. -/
def bigFile : Str := b!"2020/02/01 Buy\n  Exp:Car 2000000000 E\n  Exp:House 3000000000 E\n  Cash -5000000000 E\n"

example : (sumOfFile noTieFile).rows.map (fun ts => decide (∀ t ∈ ts, (∀ x ∈ t, x.acct ≠ [] ∧ |x.val| ≤ 1000000000) ∧ LargestFirst b!"E" b!":" t)) = some true := by
  decide +kernel
/-- The siblings `Exp:Car` (11) and `Exp:Food` (10) are head rows, so the statement speaks about them. -/
example : (sumOfFile noTieFile).rows.map (fun ts => decide (∀ t ∈ ts, ∃ x ∈ t, ∃ y ∈ t, HeadRow b!"E" t x ∧ HeadRow b!"E" t y ∧
    x.acct = b!"Exp:Car" ∧ y.acct = b!"Exp:Food" ∧ Siblings b!":" t x.acct y.acct)) = some true := by decide +kernel
example : (sumOfFile bigFile).labels = some [[(0, b!"Exp"), (1, b!"Car"), (1, b!"House"), (0, b!"Cash")]] := by decide +kernel

/-- **C120** fails: of amounts above a thousand million the smaller comes first. -/
theorem c120_largest_first_fails : ¬ ∀ (le : Env) (depth : Nat) (e : OpEnv), IsSort e.srt → ∀ (fuel : Nat) (a : AppConf) (d : Nat), a.divider = [d] →
    ∀ (r : ReportConf), r.sum = true → r.typ ≠ b!"Beancount" → r.hidden = [] → r.credit = [] → ∀ (o : Int → Str → List Str → List Str),
    (∀ d py l, (o d py l).Perm l) → ∀ (args : List Str) (ts : List Txn), reportCmd le depth e fuel a r o args = .ok ts →
    ∀ t ∈ ts, (∀ x ∈ t, x.acct ≠ []) → LargestFirst a.baseCCY a.divider t := by
  intro hall
  have hk : ((sumOfFile bigFile).rows.map fun ts => decide (∀ t ∈ ts, (∀ x ∈ t, x.acct ≠ []) → LargestFirst b!"E" b!":" t)) = some false := by decide +kernel
  cases hc : sumOfFile bigFile with
  | ok ts =>
    rw [hc] at hk
    simp only [CmdEnd.rows, Option.map_some, Option.some.injEq, decide_eq_false_iff_not] at hk
    exact hk (hall _ _ plainOps insSort_isSort _ demoApp 58 rfl _ rfl (by decide) rfl rfl _ (fun _ _ _ => List.Perm.refl _) _ ts hc)
  | err => rw [hc] at hk; cases hk
  | crash => rw [hc] at hk; cases hk
  | diverge => rw [hc] at hk; cases hk
  | fatal => rw [hc] at hk; cases hk

end Verif
