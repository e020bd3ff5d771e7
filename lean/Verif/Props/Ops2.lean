import Verif.Props.Ops
import Verif.Props.Date
import Mathlib.Data.List.Dedup
import Mathlib.Tactic.FieldSimp

/-! # C13, C15, C17, C18, C19 -/

namespace Verif
open Spec

/-! ## C13 -/

namespace Spec

/-- Date of the j-th instalment (j = 0, 1, …) of a posting dated `date`. -/
def dueDate (today : Int) (period : Str) (date : Int) : Nat → Int
  | 0 => date
  | j + 1 => floorDiff today (dueDate today period date j) period 1

/-- What one original unit of money posted at (date, payee, account, currency) of `p`
contributes, after depreciation over `n` periods, to (d, py, a, c): a posting to a matching
account is moved to the asset account at its date, and then `n` times, at the due dates,
`1/n` of it is moved back. -/
def depShare (today : Int) (mat : Str → Bool) (rep : Str → Str) (period : Str) (n : Int)
    (d : Int) (py a c : Str) (p : Posting) : Rat :=
  if p.payee = py ∧ p.ccy = c then
    if mat p.acct then
      (if p.date = d ∧ rep p.acct = a then 1 else 0) +
      ((List.range n.toNat).map fun j =>
        if dueDate today period p.date j = d then
          (1 / (n : Rat)) * ((if p.acct = a then 1 else 0) - (if rep p.acct = a then 1 else 0))
        else 0).sum
    else if p.date = d ∧ p.acct = a then 1 else 0
  else 0

end Spec

private theorem total_flatMap' {α} (P : Posting → Bool) (l : List α) (g : α → List Posting) :
    total P (l.flatMap g) = (l.map (fun x => total P (g x))).sum := by
  induction l with
  | nil => rfl
  | cons x l ih => rw [List.flatMap_cons, total_append, ih]; simp

private theorem dueDate_shift (today : Int) (period : Str) (date : Int) (j : Nat) :
    dueDate today period (floorDiff today date period 1) j = dueDate today period date (j + 1) := by
  induction j with
  | zero => rfl
  | succ j ih => simp only [dueDate] at ih ⊢; rw [ih]

private theorem total_instalments (today : Int) (p : Posting) (nacct period : Str) (n : Int)
    (d : Int) (py a c : Str) : ∀ (k : Nat) (date : Int),
    entryTotal d py a c (instalments today p nacct period n k date) =
      if p.payee = py ∧ p.ccy = c then
        ((List.range k).map fun j =>
          if dueDate today period date j = d then
            (1 / (n : Rat)) * ((if p.acct = a then 1 else 0) - (if nacct = a then 1 else 0))
          else 0).sum * p.val
      else 0 := by
  intro k
  induction k with
  | zero => intro date; simp [instalments, entryTotal]
  | succ k ih =>
    intro date
    have ih' := ih (floorDiff today date period 1)
    unfold entryTotal at ih' ⊢
    rw [instalments, total_cons, total_cons, ih']
    simp only [Posting.byAcctDateFactor, Posting.dup]
    rw [List.range_succ_eq_map, List.map_cons, List.map_map, List.sum_cons]
    have : ((fun j => if dueDate today period date j = d then
        1 / (n : Rat) * ((if p.acct = a then 1 else 0) - (if nacct = a then 1 else 0)) else 0) ∘ Nat.succ) =
        fun j => if dueDate today period (floorDiff today date period 1) j = d then
          1 / (n : Rat) * ((if p.acct = a then 1 else 0) - (if nacct = a then 1 else 0)) else 0 := by
      funext j; simp only [Function.comp]; rw [dueDate_shift]
    rw [this]
    by_cases h : p.payee = py ∧ p.ccy = c
    · obtain ⟨h1, h2⟩ := h
      simp only [h1, h2, dueDate, true_and, and_true]
      by_cases hd : date = d
      · by_cases ha : p.acct = a <;> by_cases hn : nacct = a <;> simp [hd, ha, hn] <;> ring
      · simp [hd]
    · have n1 : ∀ X Y : Prop, ¬ (X ∧ p.payee = py ∧ Y ∧ p.ccy = c) := fun X Y hh => h ⟨hh.2.1, hh.2.2.2⟩
      simp [h, n1]

/-- C13 (a): complete description of `Depreciate`: the amount reported for every (date,
payee, account, currency) is the sum over the original postings of their share. -/
theorem c13_depreciate (srt : List Posting → List Posting) (hs : IsSort srt) (today : Int) (b : Book)
    (hr : Reachable srt today b) (mat : Str → Bool) (rep : Str → Str) (period : Str) (n : Int)
    (d : Int) (py a c : Str) :
    entryTotal d py a c (reported srt (b.depreciate srt today mat rep period n)) =
      ((reported srt b).map fun p => depShare today mat rep period n d py a c p * p.val).sum := by
  have w := (reachable_wf hs hr).1
  have w' := (reachable_wf hs (reachable_filter hr (.depreciate mat rep period n) rfl)).1
  have hk : KeyFun (depShare today mat rep period n d py a c) := by
    intro p q hpq
    obtain ⟨h1, h2, h3, h4⟩ := key_eq_iff.1 hpq
    simp only [depShare, h1, h2, h3, h4]
  show _ = wsum (depShare today mat rep period n d py a c) (reported srt b)
  rw [wsum_reported hs hk w]
  unfold entryTotal
  rw [total_reported hs (keyFun_of fun d' py' a' c' => decide (d' = d ∧ py' = py ∧ a' = a ∧ c' = c)) w']
  unfold Book.depreciate
  rw [total_compact hs (keyFun_of fun d' py' a' c' => decide (d' = d ∧ py' = py ∧ a' = a ∧ c' = c))]
  simp only
  rw [total_append, total_flatMap']
  generalize b.post = l
  induction l with
  | nil => simp
  | cons p l ih =>
    rw [total_cons, List.map_cons, List.sum_cons, wsum_cons, ← ih]
    have : (if decide (p.date = d ∧ p.payee = py ∧ p.acct = a ∧ p.ccy = c) = true then p.val else 0) +
        total (fun p => decide (p.date = d ∧ p.payee = py ∧ p.acct = a ∧ p.ccy = c)) (depreciatePost today mat rep period n p) =
        depShare today mat rep period n d py a c p * p.val := by
      unfold depreciatePost depShare
      by_cases hm : mat p.acct = true
      · rw [if_pos hm, if_pos hm, total_cons, total_cons]
        have hi := total_instalments today p (rep p.acct) period n d py a c n.toNat p.date
        unfold entryTotal at hi
        rw [hi]
        simp only [Posting.byFactor, Posting.byAcctFactor, Posting.byAcctDateFactor, Posting.dup]
        by_cases h : p.payee = py ∧ p.ccy = c
        · obtain ⟨h1, h2⟩ := h
          simp only [h1, h2, true_and, and_true, if_true]
          generalize hS : (List.map (fun j => if dueDate today period p.date j = d then
            1 / (n : Rat) * ((if p.acct = a then 1 else 0) - (if rep p.acct = a then 1 else 0)) else 0) (List.range n.toNat)).sum = S
          clear hS hi
          generalize rep p.acct = r
          by_cases hd : p.date = d <;> by_cases ha : p.acct = a <;> by_cases hn : r = a <;>
            simp [hd, ha, hn] <;> ring
        · have n1 : ∀ X Y : Prop, ¬ (X ∧ p.payee = py ∧ Y ∧ p.ccy = c) := fun X Y hh => h ⟨hh.2.1, hh.2.2.2⟩
          simp [h, n1]
      · rw [if_neg hm, if_neg hm, total_nil, add_zero]
        by_cases h : p.payee = py ∧ p.ccy = c
        · obtain ⟨h1, h2⟩ := h
          by_cases hd : p.date = d <;> by_cases ha : p.acct = a <;> simp [hd, ha, h1, h2]
        · have n1 : ∀ X Y : Prop, ¬ (X ∧ p.payee = py ∧ Y ∧ p.ccy = c) := fun X Y hh => h ⟨hh.2.1, hh.2.2.2⟩
          simp [h, n1]
    rw [← this]; ring

/-- C13 (b): the due dates of a real date: the date itself, then the first days of the
following periods (`c24_floorDiff_moves_k_periods` says which day that is). -/
theorem c13_dueDates (today : Int) (period : Str) (hb : properPeriod period) (t : YMD) (h : t.Valid) (j : Nat) :
    dueDate today period t.code 0 = t.code ∧
    dueDate today period t.code (j + 1) = floorDiff today t.code period ((j : Int) + 1) := by
  refine ⟨rfl, ?_⟩
  have hlow : ∀ j : Nat, 10101 ≤ floorDiff today t.code period ((j : Int) + 1) := by
    intro j
    have e := c24_floorDiff_moves_k_periods today period hb t h ((j : Int) + 1)
    simp only at e
    rw [e]
    obtain ⟨h1, h2, h3, h4, h5⟩ := h
    unfold YMD.code
    simp only
    have hmp : monthsPer period = 12 ∨ monthsPer period = 3 ∨ monthsPer period = 1 := by
      unfold monthsPer; split_ifs <;> simp
    rcases hmp with e' | e' | e' <;> rw [e'] <;> omega
  induction j with
  | zero => rfl
  | succ j ih =>
    rw [dueDate, ih, c24_floorDiff_additive today period hb t h _ 1 (hlow j)]
    push_cast; rfl

private theorem total_instalments_acct (today : Int) (p : Posting) (nacct period : Str) (n : Int) (a c : Str) :
    ∀ (k : Nat) (date : Int),
    acctTotal a c (instalments today p nacct period n k date) =
      (k : Rat) * (1 / (n : Rat)) * (if p.ccy = c then (if p.acct = a then p.val else 0) - (if nacct = a then p.val else 0) else 0) := by
  intro k
  induction k with
  | zero => intro date; simp [instalments, acctTotal]
  | succ k ih =>
    intro date
    have ih' := ih (floorDiff today date period 1)
    unfold acctTotal at ih' ⊢
    rw [instalments, total_cons, total_cons, ih']
    simp only [Posting.byAcctDateFactor, Posting.dup]
    by_cases hc : p.ccy = c <;> by_cases ha : p.acct = a <;> by_cases hn : nacct = a <;> simp [hc, ha, hn] <;> ring

private theorem acct_depreciate (srt : List Posting → List Posting) (hs : IsSort srt) (today : Int) (b : Book)
    (hr : Reachable srt today b) (mat : Str → Bool) (rep : Str → Str) (period : Str) (n : Int) (a c : Str) :
    acctTotal a c (reported srt (b.depreciate srt today mat rep period n)) =
      acctTotal a c (reported srt b) + (1 - (n.toNat : Rat) * (1 / (n : Rat))) *
        (total (fun p => decide ((mat p.acct = true ∧ rep p.acct = a) ∧ p.ccy = c)) (reported srt b) -
         total (fun p => decide ((mat p.acct = true ∧ p.acct = a) ∧ p.ccy = c)) (reported srt b)) := by
  have w := (reachable_wf hs hr).1
  have w' := (reachable_wf hs (reachable_filter hr (.depreciate mat rep period n) rfl)).1
  unfold acctTotal
  rw [total_reported hs (keyFun_of fun _ _ a' c' => decide (a' = a ∧ c' = c)) w',
    total_reported hs (keyFun_of fun _ _ a' c' => decide (a' = a ∧ c' = c)) w,
    total_reported hs (keyFun_of fun _ _ a' c' => decide ((mat a' = true ∧ rep a' = a) ∧ c' = c)) w,
    total_reported hs (keyFun_of fun _ _ a' c' => decide ((mat a' = true ∧ a' = a) ∧ c' = c)) w]
  unfold Book.depreciate
  rw [total_compact hs (keyFun_of fun _ _ a' c' => decide (a' = a ∧ c' = c))]
  simp only
  rw [total_append, total_flatMap']
  congr 1
  generalize b.post = l
  induction l with
  | nil => simp
  | cons p l ih =>
    rw [List.map_cons, List.sum_cons, total_cons, total_cons, ih]
    have : total (fun p => decide (p.acct = a ∧ p.ccy = c)) (depreciatePost today mat rep period n p) =
        (1 - (n.toNat : Rat) * (1 / (n : Rat))) *
          ((if decide ((mat p.acct = true ∧ rep p.acct = a) ∧ p.ccy = c) = true then p.val else 0) -
           (if decide ((mat p.acct = true ∧ p.acct = a) ∧ p.ccy = c) = true then p.val else 0)) := by
      unfold depreciatePost
      by_cases hm : mat p.acct = true
      · rw [if_pos hm, total_cons, total_cons]
        have hi := total_instalments_acct today p (rep p.acct) period n a c n.toNat p.date
        unfold acctTotal at hi
        rw [hi]
        simp only [Posting.byFactor, Posting.byAcctFactor, Posting.byAcctDateFactor, Posting.dup, hm, true_and]
        generalize rep p.acct = r
        by_cases hc : p.ccy = c <;> by_cases ha : p.acct = a <;> by_cases hn : r = a <;>
          simp [hc, ha, hn] <;> ring
      · rw [if_neg hm, total_nil]; simp [hm]
    rw [this]; ring

/-- C13 (c): with at least one period every account keeps its total in every currency. -/
theorem c13_totals_kept (srt : List Posting → List Posting) (hs : IsSort srt) (today : Int) (b : Book)
    (hr : Reachable srt today b) (mat : Str → Bool) (rep : Str → Str) (period : Str) (n : Int) (hn : 1 ≤ n) (a c : Str) :
    acctTotal a c (reported srt (b.depreciate srt today mat rep period n)) = acctTotal a c (reported srt b) := by
  rw [acct_depreciate srt hs today b hr]
  have e : ((n.toNat : Nat) : Rat) = (n : Rat) := by
    have : ((n.toNat : Nat) : Int) = n := Int.toNat_of_nonneg (by omega)
    exact_mod_cast this
  have hne : (n : Rat) ≠ 0 := by
    have : n ≠ 0 := by omega
    exact_mod_cast this
  rw [e, mul_one_div_cancel hne]
  ring

/-- C13 (d): with no (or a negative number of) periods the matching amounts go to the asset
account for good. -/
theorem c13_no_periods (srt : List Posting → List Posting) (hs : IsSort srt) (today : Int) (b : Book)
    (hr : Reachable srt today b) (mat : Str → Bool) (rep : Str → Str) (period : Str) (n : Int) (hn : n ≤ 0) (a c : Str) :
    acctTotal a c (reported srt (b.depreciate srt today mat rep period n)) =
      acctTotal a c (reported srt b) +
        (total (fun p => decide ((mat p.acct = true ∧ rep p.acct = a) ∧ p.ccy = c)) (reported srt b) -
         total (fun p => decide ((mat p.acct = true ∧ p.acct = a) ∧ p.ccy = c)) (reported srt b)) := by
  rw [acct_depreciate srt hs today b hr, show n.toNat = 0 by omega]
  simp

example : (reported insSort (demoBook.depreciate insSort 0 (fun a => a == b!"Exp:Food") (fun _ => b!"Asset") b!"monthly" 2)).map line =
    [⟨20200131, b!"shop", b!"Asset", b!"USD", 7/4⟩, ⟨20200131, b!"shop", b!"Cash", b!"USD", -7/2⟩,
     ⟨20200131, b!"shop", b!"Exp:Food", b!"USD", 7/4⟩,
     ⟨20200131, b!"shop (2)", b!"Asset", b!"EUR", 2⟩, ⟨20200131, b!"shop (2)", b!"Cash", b!"EUR", -4⟩,
     ⟨20200131, b!"shop (2)", b!"Cash", b!"USD", 5⟩, ⟨20200131, b!"shop (2)", b!"Exp:Food", b!"EUR", 2⟩,
     ⟨20200131, b!"shop (2)", b!"Inc", b!"USD", -5⟩,
     ⟨20200201, b!"shop", b!"Asset", b!"USD", -7/4⟩, ⟨20200201, b!"shop", b!"Exp:Food", b!"USD", 7/4⟩,
     ⟨20200201, b!"shop (2)", b!"Asset", b!"EUR", -2⟩, ⟨20200201, b!"shop (2)", b!"Exp:Food", b!"EUR", 2⟩] := by
  decide +kernel

/-! ## C15 -/

namespace Spec
/-- The multiple of one day's amount that `AdjustBy(by)` shows, divided by the days. -/
def periodRate (by_ : Str) (days : Int) : Option Rat :=
  if by_ = b!"daily" then some (1 / days)
  else if by_ = b!"monthly" then some (365 / (12 * days))
  else if by_ = b!"quarterly" then some (365 / (4 * days))
  else if by_ = b!"yearly" then some (365 / days)
  else none
end Spec

private theorem foldl_range (l : List Posting) (lo hi : Int) (h : lo ≤ hi) :
    let r := l.foldl (fun mm (q : Posting) => (if q.date < mm.1 then q.date else mm.1,
      if q.date > mm.2 then q.date else mm.2)) (lo, hi)
    (r.1 ≤ lo ∧ hi ≤ r.2) ∧ (∀ q ∈ l, r.1 ≤ q.date ∧ q.date ≤ r.2) ∧
    (r.1 = lo ∨ ∃ q ∈ l, q.date = r.1) ∧ (r.2 = hi ∨ ∃ q ∈ l, q.date = r.2) := by
  induction l generalizing lo hi with
  | nil => simp
  | cons p l ih =>
    simp only [List.foldl_cons]
    have := ih (if p.date < lo then p.date else lo) (if p.date > hi then p.date else hi) (by split_ifs <;> omega)
    obtain ⟨⟨a1, a2⟩, b', c1, c2⟩ := this
    generalize (List.foldl _ _ l) = r at *
    refine ⟨⟨by split_ifs at a1 <;> omega, by split_ifs at a2 <;> omega⟩, ?_, ?_, ?_⟩
    · intro q hq
      rcases List.mem_cons.1 hq with e | e
      · subst e
        constructor
        · split_ifs at a1 <;> omega
        · split_ifs at a2 <;> omega
      · exact b' q e
    · rcases c1 with c1 | ⟨q, hq, e⟩
      · split_ifs at c1
        · exact Or.inr ⟨p, by simp, c1.symm⟩
        · exact Or.inl c1
      · exact Or.inr ⟨q, by simp [hq], e⟩
    · rcases c2 with c2 | ⟨q, hq, e⟩
      · split_ifs at c2
        · exact Or.inr ⟨p, by simp, c2.symm⟩
        · exact Or.inl c2
      · exact Or.inr ⟨q, by simp [hq], e⟩

/-- The scanned range is the earliest and the latest date. -/
theorem c15_dateRange (l : List Posting) (h : l ≠ []) :
    (∃ p ∈ l, p.date = (dateRange l).1) ∧ (∃ p ∈ l, p.date = (dateRange l).2) ∧
    ∀ p ∈ l, (dateRange l).1 ≤ p.date ∧ p.date ≤ (dateRange l).2 := by
  obtain ⟨p, l, rfl⟩ := List.exists_cons_of_ne_nil h
  obtain ⟨⟨a1, a2⟩, b', c1, c2⟩ := foldl_range l p.date p.date (Int.le_refl _)
  unfold dateRange
  refine ⟨?_, ?_, ?_⟩
  · rcases c1 with c1 | ⟨q, hq, e⟩
    · exact ⟨p, by simp, c1.symm⟩
    · exact ⟨q, by simp [hq], e⟩
  · rcases c2 with c2 | ⟨q, hq, e⟩
    · exact ⟨p, by simp, c2.symm⟩
    · exact ⟨q, by simp [hq], e⟩
  · intro q hq
    rcases List.mem_cons.1 hq with e | e
    · subst e; exact ⟨a1, a2⟩
    · exact b' q e

private theorem adjustFactor_eq (by_ : Str) (days : Int) (h : days ≠ 0) : adjustFactor by_ days = periodRate by_ days := by
  unfold adjustFactor periodRate newRat
  by_cases h1 : by_ = b!"monthly"
  · subst h1
    rw [if_pos rfl, if_neg (by omega), if_neg (by decide), if_pos rfl]; push_cast; rw [mul_comm]
  · rw [if_neg h1]
    by_cases h2 : by_ = b!"daily"
    · rw [if_pos h2, if_pos h2, if_neg h]; push_cast; rfl
    · rw [if_neg h2, if_neg h2, if_neg h1]
      by_cases h3 : by_ = b!"quarterly"
      · rw [if_pos h3, if_pos h3, if_neg (by omega)]; push_cast; rw [mul_comm]
      · rw [if_neg h3, if_neg h3]
        by_cases h4 : by_ = b!"yearly"
        · rw [if_pos h4, if_pos h4, if_neg h]; push_cast; rfl
        · rw [if_neg h4, if_neg h4]

/-- C15 (a): if the book spans `days ≠ 0` days from its earliest to its latest date, then
`AdjustBy` multiplies every reported amount by the rate of the period, and panics on an
unknown period. -/
theorem c15_adjustBy (srt : List Posting → List Posting) (hs : IsSort srt) (today : Int) (b : Book)
    (hr : Reachable srt today b) (by_ : Str) (hby : by_ ≠ b!"none") (lo hi : Posting)
    (hlo : lo ∈ b.post) (hhi : hi ∈ b.post) (hrange : ∀ p ∈ b.post, lo.date ≤ p.date ∧ p.date ≤ hi.date)
    (days : Int) (hdays : daysSince hi.date lo.date = some days) (hne : days ≠ 0) :
    match periodRate by_ days with
    | none => b.adjustBy srt by_ = none
    | some r => ∃ b', b.adjustBy srt by_ = some b' ∧
        ∀ d py a c, entryTotal d py a c (reported srt b') = r * entryTotal d py a c (reported srt b) := by
  have hnil : b.post ≠ [] := by intro e; rw [e] at hlo; simp at hlo
  obtain ⟨⟨p1, m1, e1⟩, ⟨p2, m2, e2⟩, hall⟩ := c15_dateRange b.post hnil
  have r1 : (dateRange b.post).1 = lo.date := by
    have := (hrange p1 m1).1; have := (hall lo hlo).1; omega
  have r2 : (dateRange b.post).2 = hi.date := by
    have := (hrange p2 m2).2; have := (hall hi hhi).2; omega
  have key : b.adjustBy srt by_ = (periodRate by_ days).map
      (fun f => Book.compact srt { b with post := b.post.map fun p => p.byFactor f }) := by
    unfold Book.adjustBy
    rw [if_neg hby, r1, r2, hdays]
    simp only
    rw [adjustFactor_eq by_ days hne]
    cases periodRate by_ days <;> rfl
  cases hp : periodRate by_ days with
  | none => simp only; rw [key, hp]; rfl
  | some r =>
    simp only
    refine ⟨_, by rw [key, hp]; rfl, ?_⟩
    intro d py a c
    have hap : (Op.adjustBy by_).apply srt today b = some (Book.compact srt { b with post := b.post.map fun p => p.byFactor r }) := by
      show b.adjustBy srt by_ = _
      rw [key, hp]; rfl
    have w := (reachable_wf hs hr).1
    have w' := (reachable_wf hs (reachable_filter hr _ hap)).1
    unfold entryTotal
    rw [total_reported hs (keyFun_of fun d' py' a' c' => decide (d' = d ∧ py' = py ∧ a' = a ∧ c' = c)) w',
      total_compact hs (keyFun_of fun d' py' a' c' => decide (d' = d ∧ py' = py ∧ a' = a ∧ c' = c)),
      total_reported hs (keyFun_of fun d' py' a' c' => decide (d' = d ∧ py' = py ∧ a' = a ∧ c' = c)) w]
    simp only
    generalize b.post = l
    induction l with
    | nil => simp
    | cons p l ih =>
      rw [List.map_cons, total_cons, total_cons, ih]
      simp only [Posting.byFactor, Posting.byAcctDateFactor, Posting.dup]
      by_cases hc : p.date = d ∧ p.payee = py ∧ p.acct = a ∧ p.ccy = c
      · simp only [hc, and_self, decide_true, if_true]; ring
      · simp only [hc, decide_false, Bool.false_eq_true, if_false]; ring

/-- C15 (b): "none" does nothing. -/
theorem c15_none (srt : List Posting → List Posting) (b : Book) : b.adjustBy srt b!"none" = some b := rfl

/-- C15 (c): a book whose postings all fall on one day (or which is empty) panics. -/
theorem c15_zero_span (srt : List Posting → List Posting) (b : Book) (by_ : Str) (hby : by_ ≠ b!"none")
    (h : ∀ p ∈ b.post, ∀ q ∈ b.post, p.date = q.date) : b.adjustBy srt by_ = none := by
  have hz : (dateRange b.post).1 = (dateRange b.post).2 := by
    by_cases hn : b.post = []
    · rw [hn]; rfl
    · obtain ⟨⟨p1, m1, e1⟩, ⟨p2, m2, e2⟩, _⟩ := c15_dateRange b.post hn
      rw [← e1, ← e2]; exact h p1 m1 p2 m2
  unfold Book.adjustBy
  rw [if_neg hby, hz]
  unfold daysSince
  cases asDays (dateRange b.post).2 with
  | none => rfl
  | some n =>
    simp only [Int.sub_self]
    have : adjustFactor by_ 0 = none := by
      unfold adjustFactor newRat; split_ifs <;> simp_all
    rw [this]

/-- Non-vacuity: a two-day book. -/
example : ((demoBook.mapTransaction insSort fun d py => (if py = b!"shop" then d else 20200202, py)).adjustBy insSort b!"daily").map
    (fun b => entryTotal 20200131 b!"shop" b!"Cash" b!"USD" b.post) = some (-7/4) := by decide +kernel

/-! ## C17 -/

/-- C17 is false of the code: filtering everything out leaves the book's transactions in
place (`FilterTransactionReverse` does not set the transaction index, and `Transactions()`
does not reset it on an empty book). -/
theorem c17_filterReverse_fails :
    ¬ ∀ (srt : List Posting → List Posting) (today : Int) (b : Book) (f : Int → Str → Txn → Bool), IsSort srt →
      Reachable srt today b → ∀ t ∈ (b.filterTransactionReverse f).transactions srt, ∀ p ∈ t, f p.date p.payee t = true := by
  intro h
  have hall := h insSort 0 demoBook (fun _ _ _ => false) insSort_isSort demo_reachable
  have hne : ((demoBook.filterTransactionReverse (fun _ _ _ => false)).transactions insSort).flatten ≠ [] := by decide +kernel
  obtain ⟨p, hp⟩ := List.exists_mem_of_ne_nil _ hne
  obtain ⟨t, ht, hpt⟩ := List.mem_flatten.1 hp
  exact absurd (hall t ht p hpt) (by simp)

/-- C17, second failure: a following `FilterTransaction` that keeps everything undoes the
filter, also when it left something. -/
theorem c17_next_filter_undoes_fails :
    ¬ ∀ (srt : List Posting → List Posting) (today : Int) (b : Book) (f : Int → Str → Txn → Bool), IsSort srt →
      Reachable srt today b → (b.trans.filter (fun t => match t with | [] => false | p :: _ => f p.date p.payee t)) ≠ [] →
      ∀ t ∈ ((b.filterTransactionReverse f).filterTransaction (fun _ _ _ => true)).transactions srt,
        ∀ p ∈ t, f p.date p.payee t = true := by
  intro h
  have hall := h insSort 0 demoBook (fun _ py _ => decide (py = b!"shop")) insSort_isSort demo_reachable (by decide +kernel)
  have hex : ∃ p ∈ (((demoBook.filterTransactionReverse (fun _ py _ => decide (py = b!"shop"))).filterTransaction
      (fun _ _ _ => true)).transactions insSort).flatten, p.payee ≠ b!"shop" := by decide +kernel
  obtain ⟨p, hp, hne⟩ := hex
  obtain ⟨t, ht, hpt⟩ := List.mem_flatten.1 hp
  have := hall t ht p hpt
  simp at this
  exact hne this

/-- C17, what holds (partial): if the filter keeps at least one transaction, then reading the
book next shows exactly the transactions that satisfy it. -/
theorem c17_filterReverse_partial (srt : List Posting → List Posting) (hs : IsSort srt) (today : Int) (b : Book)
    (hr : Reachable srt today b) (f : Int → Str → Txn → Bool)
    (hne : (b.transactions srt).filter (fun t => t.all fun p => f p.date p.payee t) ≠ []) :
    (((b.compact srt).filterTransactionReverse f).transactions srt).map (·.map line) =
      ((b.transactions srt).filter (fun t => t.all fun p => f p.date p.payee t)).map (·.map line) := by
  have w := (reachable_wf hs hr).1
  have hr1 := reachable_filter hr .read rfl
  have w1 := (reachable_wf hs hr1).1
  have w2 := (reachable_wf hs (reachable_filter hr1 (.filter f) rfl)).1
  have hcan := compact_canonical hs w
  have hcongr : ∀ ts : List Txn, (∀ t ∈ ts, IsGroup t) →
      ts.filter (fun t => match t with | [] => false | p :: _ => f p.date p.payee t) =
      ts.filter (fun t => t.all fun p => f p.date p.payee t) := by
    intro ts hts
    apply List.filter_congr
    intro t ht
    have hg := hts t ht
    obtain ⟨p, t', rfl⟩ := List.exists_cons_of_ne_nil hg.1
    simp only
    have hq : ∀ q ∈ p :: t', f q.date q.payee (p :: t') = f p.date p.payee (p :: t') := by
      intro q hq; rw [(hg.2 q hq p (by simp)).1, (hg.2 q hq p (by simp)).2]
    rw [Bool.eq_iff_iff, List.all_eq_true]
    exact ⟨fun h q hq' => by rw [hq q hq']; exact h, fun h => h p (by simp)⟩
  have e1 : ((b.compact srt).filterTransaction f).trans = (b.transactions srt).filter (fun t => t.all fun p => f p.date p.payee t) :=
    hcongr _ w1.groups
  have e2 : ((b.compact srt).filterTransactionReverse f).post =
      ((b.compact srt).trans.reverse.filter (fun t => t.all fun p => f p.date p.payee t)).flatten := by
    exact congrArg List.flatten (hcongr (b.compact srt).trans.reverse (fun t ht => w1.groups t (by simpa using ht)))
  have hperm : ((b.compact srt).filterTransactionReverse f).post.Perm ((b.compact srt).filterTransaction f).post := by
    rw [e2, ← w2.index, e1]
    apply List.Perm.flatten
    rw [List.filter_reverse]
    exact List.reverse_perm _
  have hne2 : ((b.compact srt).filterTransactionReverse f).post ≠ [] := by
    intro h0
    rw [h0] at hperm
    have h3 : ((b.compact srt).filterTransaction f).post = [] := hperm.nil_eq.symm
    have := w2.nil_trans h3
    rw [e1] at this
    exact hne this
  have hp : ∀ p ∈ ((b.compact srt).filterTransactionReverse f).post, p.acctlevel = 0 ∧ p.acctsort = [] := by
    intro p hp
    exact w2.plain p (hperm.mem_iff.1 hp)
  have h5 := c05_permutation srt srt hs hs _ _ hperm hne2 hp
  have h6 := congrArg (List.map (List.map (fun o : Obs => (⟨o.date, o.payee, o.acct, o.ccy, o.val⟩ : Line)))) h5
  simp only [List.map_map] at h6
  have hl : (List.map (fun o : Obs => (⟨o.date, o.payee, o.acct, o.ccy, o.val⟩ : Line)) ∘ fun x => List.map obs x) =
      List.map line := by
    funext t; simp only [Function.comp, List.map_map]; rfl
  rw [hl] at h6
  rw [show (fun x => List.map line x) = List.map line from rfl, h6]
  have h7 := transactions_of_canonical hs w2 (by rw [e1]; exact hcan.sublist List.filter_sublist)
  have h8 := congrArg (List.map (List.map line)) h7
  simp only [List.map_map] at h8
  have hn : (List.map line ∘ fun x => List.map noBal x) = List.map line := by
    funext t; simp only [Function.comp, List.map_map]; rfl
  rw [hn] at h8
  rw [h8, e1]

example : (demoBook.transactions insSort).filter (fun t => t.all fun p => decide (p.payee = b!"shop")) ≠ [] := by decide +kernel

/-! ## C18 -/

/-- Strictly increasing lists of strings. -/
theorem insertStr_sorted (s : Str) (l : List Str) (h : l.Pairwise (· < ·)) (hs : s ∉ l) :
    (insertStr s l).Pairwise (· < ·) ∧ ∀ x, x ∈ insertStr s l ↔ x = s ∨ x ∈ l := by
  induction l with
  | nil => simp [insertStr]
  | cons t l ih =>
    obtain ⟨h1, h2⟩ := List.pairwise_cons.1 h
    simp only [List.mem_cons, not_or] at hs
    unfold insertStr
    split
    · rename_i hle
      refine ⟨List.pairwise_cons.2 ⟨?_, h⟩, by simp⟩
      intro x hx
      have hst : s < t := lt_of_le_of_ne hle hs.1
      rcases List.mem_cons.1 hx with e | e
      · rw [e]; exact hst
      · exact lt_trans hst (h1 x e)
    · rename_i hle
      obtain ⟨i1, i2⟩ := ih h2 hs.2
      refine ⟨List.pairwise_cons.2 ⟨?_, i1⟩, ?_⟩
      · intro x hx
        rcases (i2 x).1 hx with e | e
        · rw [e]; exact not_le.1 hle
        · exact h1 x e
      · intro x
        simp only [List.mem_cons, i2]; tauto

theorem sortStr_sorted (l : List Str) (h : l.Nodup) :
    (sortStr l).Pairwise (· < ·) ∧ ∀ x, x ∈ sortStr l ↔ x ∈ l := by
  induction l with
  | nil => simp [sortStr]
  | cons s l ih =>
    obtain ⟨h1, h2⟩ := List.nodup_cons.1 h
    obtain ⟨i1, i2⟩ := ih h2
    have := insertStr_sorted s (sortStr l) i1 (fun hc => h1 ((i2 s).1 hc))
    exact ⟨this.1, fun x => by show x ∈ insertStr s (sortStr l) ↔ _; rw [this.2, i2]; simp⟩

/-- C18 is false of the code: an account whose last posting is in a currency with balance
zero is left out although it holds another currency. -/
theorem c18_accounts_fails :
    ¬ ∀ (srt : List Posting → List Posting) (today : Int) (b : Book), IsSort srt → Reachable srt today b →
      ∀ a, a ∈ (b.compact srt).accounts (fun _ => true) true ↔ ∃ c, acctTotal a c b.post ≠ 0 := by
  intro h
  let cs : List Call := [.newTransaction 20200101 b!"x" [], .addPosting b!"A" b!"EUR" 1 [], .addPosting b!"B" b!"EUR" (-1) [],
    .newTransaction 20200102 b!"x" [], .addPosting b!"A" b!"USD" 1 [], .addPosting b!"B" b!"USD" (-1) [],
    .newTransaction 20200103 b!"x" [], .addPosting b!"A" b!"USD" (-1) [], .addPosting b!"B" b!"USD" 1 []]
  have hsome : ((Builder.new.calls cs).bind (Builder.build insSort)).isSome = true := by decide +kernel
  obtain ⟨b, hb⟩ := Option.isSome_iff_exists.1 hsome
  obtain ⟨bb, h1, h2⟩ := Option.bind_eq_some_iff.1 hb
  have hr : Reachable insSort 0 b := ⟨cs, bb, b, [], h1, h2, rfl⟩
  have e1 : ((Builder.new.calls cs).bind (Builder.build insSort)).map (fun b => (b.compact insSort).accounts (fun _ => true) true) = some [] := by
    decide +kernel
  have e2 : ((Builder.new.calls cs).bind (Builder.build insSort)).map (fun b => acctTotal b!"A" b!"EUR" b.post) = some 1 := by
    decide +kernel
  rw [hb] at e1 e2
  simp only [Option.map_some, Option.some.injEq] at e1 e2
  have := (h insSort 0 b insSort_isSort hr b!"A").2 ⟨b!"EUR", by rw [e2]; decide⟩
  rw [e1] at this
  simp at this

private theorem lastBal_split {mat : Str → Bool} {l : List Posting} {a : Str} {v : Rat} (h : lastBal mat l a = some v) :
    ∃ pre p post, l = pre ++ p :: post ∧ p.acct = a ∧ mat a = true ∧ p.bal = v ∧ ∀ q ∈ post, q.acct ≠ a := by
  unfold lastBal at h
  induction l with
  | nil => simp at h
  | cons x l ih =>
    cases hl : (l.filter fun p => mat p.acct && decide (p.acct = a)).getLast? with
    | some q =>
      have : (List.filter (fun p => mat p.acct && decide (p.acct = a)) (x :: l)).getLast? = some q := by
        rw [List.filter_cons]
        split
        · rw [List.getLast?_cons, hl]; rfl
        · exact hl
      rw [this] at h
      rw [hl] at ih
      obtain ⟨pre, p, post, e1, e2⟩ := ih h
      exact ⟨x :: pre, p, post, by rw [e1]; rfl, e2⟩
    | none =>
      have hnil := List.getLast?_eq_none_iff.1 hl
      rw [List.filter_cons, hnil] at h
      split at h
      · rename_i hx
        simp only [List.getLast?_singleton, Option.map_some, Option.some.injEq] at h
        simp only [Bool.and_eq_true, decide_eq_true_eq] at hx
        refine ⟨[], x, l, rfl, hx.2, by rw [← hx.2]; exact hx.1, h, ?_⟩
        intro q hq e
        rw [List.filter_eq_nil_iff] at hnil
        exact hnil q hq (by simp only [Bool.and_eq_true, decide_eq_true_eq]; exact ⟨by rw [e, ← hx.2]; exact hx.1, e⟩)
      · simp at h

/-- C18, what holds (partial): the result is strictly sorted; `Accounts(regex, false)` is exactly
the matching accounts with a posting; and `Accounts(regex, true)` is right for every account
that holds a single currency.  (Missing: accounts holding several currencies.) -/
theorem c18_accounts_partial (srt : List Posting → List Posting) (hs : IsSort srt) (today : Int) (b : Book)
    (hr : Reachable srt today b) (mat : Str → Bool) :
    (∀ o, ((b.compact srt).accounts mat o).Pairwise (· < ·)) ∧
    (∀ a, a ∈ (b.compact srt).accounts mat false ↔ mat a = true ∧ ∃ p ∈ reported srt b, p.acct = a) ∧
    (∀ a c, (∀ p ∈ reported srt b, p.acct = a → p.ccy = c) →
      (a ∈ (b.compact srt).accounts mat true ↔ mat a = true ∧ acctTotal a c (reported srt b) ≠ 0)) := by
  have w := (reachable_wf hs hr).1
  have hpost : (b.compact srt).post = reported srt b := by rw [reported_eq hs w, compact_post b (srt_nil hs)]
  have hkeys : ∀ a, a ∈ (((b.compact srt).post.filter fun p => mat p.acct).map (·.acct)).dedup ↔
      mat a = true ∧ ∃ p ∈ reported srt b, p.acct = a := by
    intro a
    rw [List.mem_dedup, hpost]
    simp only [List.mem_map, List.mem_filter]
    constructor
    · rintro ⟨p, ⟨h1, h2⟩, rfl⟩; exact ⟨h2, p, h1, rfl⟩
    · rintro ⟨h2, p, h1, rfl⟩; exact ⟨p, ⟨h1, h2⟩, rfl⟩
  have hnd : ∀ o, ((((b.compact srt).post.filter fun p => mat p.acct).map (·.acct)).dedup.filter
      fun a => !o || decide (lastBal mat (b.compact srt).post a ≠ some 0)).Nodup :=
    fun o => (List.nodup_dedup _).filter _
  refine ⟨fun o => (sortStr_sorted _ (hnd o)).1, ?_, ?_⟩
  · intro a
    unfold Book.accounts
    simp only
    rw [(sortStr_sorted _ (hnd false)).2, List.mem_filter, hkeys]
    simp
  · intro a c hc
    unfold Book.accounts
    simp only
    rw [(sortStr_sorted _ (hnd true)).2, List.mem_filter, hkeys]
    simp only [Bool.not_true, Bool.false_or, decide_eq_true_eq]
    have hrun := compactPost_running (srt := srt) b.post
    rw [← reported_eq hs w] at hrun
    have hbal : mat a = true → (∃ p ∈ reported srt b, p.acct = a) →
        lastBal mat (b.compact srt).post a = some (acctTotal a c (reported srt b)) := by
      intro hm ⟨p, hp, hpa⟩
      have hex : ∃ v, lastBal mat (b.compact srt).post a = some v := by
        unfold lastBal
        cases hl : (List.filter (fun p => mat p.acct && decide (p.acct = a)) (b.compact srt).post).getLast? with
        | some q => exact ⟨q.bal, rfl⟩
        | none =>
          exfalso
          have := List.getLast?_eq_none_iff.1 hl
          rw [List.filter_eq_nil_iff] at this
          exact this p (by rw [hpost]; exact hp) (by simp [hpa, hm])
      obtain ⟨v, hv⟩ := hex
      obtain ⟨pre, q, post, e1, e2, _, e4, e5⟩ := lastBal_split hv
      rw [hv, ← e4]
      congr 1
      rw [hpost] at e1
      have hqc : q.ccy = c := hc q (by rw [e1]; simp) e2
      rw [hrun pre q post e1, e1]
      unfold acctTotal
      rw [total_append, total_append, total_cons, total_cons, total_congr (l := post) (Q := fun _ => false),
        total_false, total_nil, e2, hqc]
      intro r hr'
      simp [e5 r hr']
    constructor
    · rintro ⟨⟨h1, h2⟩, h3⟩
      rw [hbal h1 h2] at h3
      exact ⟨h1, fun e => h3 (by rw [e])⟩
    · rintro ⟨h1, h3⟩
      have h2 : ∃ p ∈ reported srt b, p.acct = a := by
        by_contra hno
        apply h3
        unfold acctTotal
        rw [total_congr (Q := fun _ => false), total_false]
        intro p hp
        have : ¬ p.acct = a := fun e => hno ⟨p, hp, e⟩
        simp [this]
      refine ⟨⟨h1, h2⟩, ?_⟩
      rw [hbal h1 h2]
      simpa using h3

/-- C18, exactly what the code does: an account is listed if the total of the currency of its last posting is not zero. -/
theorem c18_accounts_exact (srt : List Posting → List Posting) (hs : IsSort srt) (today : Int) (b : Book)
    (hr : Reachable srt today b) (mat : Str → Bool) (a : Str) :
    a ∈ (b.compact srt).accounts mat true ↔ mat a = true ∧ ∃ pre p post, reported srt b = pre ++ p :: post ∧ p.acct = a ∧
      (∀ q ∈ post, q.acct ≠ a) ∧ acctTotal a p.ccy (reported srt b) ≠ 0 := by
  have w := (reachable_wf hs hr).1
  have hpost : (b.compact srt).post = reported srt b := by rw [reported_eq hs w, compact_post b (srt_nil hs)]
  have hrun := c06_running_balances srt hs today b hr
  have hnd : ((((b.compact srt).post.filter fun p => mat p.acct).map (·.acct)).dedup.filter
      fun a => !true || decide (lastBal mat (b.compact srt).post a ≠ some 0)).Nodup := (List.nodup_dedup _).filter _
  have hmem : a ∈ (b.compact srt).accounts mat true ↔
      (mat a = true ∧ ∃ p ∈ reported srt b, p.acct = a) ∧ lastBal mat (reported srt b) a ≠ some 0 := by
    unfold Book.accounts
    simp only
    rw [(sortStr_sorted _ hnd).2, List.mem_filter, List.mem_dedup, hpost]
    simp only [List.mem_map, List.mem_filter, Bool.not_true, Bool.false_or, decide_eq_true_eq]
    constructor
    · rintro ⟨⟨p, ⟨h1, h2⟩, rfl⟩, h3⟩; exact ⟨⟨h2, p, h1, rfl⟩, h3⟩
    · rintro ⟨⟨h2, p, h1, rfl⟩, h3⟩; exact ⟨⟨p, ⟨h1, h2⟩, rfl⟩, h3⟩
  have hlast : ∀ pre p post, reported srt b = pre ++ p :: post → p.acct = a → (∀ q ∈ post, q.acct ≠ a) →
      p.bal = acctTotal a p.ccy (reported srt b) := by
    intro pre p post e1 e2 e3
    rw [hrun pre p post e1, e1]
    unfold acctTotal
    rw [total_append, total_append, total_cons, total_cons, total_congr (l := post) (Q := fun _ => false), total_false, total_nil, e2]
    intro r hr'
    simp [e3 r hr']
  rw [hmem]
  constructor
  · rintro ⟨⟨h1, p, h2, h3⟩, h4⟩
    cases hv : lastBal mat (reported srt b) a with
    | none =>
      exfalso
      unfold lastBal at hv
      rw [Option.map_eq_none_iff, List.getLast?_eq_none_iff, List.filter_eq_nil_iff] at hv
      exact hv p h2 (by simp [h3, h1])
    | some v =>
      obtain ⟨pre, q, post, e1, e2, _, e4, e5⟩ := lastBal_split hv
      refine ⟨h1, pre, q, post, e1, e2, e5, ?_⟩
      rw [← hlast pre q post e1 e2 e5, e4]
      rintro rfl
      exact h4 hv
  · rintro ⟨h1, pre, p, post, e1, e2, e3, e4⟩
    refine ⟨⟨h1, p, by rw [e1]; simp, e2⟩, ?_⟩
    have : lastBal mat (reported srt b) a = some p.bal := by
      have hnil : post.filter (fun p => mat p.acct && decide (p.acct = a)) = [] := List.filter_eq_nil_iff.2 (fun q hq => by simp [e3 q hq])
      unfold lastBal
      rw [e1, List.filter_append, List.filter_cons, if_pos (by simp [e2, h1]), hnil]
      simp
    rw [this, hlast pre p post e1 e2 e3]
    simpa using e4

example : demoBook.accounts (fun a => a != b!"Inc") true = [b!"Cash", b!"Exp:Food"] := by decide +kernel

/-! ## C19 -/

private theorem decLoop_spec (v : Nat) : ∀ (f p c : Nat), p = 10 ^ c → v ≤ p + f →
    let d := decLoop v f p c
    v ≤ 10 ^ d ∧ c ≤ d ∧ ∀ e, c ≤ e → v ≤ 10 ^ e → d ≤ e := by
  intro f
  induction f with
  | zero => intro p c hp hf; simp only [decLoop]; exact ⟨by rw [← hp]; omega, Nat.le_refl _, fun e h _ => h⟩
  | succ f ih =>
    intro p c hp hf
    simp only [decLoop]
    split
    · rename_i hlt
      have hpos : 1 ≤ p := by rw [hp]; exact Nat.one_le_pow _ _ (by omega)
      obtain ⟨h1, h2, h3⟩ := ih (p * 10) (c + 1) (by rw [hp, pow_succ]) (by omega)
      refine ⟨h1, by omega, ?_⟩
      intro e he hv
      rcases Nat.lt_or_ge c e with h | h
      · exact h3 e h hv
      · have : e = c := by omega
        subst this; omega
    · rename_i hge
      exact ⟨by rw [← hp]; omega, Nat.le_refl _, fun e h _ => h⟩

private theorem decimals_spec (v : Nat) : v ≤ 10 ^ decimals v ∧ ∀ e, v ≤ 10 ^ e → decimals v ≤ e := by
  obtain ⟨h1, _, h3⟩ := decLoop_spec v v 1 0 rfl (by omega)
  exact ⟨h1, fun e he => h3 e (by omega) he⟩

private theorem maxDen_spec (m : List (Str × Nat)) (c : Str) (n : Nat) (hk : (m.map (·.1)).Nodup) :
    ((maxDen m c n).map (·.1)).Nodup ∧
    (∀ x, x ∈ (maxDen m c n).map (·.1) ↔ x = c ∨ x ∈ m.map (·.1)) ∧
    (∀ x v, (x, v) ∈ maxDen m c n → (x ≠ c ∧ (x, v) ∈ m) ∨
      (x = c ∧ n ≤ v ∧ (v = n ∨ (x, v) ∈ m) ∧ ∀ u, (x, u) ∈ m → u ≤ v)) := by
  induction m with
  | nil => simp [maxDen]
  | cons kv m ih =>
    obtain ⟨k, v0⟩ := kv
    simp only [List.map_cons, List.nodup_cons] at hk
    unfold maxDen
    split
    · rename_i hkc
      subst hkc
      refine ⟨by simpa using hk, by intro x; simp, ?_⟩
      intro x v hx
      simp only [List.mem_cons, Prod.mk.injEq] at hx ⊢
      rcases hx with ⟨rfl, rfl⟩ | hx
      · right
        refine ⟨rfl, by split_ifs <;> omega, by split_ifs <;> simp, ?_⟩
        intro u hu
        rcases hu with ⟨_, rfl⟩ | hu
        · split_ifs <;> omega
        · exact absurd (List.mem_map.2 ⟨_, hu, rfl⟩) hk.1
      · left
        refine ⟨?_, Or.inr hx⟩
        intro e; subst e
        exact hk.1 (List.mem_map.2 ⟨_, hx, rfl⟩)
    · rename_i hkc
      obtain ⟨i1, i2, i3⟩ := ih hk.2
      refine ⟨?_, ?_, ?_⟩
      · simp only [List.map_cons, List.nodup_cons]
        exact ⟨fun hc => by rcases (i2 k).1 hc with e | e; exact hkc e; exact hk.1 e, i1⟩
      · intro x; simp only [List.map_cons, List.mem_cons, i2]; tauto
      · intro x v hx
        simp only [List.mem_cons, Prod.mk.injEq] at hx ⊢
        rcases hx with ⟨rfl, rfl⟩ | hx
        · left; exact ⟨hkc, Or.inl ⟨rfl, rfl⟩⟩
        · rcases i3 x v hx with ⟨a, b⟩ | ⟨a, b, c', d⟩
          · left; exact ⟨a, Or.inr b⟩
          · right
            refine ⟨a, b, ?_, ?_⟩
            · rcases c' with c' | c'
              · exact Or.inl c'
              · exact Or.inr (Or.inr c')
            · intro u hu
              rcases hu with ⟨e, _⟩ | hu
              · exact absurd (a ▸ e.symm) hkc
              · exact d u hu

private theorem dens_spec (l : List Posting) : ∀ (m : List (Str × Nat)), (m.map (·.1)).Nodup →
    let r := l.foldl (fun m p => maxDen m p.ccy p.val.den) m
    (r.map (·.1)).Nodup ∧ (∀ x, x ∈ r.map (·.1) ↔ x ∈ m.map (·.1) ∨ ∃ p ∈ l, p.ccy = x) ∧
    (∀ x v, (x, v) ∈ r → (∀ p ∈ l, p.ccy = x → p.val.den ≤ v) ∧ (∀ u, (x, u) ∈ m → u ≤ v) ∧
      ((x, v) ∈ m ∨ ∃ p ∈ l, p.ccy = x ∧ p.val.den = v)) := by
  induction l with
  | nil =>
    intro m hm
    refine ⟨hm, by simp, ?_⟩
    intro x v hx
    refine ⟨by simp, ?_, Or.inl hx⟩
    intro u hu
    have : u = v := by
      have := List.inj_on_of_nodup_map hm hu hx rfl
      simpa using this
    omega
  | cons p l ih =>
    intro m hm
    obtain ⟨a1, a2, a3⟩ := maxDen_spec m p.ccy p.val.den hm
    obtain ⟨b1, b2, b3⟩ := ih _ a1
    simp only [List.foldl_cons]
    refine ⟨b1, ?_, ?_⟩
    · intro x
      rw [b2, a2]
      simp only [List.mem_cons, exists_eq_or_imp]
      constructor
      · rintro ((rfl | h) | h)
        · exact Or.inr (Or.inl rfl)
        · exact Or.inl h
        · exact Or.inr (Or.inr h)
      · rintro (h | rfl | h)
        · exact Or.inl (Or.inr h)
        · exact Or.inl (Or.inl rfl)
        · exact Or.inr h
    · intro x v hx
      obtain ⟨c1, c2, c3⟩ := b3 x v hx
      have hmem : ∀ u, (x, u) ∈ m → ∃ u', (x, u') ∈ maxDen m p.ccy p.val.den ∧ u ≤ u' := by
        intro u hu
        have : x ∈ (maxDen m p.ccy p.val.den).map (·.1) := (a2 x).2 (Or.inr (List.mem_map.2 ⟨_, hu, rfl⟩))
        obtain ⟨⟨y, u'⟩, hu', rfl⟩ := List.mem_map.1 this
        refine ⟨u', hu', ?_⟩
        rcases a3 _ _ hu' with ⟨_, h⟩ | ⟨_, _, _, h⟩
        · have := List.inj_on_of_nodup_map hm hu h rfl
          simp at this; omega
        · exact h u hu
      refine ⟨?_, ?_, ?_⟩
      · intro q hq hqx
        rcases List.mem_cons.1 hq with e | e
        · subst e
          have : x ∈ (maxDen m q.ccy q.val.den).map (·.1) := (a2 x).2 (Or.inl hqx.symm)
          obtain ⟨⟨y, u'⟩, hu', e'⟩ := List.mem_map.1 this
          simp only at e'; subst e'
          have h1 := c2 u' hu'
          rcases a3 _ _ hu' with ⟨h, _⟩ | ⟨_, h, _⟩
          · exact absurd hqx.symm h
          · omega
        · exact c1 q e hqx
      · intro u hu
        obtain ⟨u', hu', hle⟩ := hmem u hu
        have := c2 u' hu'; omega
      · rcases c3 with c3 | ⟨q, hq, e⟩
        · rcases a3 _ _ c3 with ⟨_, h⟩ | ⟨e1, e2, e3, _⟩
          · exact Or.inl h
          · rcases e3 with e3 | e3
            · exact Or.inr ⟨p, by simp, e1.symm, e3.symm⟩
            · exact Or.inl e3
        · exact Or.inr ⟨q, by simp [hq], e⟩

/-- C19 is false of the code in its second half: an amount entered with two decimals (0.25,
reduced denominator 4) gets one decimal, with which it cannot be printed exactly. -/
theorem c19_decimals_fails :
    ¬ ∀ (srt : List Posting → List Posting) (cs : List Call) (b : Book), IsSort srt →
      (Builder.new.calls cs).bind (Builder.build srt) = some b →
      ∀ p ∈ b.post, ∀ d, (p.ccy, d) ∈ b.ccy → (∃ (k : Nat) (z : Int), p.val * 10 ^ k = z) → ∃ z : Int, p.val * 10 ^ d = z := by
  intro h
  let cs : List Call := [.newTransaction 20200101 b!"x" [], .addPosting b!"A" b!"USD" (1/4) [], .addPosting b!"B" b!"USD" (-1/4) []]
  have hsome : ((Builder.new.calls cs).bind (Builder.build insSort)).isSome = true := by decide +kernel
  obtain ⟨b, hb⟩ := Option.isSome_iff_exists.1 hsome
  have e1 : ((Builder.new.calls cs).bind (Builder.build insSort)).map (fun b => (b.post.map (fun p => (p.ccy, p.val)), b.ccy)) =
      some ([(b!"USD", 1/4), (b!"USD", -1/4)], [(b!"USD", 1)]) := by decide +kernel
  rw [hb] at e1
  simp only [Option.map_some, Option.some.injEq, Prod.mk.injEq] at e1
  have hmem : (b!"USD", (1/4 : Rat)) ∈ b.post.map (fun p => (p.ccy, p.val)) := by rw [e1.1]; simp
  obtain ⟨p, hp, e⟩ := List.mem_map.1 hmem
  simp only [Prod.mk.injEq] at e
  obtain ⟨z, hz⟩ := h insSort cs b insSort_isSort hb p hp 1 (by rw [e.1, e1.2]; simp) ⟨2, 25, by rw [e.2]; norm_num⟩
  rw [e.2] at hz
  have : (5 : Rat) = 2 * (z : Rat) := by linarith
  have : (5 : Int) = 2 * z := by exact_mod_cast this
  omega

/-- C19, what holds (partial): the table has exactly one entry for each currency used, and it is
the least d with 10^d at least every (reduced) denominator of the amounts added in it; an
amount is printed exactly whenever its denominator divides 10^d, in particular when its
denominator is itself a power of ten.  (Missing: exactness for denominators like 4 or 8.) -/
theorem c19_decimals_partial (srt : List Posting → List Posting) (cs : List Call) (bb : Builder) (b : Book)
    (hc : Builder.new.calls cs = some bb) (hb : bb.build srt = some b) :
    (b.ccy.map (·.1)).Nodup ∧ (∀ c, c ∈ b.ccy.map (·.1) ↔ ∃ p ∈ bb.post, p.ccy = c) ∧
    (∀ c d, (c, d) ∈ b.ccy →
      (∀ p ∈ bb.post, p.ccy = c → p.val.den ≤ 10 ^ d) ∧
      (∀ e, (∀ p ∈ bb.post, p.ccy = c → p.val.den ≤ 10 ^ e) → d ≤ e) ∧
      (∀ p ∈ bb.post, p.ccy = c → (∃ k, p.val.den = 10 ^ k) → ∃ z : Int, p.val * 10 ^ d = z)) := by
  have hccy : b.ccy = ccyDecimals bb.post := by
    unfold Builder.build at hb
    cases hcc : bb.checkAndClear with
    | none => rw [hcc] at hb; cases hb
    | some b2 =>
      rw [hcc] at hb
      have hp2 : b2.post = bb.post := by
        unfold Builder.checkAndClear at hcc
        split at hcc
        · cases hcc; rfl
        · cases hcc
      simp only [Option.some.injEq] at hb
      rw [← hb, ← hp2]
      unfold Book.compact
      split <;> rfl
  obtain ⟨d1, d2, d3⟩ := dens_spec bb.post [] (by simp)
  rw [hccy]
  unfold ccyDecimals
  refine ⟨?_, ?_, ?_⟩
  · rw [List.map_map]; exact d1
  · intro c
    rw [List.map_map]
    have := d2 c
    simpa using this
  · intro c d hcd
    obtain ⟨⟨c', v⟩, hv, e⟩ := List.mem_map.1 hcd
    simp only [Prod.mk.injEq] at e
    obtain ⟨rfl, rfl⟩ := e
    obtain ⟨x1, _, x3⟩ := d3 _ _ hv
    obtain ⟨s1, s2⟩ := decimals_spec v
    refine ⟨fun p hp hpc => le_trans (x1 p hp hpc) s1, ?_, ?_⟩
    · intro e he
      apply s2
      rcases x3 with x3 | ⟨p, hp, hpc, hpv⟩
      · simp at x3
      · rw [← hpv]; exact he p hp hpc
    · intro p hp hpc ⟨k, hk⟩
      have hle : 10 ^ k ≤ 10 ^ decimals v := by rw [← hk]; exact le_trans (x1 p hp hpc) s1
      have hkd : k ≤ decimals v := (Nat.pow_le_pow_iff_right (by omega)).1 hle
      refine ⟨p.val.num * 10 ^ (decimals v - k), ?_⟩
      conv => lhs; rw [← Rat.num_div_den p.val]
      rw [hk]
      push_cast
      have : (10 : Rat) ^ decimals v = 10 ^ k * 10 ^ (decimals v - k) := by rw [← pow_add]; congr 1; omega
      rw [this]
      have hne : (10 : Rat) ^ k ≠ 0 := by positivity
      field_simp

example : demoBook.ccy = [(b!"USD", 1), (b!"EUR", 0)] := by decide +kernel

end Verif
