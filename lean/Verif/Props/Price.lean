import Verif.Proofs.Price
import Verif.Props.Compact
import Mathlib.Tactic.FieldSimp
import Mathlib.Tactic.Positivity

/-! # C28–C32: price lookup -/

namespace Verif
open Spec

/-- A book obtained from a given sequence of builder calls followed by some operations. -/
def FromCalls (srt : List Posting → List Posting) (today : Int) (cs : List Call) (b : Book) : Prop :=
  ∃ bb b0 ops, Builder.new.calls cs = some bb ∧ bb.build srt = some b0 ∧ applyOps srt today ops b0 = some b

theorem fromCalls_find {srt today cs b} (h : FromCalls srt today cs b) (u c : Str) :
    b.prices.find (u, c) = if recorded u c cs = [] then none else some (sortPrices (recorded u c cs)) := by
  obtain ⟨bb, b0, ops, h1, h2, h3⟩ := h
  rw [applyOps_prices h3]
  exact built_prices h1 h2 u c

theorem sortPrices_ne {l : PriceList} (h : l ≠ []) : sortPrices l ≠ [] := by
  intro e
  have := (sortPrices_spec l).1
  rw [e] at this
  exact h this.symm.eq_nil

/-- On real dates the two readings of the specification agree. -/
theorem answer_cal {h : List Price} {t : YMD} (ht : t.Valid) (hv : ∀ q ∈ h, IsDate q.date) {r : Rat × PriceType}
    (ha : Answer h t.code r) : CalAnswer h t r := by
  cases ha with
  | before q h1 h2 h3 => exact .before q h1 h2 h3
  | after q h1 h2 h3 => exact .after q h1 h2 h3
  | exact q h1 h2 => exact .exact q h1 h2
  | between lo hi a n h1 h2 h3 h4 h5 h6 h7 h8 h9 =>
    obtain ⟨s, hs, es⟩ := hv lo h2
    obtain ⟨u, hu, eu⟩ := hv hi h3
    have e7 := h7; have e8 := h8
    rw [es] at e7 e8
    rw [eu] at e8
    unfold daysSince at e7 e8
    rw [asDays_code ht, asDays_code hs] at e7
    rw [asDays_code hu, asDays_code hs] at e8
    simp only [Option.some.injEq] at e7 e8
    have l1 := dayNum_strictMono hs ht (by omega)
    have l2 := dayNum_strictMono ht hu (by omega)
    have q1 : t = s.after a.toNat := by
      apply dayNum_injective ht (after_valid hs _)
      rw [dayNum_after hs]; omega
    have q2 : u = s.after n.toNat := by
      apply dayNum_injective hu (after_valid hs _)
      rw [dayNum_after hs]; omega
    have key := CalAnswer.between (h := h) (t := t) s lo.val hi.val a.toNat n.toNat h1 hs (by rw [← es]; exact h2)
      (by rw [← q2, ← eu]; exact h3) q1 (by omega) (by omega) (by rw [← q2, ← eu, ← es]; exact h6)
    have c1 : ((a.toNat : Nat) : Rat) = (a : Rat) := by
      rw [← Int.cast_natCast]; congr 1; omega
    have c2 : ((n.toNat : Nat) : Rat) = (n : Rat) := by
      rw [← Int.cast_natCast]; congr 1; omega
    rw [c1, c2] at key
    exact key

/-! ## C28 -/

/-- C28: price lookup follows the documented rule, for every history of `AddPrice` calls in any
order, every real date and every pair; the book may have been changed by any operations in
between.  With real recorded dates it always answers; the reciprocal of a recorded price needs
that price to be non-zero. -/
theorem c28_lookup (srt : List Posting → List Posting) (today : Int) (cs : List Call) (b : Book)
    (hb : FromCalls srt today cs b) (u c : Str) (t : YMD) (ht : t.Valid)
    (hv : ∀ q, q ∈ recorded u c cs ∨ q ∈ recorded c u cs → IsDate q.date) :
    (u = c → b.prices.getPrice t.code u c = some (1, .exact)) ∧
    (u ≠ c → recorded u c cs ≠ [] →
      ∃ r, b.prices.getPrice t.code u c = some r ∧ CalAnswer (recorded u c cs) t r) ∧
    (u ≠ c → recorded u c cs = [] → recorded c u cs ≠ [] →
      ∃ r pt, CalAnswer (recorded c u cs) t (r, pt) ∧
        b.prices.getPrice t.code u c = if r = 0 then none else some (1 / r, pt)) ∧
    (u ≠ c → recorded u c cs = [] → recorded c u cs = [] →
      b.prices.getPrice t.code u c = some (1, .none)) := by
  have direct : ∀ x y, (∀ q ∈ recorded x y cs, IsDate q.date) → recorded x y cs ≠ [] →
      ∃ r, PriceList.getPrice (sortPrices (recorded x y cs)) t.code = some r ∧ CalAnswer (recorded x y cs) t r := by
    intro x y hv hne
    obtain ⟨hp, hs⟩ := sortPrices_spec (recorded x y cs)
    obtain ⟨r, hr⟩ := getPrice_total _ t ht hs (sortPrices_ne hne) (fun q hq => hv q (hp.mem_iff.1 hq))
    exact ⟨r, hr, answer_cal ht hv (Answer.perm hp (getPrice_answer _ _ hs (sortPrices_ne hne) hr))⟩
  unfold PriceBook.getPrice
  rw [fromCalls_find hb, fromCalls_find hb]
  refine ⟨?_, ?_, ?_, ?_⟩
  · intro h; rw [if_pos h]
  · intro h hne
    rw [if_neg h, if_neg hne]
    exact direct u c (fun q hq => hv q (Or.inl hq)) hne
  · intro h h0 hne
    rw [if_neg h, if_pos h0, if_neg hne]
    obtain ⟨⟨r, pt⟩, h1, h2⟩ := direct c u (fun q hq => hv q (Or.inr hq)) hne
    refine ⟨r, pt, h2, ?_⟩
    simp only [h1, one_div]
  · intro h h0 h1
    rw [if_neg h, if_pos h0, if_pos h1]

/-- C28 for arbitrary integers as dates: whenever the lookup answers, the answer follows the
rule with `DaysSince` for the distances. -/
theorem c28_lookup_any_date (srt : List Posting → List Posting) (today : Int) (cs : List Call) (b : Book)
    (hb : FromCalls srt today cs b) (u c : Str) (date : Int) (huc : u ≠ c) (hne : recorded u c cs ≠ [])
    (r : Rat × PriceType) (hr : b.prices.getPrice date u c = some r) : Answer (recorded u c cs) date r := by
  unfold PriceBook.getPrice at hr
  rw [if_neg huc, fromCalls_find hb, if_neg hne] at hr
  obtain ⟨hp, hs⟩ := sortPrices_spec (recorded u c cs)
  exact Answer.perm hp (getPrice_answer _ _ hs (sortPrices_ne hne) hr)

/-- C28, several prices on a day: after the last day with a price, the price recorded last for that day holds. -/
theorem c28_latest (srt : List Posting → List Posting) (today : Int) (cs : List Call) (b : Book)
    (hb : FromCalls srt today cs b) (u c : Str) (date : Int) (huc : u ≠ c) (xs ys : List Price) (q : Price) (hr : recorded u c cs = xs ++ q :: ys)
    (h1 : ∀ r ∈ xs, r.date ≤ q.date) (h2 : ∀ r ∈ ys, r.date < q.date) (hd : q.date < date) :
    b.prices.getPrice date u c = some (q.val, .outOfRange) := by
  have hl := sortPrices_last xs ys q h1 h2
  unfold PriceBook.getPrice
  rw [if_neg huc, fromCalls_find hb, hr, if_neg (by simp)]
  simp only
  cases hh : (sortPrices (xs ++ q :: ys)).head? with
  | none => rw [List.head?_eq_none_iff] at hh; rw [hh] at hl; cases hl
  | some f =>
    have hf : f ∈ xs ++ q :: ys := (sortPrices_spec _).1.mem_iff.1 (List.mem_of_mem_head? hh)
    have hle : f.date ≤ q.date := by
      rcases List.mem_append.1 hf with h | h
      · exact h1 f h
      · rcases List.mem_cons.1 h with rfl | h
        · omega
        · have := h2 f h; omega
    unfold PriceList.getPrice
    rw [hh, hl]
    simp only
    rw [if_neg (by omega), if_pos (by omega)]

/-- C28, several prices on a day: before the first day with a price, the price recorded first for that day holds. -/
theorem c28_earliest (srt : List Posting → List Posting) (today : Int) (cs : List Call) (b : Book)
    (hb : FromCalls srt today cs b) (u c : Str) (date : Int) (huc : u ≠ c) (xs ys : List Price) (q : Price) (hr : recorded u c cs = xs ++ q :: ys)
    (h1 : ∀ r ∈ xs, q.date < r.date) (h2 : ∀ r ∈ ys, q.date ≤ r.date) (hd : date < q.date) :
    b.prices.getPrice date u c = some (q.val, .outOfRange) := by
  have hl := sortPrices_first xs ys q h1 h2
  unfold PriceBook.getPrice
  rw [if_neg huc, fromCalls_find hb, hr, if_neg (by simp)]
  simp only
  cases hh : (sortPrices (xs ++ q :: ys)).getLast? with
  | none => rw [List.getLast?_eq_none_iff] at hh; rw [hh] at hl; cases hl
  | some f =>
    unfold PriceList.getPrice
    rw [hh, hl]
    simp only
    rw [if_pos (by omega)]

/-- Non-vacuity: two prices on the last day, recorded before the first day's. -/
example : ∃ xs ys q, recorded b!"A" b!"B" [.addPrice 20200103 b!"A" b!"B" 2, .addPrice 20200103 b!"A" b!"B" 3, .addPrice 20200101 b!"A" b!"B" 1] =
    xs ++ q :: ys ∧ (∀ r ∈ xs, r.date ≤ q.date) ∧ (∀ r ∈ ys, r.date < q.date) ∧ q.date < 20200201 ∧ q.val = 3 :=
  ⟨[⟨20200103, 2⟩], [⟨20200101, 1⟩], ⟨20200103, 3⟩, by decide +kernel, by decide +kernel, by decide +kernel, by decide, rfl⟩

/-! ## C29 -/

theorem calAnswer_bounds {h : List Price} {t : YMD} {r : Rat} {pt : PriceType} (ha : CalAnswer h t (r, pt)) (lo hi : Rat)
    (hb : ∀ q ∈ h, lo ≤ q.val ∧ q.val ≤ hi) : lo ≤ r ∧ r ≤ hi := by
  cases ha with
  | before q h1 h2 h3 => exact hb q h1
  | after q h1 h2 h3 => exact hb q h1
  | exact q h1 h2 => exact hb q h1
  | between s v w a n h1 h2 h3 h4 h5 h6 h7 h8 =>
    obtain ⟨v1, v2⟩ := hb _ h3
    obtain ⟨w1, w2⟩ := hb _ h4
    simp only at v1 v2 w1 w2
    have hn : (0 : Rat) < n := by exact_mod_cast (by omega : 0 < n)
    have f0 : (0 : Rat) ≤ (a : Rat) / n := by positivity
    have f1 : (a : Rat) / n ≤ 1 := by rw [div_le_one hn]; exact_mod_cast (by omega)
    generalize (a : Rat) / n = f at f0 f1
    constructor <;> nlinarith

/-- C29: an inferred price comes from a nearest earlier price `v` and a nearest later price
`w` and lies between them. -/
theorem c29_between_neighbours (srt : List Posting → List Posting) (today : Int) (cs : List Call) (b : Book)
    (hb : FromCalls srt today cs b) (u c : Str) (t : YMD) (ht : t.Valid) (hne : recorded u c cs ≠ [])
    (hv : ∀ q, q ∈ recorded u c cs → IsDate q.date) (r : Rat)
    (hr : b.prices.getPrice t.code u c = some (r, .inferred)) :
    ∃ lo hi, lo ∈ recorded u c cs ∧ hi ∈ recorded u c cs ∧ lo.date < t.code ∧ t.code < hi.date ∧
      (∀ q ∈ recorded u c cs, q.date ≤ lo.date ∨ hi.date ≤ q.date) ∧
      min lo.val hi.val ≤ r ∧ r ≤ max lo.val hi.val := by
  have huc : u ≠ c := by
    intro e
    unfold PriceBook.getPrice at hr
    rw [if_pos e] at hr
    cases hr
  have ha := c28_lookup_any_date srt today cs b hb u c t.code huc hne _ hr
  cases ha with
  | between lo hi a n h1 h2 h3 h4 h5 h6 h7 h8 h9 =>
    refine ⟨lo, hi, h2, h3, h4, h5, h6, ?_⟩
    obtain ⟨s, hs, es⟩ := hv lo h2
    obtain ⟨w, hw, ew⟩ := hv hi h3
    rw [es] at h7 h8
    rw [ew] at h8
    unfold daysSince at h7 h8
    rw [asDays_code ht, asDays_code hs] at h7
    rw [asDays_code hw, asDays_code hs] at h8
    simp only [Option.some.injEq] at h7 h8
    have l1 := dayNum_strictMono hs ht (by omega)
    have l2 := dayNum_strictMono ht hw (by omega)
    have hn : (0 : Rat) < n := by exact_mod_cast (by omega : 0 < n)
    have ha0 : (0 : Rat) ≤ a := by exact_mod_cast (by omega : 0 ≤ a)
    have f0 : (0 : Rat) ≤ (a : Rat) / n := by positivity
    have f1 : (a : Rat) / n ≤ 1 := by rw [div_le_one hn]; exact_mod_cast (by omega)
    generalize (a : Rat) / n = f at f0 f1
    have m1 := min_le_left lo.val hi.val
    have m2 := min_le_right lo.val hi.val
    have m3 := le_max_left lo.val hi.val
    have m4 := le_max_right lo.val hi.val
    constructor <;> nlinarith

/-- C29: with real dates and positive prices no lookup panics, in either direction. -/
theorem c29_never_panics (srt : List Posting → List Posting) (today : Int) (cs : List Call) (b : Book)
    (hb : FromCalls srt today cs b) (u c : Str) (t : YMD) (ht : t.Valid)
    (hv : ∀ q, q ∈ recorded u c cs ∨ q ∈ recorded c u cs → IsDate q.date ∧ 0 < q.val) :
    ∃ r pt, b.prices.getPrice t.code u c = some (r, pt) ∧ 0 < r := by
  obtain ⟨h1, h2, h3, h4⟩ := c28_lookup srt today cs b hb u c t ht (fun q hq => (hv q hq).1)
  have pos : ∀ (h : List Price) (r : Rat × PriceType), (∀ q ∈ h, 0 < q.val) → CalAnswer h t r → 0 < r.1 := by
    intro h r hp ha
    cases ha with
    | before q h1 h2 h3 => exact hp q h1
    | after q h1 h2 h3 => exact hp q h1
    | exact q h1 h2 => exact hp q h1
    | between s v w a n h1 h2 h3 h4 h5 h6 h7 h8 =>
      have v1 := hp _ h3
      have w1 := hp _ h4
      simp only at v1 w1
      have hn : (0 : Rat) < n := by exact_mod_cast (by omega : 0 < n)
      have f0 : (0 : Rat) ≤ (a : Rat) / n := by positivity
      have f1 : (a : Rat) / n < 1 := by rw [div_lt_one hn]; exact_mod_cast h7
      simp only
      generalize (a : Rat) / n = f at f0 f1
      nlinarith [mul_pos v1 (sub_pos.2 f1), mul_nonneg w1.le f0]
  by_cases huc : u = c
  · exact ⟨1, .exact, h1 huc, by norm_num⟩
  by_cases hd : recorded u c cs = []
  · by_cases hi : recorded c u cs = []
    · exact ⟨1, .none, h4 huc hd hi, by norm_num⟩
    · obtain ⟨r, pt, ha, he⟩ := h3 huc hd hi
      have := pos _ _ (fun q hq => (hv q (Or.inr hq)).2) ha
      rw [if_neg (ne_of_gt this)] at he
      exact ⟨_, _, he, by simp only at this; positivity⟩
  · obtain ⟨⟨r, pt⟩, he, ha⟩ := h2 huc hd
    exact ⟨r, pt, he, pos _ _ (fun q hq => (hv q (Or.inl hq)).2) ha⟩

/-! ## C30 -/

theorem recorded_perm {cs cs' : List Call} (h : cs.Perm cs') (u c : Str) : (recorded u c cs).Perm (recorded u c cs') := by
  induction h with
  | nil => exact List.Perm.refl _
  | cons x _ ih =>
    cases x with
    | addPrice d u' c' v =>
      simp only [recorded]
      split
      · exact ih.cons _
      · exact ih
    | newTransaction d p n => exact ih
    | addPosting a cc v n => exact ih
  | swap x y l =>
    cases x <;> cases y <;> simp only [recorded] <;> (try exact List.Perm.refl _)
    split_ifs
    · exact List.Perm.swap _ _ _
    · exact List.Perm.refl _
    · exact List.Perm.refl _
    · exact List.Perm.refl _
  | trans _ _ ih1 ih2 => exact ih1.trans ih2

/-- C30: if the recorded dates of both directions of a pair are distinct, two books whose price
records for the pair are permutations of each other (whatever else was recorded, and whatever
operations followed) answer every query on the pair alike. -/
theorem c30_order_irrelevant (srt srt' : List Posting → List Posting) (today today' : Int) (cs cs' : List Call) (b b' : Book)
    (hb : FromCalls srt today cs b) (hb' : FromCalls srt' today' cs' b') (u c : Str)
    (p1 : (recorded u c cs).Perm (recorded u c cs')) (p2 : (recorded c u cs).Perm (recorded c u cs'))
    (d1 : ((recorded u c cs).map (·.date)).Nodup) (d2 : ((recorded c u cs).map (·.date)).Nodup) (date : Int) :
    b.prices.getPrice date u c = b'.prices.getPrice date u c := by
  have e1 := sortPrices_perm_eq p1 d1
  have e2 := sortPrices_perm_eq p2 d2
  have n1 : recorded u c cs = [] ↔ recorded u c cs' = [] :=
    ⟨fun h => by rw [h] at p1; exact p1.symm.eq_nil, fun h => by rw [h] at p1; exact p1.eq_nil⟩
  have n2 : recorded c u cs = [] ↔ recorded c u cs' = [] :=
    ⟨fun h => by rw [h] at p2; exact p2.symm.eq_nil, fun h => by rw [h] at p2; exact p2.eq_nil⟩
  unfold PriceBook.getPrice
  rw [fromCalls_find hb, fromCalls_find hb, fromCalls_find hb', fromCalls_find hb', e1, e2]
  simp only [n1, n2]

/-- C30: in particular, permuting all the builder calls (here among books that get built). -/
theorem c30_permuted_calls (srt : List Posting → List Posting) (today : Int) (cs cs' : List Call) (b b' : Book)
    (hb : FromCalls srt today cs b) (hb' : FromCalls srt today cs' b') (hp : cs.Perm cs')
    (hd : ∀ u c, ((recorded u c cs).map (·.date)).Nodup) (date : Int) (u c : Str) :
    b.prices.getPrice date u c = b'.prices.getPrice date u c :=
  c30_order_irrelevant srt srt today today cs cs' b b' hb hb' u c (recorded_perm hp u c) (recorded_perm hp c u)
    (hd u c) (hd c u) date

/-! ## C31 -/

/-- C31: when only `(u, c)` is recorded, with real dates and positive prices, the two
conversions are reciprocal and have the same type. -/
theorem c31_inverse (srt : List Posting → List Posting) (today : Int) (cs : List Call) (b : Book)
    (hb : FromCalls srt today cs b) (u c : Str) (huc : u ≠ c) (hd : recorded u c cs ≠ []) (hi : recorded c u cs = [])
    (hv : ∀ q, q ∈ recorded u c cs → IsDate q.date ∧ 0 < q.val) (t : YMD) (ht : t.Valid) :
    ∃ r s pt, b.prices.getPrice t.code u c = some (r, pt) ∧ b.prices.getPrice t.code c u = some (s, pt) ∧ r * s = 1 := by
  obtain ⟨r, pt, h1, h2⟩ := c29_never_panics srt today cs b hb u c t ht
    (fun q hq => by rcases hq with hq | hq; exact hv q hq; rw [hi] at hq; cases hq)
  refine ⟨r, r⁻¹, pt, h1, ?_, mul_inv_cancel₀ (ne_of_gt h2)⟩
  unfold PriceBook.getPrice at h1 ⊢
  rw [if_neg huc, fromCalls_find hb, if_neg hd] at h1
  rw [if_neg (Ne.symm huc), fromCalls_find hb, if_pos hi, fromCalls_find hb, if_neg hd]
  simp only at h1
  simp only [h1, if_neg (ne_of_gt h2)]

/-- C31, any recorded prices and dates: whenever the direct lookup answers a non-zero price the
reverse lookup answers its reciprocal with the same type. -/
theorem c31_inverse_nonzero (srt : List Posting → List Posting) (today : Int) (cs : List Call) (b : Book)
    (hb : FromCalls srt today cs b) (u c : Str) (huc : u ≠ c) (hd : recorded u c cs ≠ []) (hi : recorded c u cs = [])
    (date : Int) (r : Rat) (pt : PriceType) (h1 : b.prices.getPrice date u c = some (r, pt)) (h2 : r ≠ 0) :
    b.prices.getPrice date c u = some (1 / r, pt) := by
  unfold PriceBook.getPrice at h1 ⊢
  rw [if_neg huc, fromCalls_find hb, if_neg hd] at h1
  rw [if_neg (Ne.symm huc), fromCalls_find hb, if_pos hi, fromCalls_find hb, if_neg hd]
  simp only at h1
  simp only [h1, if_neg h2, one_div]

/-- Prices of both signs. -/
def mixedCalls : List Call := [.addPrice 20200101 b!"A" b!"B" 1, .addPrice 20200103 b!"A" b!"B" (-1)]

/-- C31 needs positive prices: with non-zero prices of both signs the interpolated price can be
zero, and the reverse lookup then panics (`Inv` of zero). -/
theorem c31_mixed_sign_fails : ∃ b, FromCalls insSort 0 mixedCalls b ∧
    (∀ q ∈ recorded b!"A" b!"B" mixedCalls, q.val ≠ 0) ∧
    b.prices.getPrice 20200102 b!"A" b!"B" = some (0, .inferred) ∧
    b.prices.getPrice 20200102 b!"B" b!"A" = none := by
  have h : ((Builder.new.calls mixedCalls).bind (Builder.build insSort)).isSome = true := by decide +kernel
  obtain ⟨b, hb⟩ := Option.isSome_iff_exists.1 h
  obtain ⟨bb, h1, h2⟩ := Option.bind_eq_some_iff.1 hb
  refine ⟨b, ⟨bb, b, [], h1, h2, rfl⟩, by decide +kernel, ?_, ?_⟩
  · have : (((Builder.new.calls mixedCalls).bind (Builder.build insSort)).bind
      fun b => b.prices.getPrice 20200102 b!"A" b!"B") = some (0, .inferred) := by decide +kernel
    rw [hb] at this; exact this
  · have : (((Builder.new.calls mixedCalls).bind (Builder.build insSort)).bind
      fun b => b.prices.getPrice 20200102 b!"B" b!"A") = none := by decide +kernel
    rw [hb] at this; exact this

/-! ## C32 -/

/-- Successive queries on one iterator. -/
def iterQueries (pi : PriceIterator) : List Int → List (Option (Rat × PriceType))
  | [] => []
  | d :: ds => (pi.getPrice d).2 :: iterQueries (pi.getPrice d).1 ds

/-- C32: on a price list with increasing dates, an iterator asked any non-decreasing
sequence of dates answers each exactly as the direct lookup. -/
theorem c32_iterator (pl : PriceList) (hs : pl.Pairwise (fun a b => a.date < b.date)) (ds : List Int)
    (hd : ds.Pairwise (· ≤ ·)) : iterQueries pl.getIterator ds = ds.map fun d => PriceList.getPrice pl d := by
  have hs' : pl.Pairwise (fun a b => a.date ≤ b.date) := hs.imp (fun h => by omega)
  have gen : ∀ (ds : List Int) (idx : Nat), ds.Pairwise (· ≤ ·) → (∀ d ∈ ds, idx ≤ countBefore pl d) →
      iterQueries ⟨idx, pl⟩ ds = ds.map fun d => PriceList.getPrice pl d := by
    intro ds
    induction ds with
    | nil => intro idx _ _; rfl
    | cons d ds ih =>
      intro idx hp hi
      obtain ⟨p1, p2⟩ := List.pairwise_cons.1 hp
      have hadv := iterAdvance_eq hs' d (pl.length - idx) idx (hi d List.mem_cons_self) (Nat.le_refl _)
      simp only [iterQueries, List.map_cons]
      congr 1
      · rw [getPrice_byCount hs]
        unfold PriceIterator.getPrice byCount
        simp only [hadv]
        rfl
      · have : (PriceIterator.getPrice ⟨idx, pl⟩ d).1 = ⟨countBefore pl d, pl⟩ := by
          unfold PriceIterator.getPrice
          simp only [hadv]
        rw [this]
        exact ih _ p2 (fun e he => countBefore_mono pl (p1 e he))
  exact gen ds 0 hd (fun _ _ => Nat.zero_le _)

/-! ## Concrete cases -/

/-- Prices recorded out of order. -/
def priceCalls : List Call :=
  [.addPrice 20200301 b!"A" b!"B" 4, .addPrice 20200101 b!"A" b!"B" 2, .addPrice 20200201 b!"A" b!"B" 3]

/-- Its book. -/
def priceBook : Book :=
  match (Builder.new.calls priceCalls).bind (Builder.build insSort) with
  | some b => b
  | none => ⟨[], [], [], []⟩

theorem priceBook_from : FromCalls insSort 0 priceCalls priceBook := by
  have h : ((Builder.new.calls priceCalls).bind (Builder.build insSort)).isSome = true := by decide +kernel
  obtain ⟨b, hb⟩ := Option.isSome_iff_exists.1 h
  obtain ⟨bb, h1, h2⟩ := Option.bind_eq_some_iff.1 hb
  exact ⟨bb, priceBook, [], h1, by rw [h2]; unfold priceBook; rw [hb], rfl⟩

theorem priceCalls_dates : ∀ q ∈ recorded b!"A" b!"B" priceCalls, IsDate q.date ∧ 0 < q.val := by
  intro q hq
  have : recorded b!"A" b!"B" priceCalls = [⟨20200301, 4⟩, ⟨20200101, 2⟩, ⟨20200201, 3⟩] := by decide +kernel
  rw [this] at hq
  simp only [List.mem_cons, List.not_mem_nil, or_false] at hq
  rcases hq with h | h | h <;> subst h
  · exact ⟨⟨⟨2020, 3, 1⟩, by decide, rfl⟩, by decide +kernel⟩
  · exact ⟨⟨⟨2020, 1, 1⟩, by decide, rfl⟩, by decide +kernel⟩
  · exact ⟨⟨⟨2020, 2, 1⟩, by decide, rfl⟩, by decide +kernel⟩

example : ∃ r s pt, priceBook.prices.getPrice 20200112 b!"A" b!"B" = some (r, pt) ∧
    priceBook.prices.getPrice 20200112 b!"B" b!"A" = some (s, pt) ∧ r * s = 1 :=
  c31_inverse insSort 0 priceCalls priceBook priceBook_from b!"A" b!"B" (by decide) (by decide +kernel) (by decide +kernel)
    priceCalls_dates ⟨2020, 1, 12⟩ (by decide)

example : priceBook.prices.getPrice 20200112 b!"A" b!"B" = some (2 + 11/31, .inferred) := by decide +kernel
example : priceBook.prices.getPrice 20200112 b!"B" b!"A" = some (31/73, .inferred) := by decide +kernel
example : ((recorded b!"A" b!"B" priceCalls).map (·.date)).Nodup := by decide +kernel
example : iterQueries (PriceList.getIterator [⟨20200101, 2⟩, ⟨20200201, 3⟩]) [20191231, 20200101, 20200112, 20200301] =
    [some (2, .outOfRange), some (2, .exact), some (2 + 11/31, .inferred), some (3, .outOfRange)] := by decide +kernel

end Verif
