import Verif.Props.Accum2
import Mathlib.Data.Rat.Floor

/-! # C52: the order of the rows of a report; C46: which accounts get a subtotal -/

namespace Verif
open Spec

/-! ## Sort keys -/

private def hexDigit (n : Nat) : Nat := if n < 10 then 48 + n else 87 + n
private def hexFix : Nat → Nat → Str
  | 0, _ => []
  | w + 1, n => hexFix w (n / 16) ++ [hexDigit (n % 16)]

private theorem hexFix_length (w n : Nat) : (hexFix w n).length = w := by
  induction w generalizing n with
  | zero => rfl
  | succ w ih => simp [hexFix, ih]

private theorem hexFix_zero (w : Nat) : hexFix w 0 = List.replicate w 48 := by
  induction w with
  | zero => rfl
  | succ w ih =>
    rw [hexFix]
    simp only [Nat.zero_div, Nat.zero_mod, ih]
    rw [List.replicate_succ']; rfl

private theorem natHex_fix (w : Nat) : ∀ n f, n < 16 ^ (w + 1) → n ≤ f →
    (natHexAux f n).length ≤ w + 1 ∧
    List.replicate (w + 1 - (natHexAux f n).length) 48 ++ natHexAux f n = hexFix (w + 1) n := by
  have small : ∀ n f, n < 16 → natHexAux f n = [hexDigit n] := by
    intro n f hn
    cases f with
    | zero => simp [natHexAux, hexDigit, Nat.mod_eq_of_lt hn]
    | succ f => simp [natHexAux, hexDigit, hn]
  induction w with
  | zero =>
    intro n f hn hf
    rw [small n f (by simpa using hn)]
    simp only [List.length_singleton, le_refl, true_and]
    rw [hexFix, hexFix, Nat.mod_eq_of_lt (by simpa using hn)]; rfl
  | succ w ih =>
    intro n f hn hf
    by_cases h : n < 16
    · rw [small n f h]
      refine ⟨by simp, ?_⟩
      rw [hexFix, Nat.div_eq_of_lt h, hexFix_zero, Nat.mod_eq_of_lt h]
      simp
    · cases f with
      | zero => omega
      | succ f =>
        have hstep : natHexAux (f + 1) n = natHexAux f (n / 16) ++ [hexDigit (n % 16)] := by
          rw [natHexAux, if_neg h]; rfl
        obtain ⟨h1, h2⟩ := ih (n / 16) f (by rw [Nat.div_lt_iff_lt_mul (by decide)]; rw [pow_succ] at hn; exact hn) (by omega)
        rw [hstep]
        refine ⟨by simp; omega, ?_⟩
        rw [hexFix, ← h2, List.length_append, List.length_singleton, List.append_assoc, ← List.append_assoc, List.append_assoc]
        rw [show w + 1 + 1 - ((natHexAux f (n / 16)).length + 1) = w + 1 - (natHexAux f (n / 16)).length by omega]

private theorem lt_append {a b x y : Str} (hl : a.length = b.length) (h : a < b) : a ++ x < b ++ y := by
  induction a generalizing b with
  | nil => cases b with
    | nil => exact absurd h (lt_irrefl _)
    | cons _ _ => simp at hl
  | cons u a ih => cases b with
    | nil => simp at hl
    | cons v b =>
      rw [List.cons_append, List.cons_append, List.cons_lt_cons_iff]
      rw [List.cons_lt_cons_iff] at h
      rcases h with h | ⟨h1, h2⟩
      · exact Or.inl h
      · exact Or.inr ⟨h1, ih (by simpa using hl) h2⟩

theorem append_lt_append_iff (c a b : Str) : c ++ a < c ++ b ↔ a < b := by
  induction c with
  | nil => rfl
  | cons x c ih =>
    rw [List.cons_append, List.cons_append, List.cons_lt_cons_iff]
    simp only [lt_irrefl, false_or, true_and]
    exact ih

private theorem hexFix_lt (w : Nat) : ∀ n m, n < m → m < 16 ^ w → hexFix w n < hexFix w m := by
  induction w with
  | zero => intro n m h1 h2; simp at h2; omega
  | succ w ih =>
    intro n m h1 h2
    rw [hexFix, hexFix]
    have hm : m / 16 < 16 ^ w := by rw [Nat.div_lt_iff_lt_mul (by decide)]; rw [pow_succ] at h2; exact h2
    rcases Nat.lt_or_ge (n / 16) (m / 16) with h | h
    · exact lt_append (by rw [hexFix_length, hexFix_length]) (ih _ _ h hm)
    · have e : n / 16 = m / 16 := by omega
      rw [e, append_lt_append_iff, List.cons_lt_cons_iff]
      left
      have : n % 16 < m % 16 := by omega
      unfold hexDigit
      split <;> split <;> omega

private theorem hexPad_fix {x : Int} (h0 : 0 ≤ x) (h1 : x < 16 ^ 15) : hexPad 15 x = hexFix 15 x.natAbs := by
  unfold hexPad
  simp only
  rw [if_neg (by omega)]
  exact (natHex_fix 14 x.natAbs x.natAbs (by omega) (le_refl _)).2

private theorem hexPad_lt {x y : Int} (h0 : 0 ≤ x) (h : x < y) (h1 : y < 16 ^ 15) : hexPad 15 x < hexPad 15 y := by
  rw [hexPad_fix h0 (by omega), hexPad_fix (by omega) h1]
  exact hexFix_lt 15 _ _ (by omega) (by omega)

theorem ratTrunc_nonneg {r : Rat} (h : 0 ≤ r) : ratTrunc r = ⌊r⌋ := by
  unfold ratTrunc
  rw [Int.tdiv_eq_ediv_of_nonneg (Rat.num_nonneg.2 h), Rat.floor_def']

theorem ratTrunc_neg (r : Rat) : ratTrunc (-r) = - ratTrunc r := by
  unfold ratTrunc
  simp [Int.neg_tdiv]

theorem ratTrunc_mono {a b : Rat} (h : a ≤ b) : ratTrunc a ≤ ratTrunc b := by
  rcases le_total 0 a with ha | ha
  · rw [ratTrunc_nonneg ha, ratTrunc_nonneg (ha.trans h)]
    exact Int.floor_le_floor h
  · have ea : ratTrunc a = -⌊-a⌋ := by rw [← ratTrunc_nonneg (by linarith), ratTrunc_neg, neg_neg]
    rcases le_total 0 b with hb | hb
    · rw [ea, ratTrunc_nonneg hb]
      have h1 : 0 ≤ ⌊-a⌋ := Int.floor_nonneg.2 (by linarith)
      have h2 : 0 ≤ ⌊b⌋ := Int.floor_nonneg.2 hb
      omega
    · have eb : ratTrunc b = -⌊-b⌋ := by rw [← ratTrunc_nonneg (by linarith), ratTrunc_neg, neg_neg]
      rw [ea, eb]
      have := Int.floor_le_floor (show -b ≤ -a by linarith)
      omega

/-! ## C52 -/

/-- An amount in whole millionths. -/
def micros (a : Rat) : Int := ratTrunc (a * 1000000)

/-- The amounts the fixed-width key can hold. -/
def KeyRange (a : Rat) : Prop := -1151921504606 ≤ a ∧ a ≤ 1000000000

/-- C52 as stated: the sort key is antitone in the amount. -/
def C52 : Prop := ∀ a b : Rat, a ≤ b → getSortOrder b ≤ getSortOrder a

/-- C52 is false of the code: above one billion the order is reversed. -/
theorem c52_sort_order_fails : ¬ C52 := by
  intro h
  have := h 2000000000 3000000000 (by norm_num)
  revert this
  decide +kernel

private theorem micros_range {a : Rat} (h : KeyRange a) :
    0 ≤ (1000000000 * 1000000 : Int) - micros a ∧ (1000000000 * 1000000 : Int) - micros a < 16 ^ 15 := by
  have h1 : micros a ≤ ratTrunc ((1000000000 * 1000000 : Int) : Rat) := ratTrunc_mono (by push_cast; linarith [h.2])
  have h2 : ratTrunc ((-1151921504606 * 1000000 : Int) : Rat) ≤ micros a := ratTrunc_mono (by push_cast; linarith [h.1])
  have e1 : ratTrunc ((1000000000 * 1000000 : Int) : Rat) = 1000000000 * 1000000 := by decide +kernel
  have e2 : ratTrunc ((-1151921504606 * 1000000 : Int) : Rat) = -1151921504606 * 1000000 := by decide +kernel
  rw [e1] at h1
  rw [e2] at h2
  norm_num at h1 h2 ⊢
  omega

/-- C52, the part that holds: between −1.15·10¹² and 10⁹ a larger amount (by a millionth) gets a
strictly smaller key and equal amounts (to a millionth) get the same key.  Missing: amounts
outside that range. -/
theorem c52_sort_order_partial (a b : Rat) (ha : KeyRange a) (hb : KeyRange b) :
    (micros a < micros b → getSortOrder b < getSortOrder a) ∧ (micros a = micros b → getSortOrder b = getSortOrder a) ∧
    (a ≤ b → getSortOrder b ≤ getSortOrder a) := by
  have h1 : micros a < micros b → getSortOrder b < getSortOrder a := by
    intro h
    have ra := micros_range ha
    have rb := micros_range hb
    exact hexPad_lt rb.1 (by unfold micros at h; omega) ra.2
  have h2 : micros a = micros b → getSortOrder b = getSortOrder a := by
    intro h
    unfold getSortOrder
    rw [show ratTrunc (b * 1000000) = ratTrunc (a * 1000000) from h.symm]
  refine ⟨h1, h2, fun h => ?_⟩
  have hm : micros a ≤ micros b := ratTrunc_mono (by linarith)
  rcases lt_or_eq_of_le hm with h | h
  · exact le_of_lt (h1 h)
  · exact le_of_eq (h2 h)

example : KeyRange (-12345678/10) ∧ KeyRange (999999999/10) := by constructor <;> constructor <;> norm_num
example : getSortOrder 5 < getSortOrder (9/2) := by decide +kernel

/-! ### The order of siblings -/

private theorem joinWith_snoc (sep : Str) (ks : List Str) : ∃ c, ∀ k, joinWith sep (ks ++ [k]) = c ++ k := by
  induction ks with
  | nil => exact ⟨[], fun k => rfl⟩
  | cons x ks ih =>
    obtain ⟨c, hc⟩ := ih
    refine ⟨x ++ sep ++ c, fun k => ?_⟩
    have : ∃ y ys, ks ++ [k] = y :: ys := by
      cases ks with
      | nil => exact ⟨_, _, rfl⟩
      | cons y ys => exact ⟨_, _, rfl⟩
    obtain ⟨y, ys, e⟩ := this
    rw [List.cons_append, e]
    show x ++ sep ++ joinWith sep (y :: ys) = _
    rw [← e, hc k]; simp

/-- The keys of the accounts above, the loop standing in the parent part `Q`. -/
private theorem sortOrderLoop_own (val : Str → Option Rat) (d : Nat) (Q x : Str) (hx : x ≠ []) (hd : d ∉ x) (v : Rat)
    (hv : val (Q ++ x) = some v) : ∀ (f i : Nat), Q.length ≤ i → 1 ≤ i → f + i = (Q ++ x).length + 1 → 1 ≤ f →
    sortOrderLoop val [d] (Q ++ x) i f = [getSortOrder v] := by
  intro f
  induction f with
  | zero => intro i _ _ _ h; omega
  | succ f ih =>
    intro i h1 h2 h3 _
    unfold sortOrderLoop
    simp only
    by_cases hl : i = (Q ++ x).length
    · rw [if_neg (by simp [hl])]
      have hf : f = 0 := by omega
      subst hf
      rw [hl, List.take_length, hv]; rfl
    · rw [if_pos]
      · exact ih (i + 1) (by omega) (by omega) (by omega) (by omega)
      · refine ⟨hl, ?_⟩
        rw [Bool.eq_false_iff]
        intro hp
        have h4 := (isPrefixOf_iff.1 hp).subset (List.mem_singleton.2 rfl)
        rw [List.drop_append, List.drop_of_length_le h1, List.nil_append] at h4
        exact hd (List.drop_subset _ _ h4)

private theorem sortOrderLoop_sibling (val : Str → Option Rat) (d : Nat) (Q : Str) : ∀ (n i : Nat), n = Q.length - i → 1 ≤ i →
    ∃ ks, ∀ (x : Str) (v : Rat) (f : Nat), x ≠ [] → d ∉ x → val (Q ++ x) = some v → f + i = (Q ++ x).length + 1 → 1 ≤ f →
      sortOrderLoop val [d] (Q ++ x) i f = ks ++ [getSortOrder v] := by
  intro n
  induction n with
  | zero =>
    intro i hn hi
    exact ⟨[], fun x v f hx hd hv hf h1 => sortOrderLoop_own val d Q x hx hd v hv f i (by omega) hi hf h1⟩
  | succ n ih =>
    intro i hn hi
    obtain ⟨ks, hks⟩ := ih (i + 1) (by omega) (by omega)
    obtain ⟨q, Q', hQ⟩ : ∃ q Q', Q.drop i = q :: Q' := List.exists_cons_of_ne_nil (by
      intro h0
      have := congrArg List.length h0
      simp at this; omega)
    refine ⟨if q ≠ d then ks else match val (Q.take i) with | some w => getSortOrder w :: ks | none => ks, ?_⟩
    intro x v f hx hd hv hf h1
    have hxl := List.length_pos_iff.2 hx
    rw [List.length_append] at hf
    cases f with
    | zero => omega
    | succ f =>
      have hrest := hks x v f hx hd hv (by rw [List.length_append]; omega) (by omega)
      unfold sortOrderLoop
      simp only
      rw [hrest, List.drop_append_of_le_length (by omega), hQ, List.take_append_of_le_length (by omega)]
      have hi' : i ≠ (Q ++ x).length := by rw [List.length_append]; omega
      by_cases hq : q = d
      · subst hq
        rw [if_neg (by simp [List.isPrefixOf]), if_neg (by simp)]
        cases val (Q.take i) <;> rfl
      · rw [if_pos ⟨hi', by simp [List.isPrefixOf, Ne.symm hq]⟩, if_pos hq]

private theorem sortString_sibling (val : Str → Option Rat) (d : Nat) (Q x y : Str) (hx : x ≠ []) (hy : y ≠ []) (dx : d ∉ x) (dy : d ∉ y)
    (v w : Rat) (hv : val (Q ++ x) = some v) (hw : val (Q ++ y) = some w) :
    ∃ c, getSortOrderString val (Q ++ x) [d] = c ++ getSortOrder v ∧ getSortOrderString val (Q ++ y) [d] = c ++ getSortOrder w := by
  obtain ⟨ks, hks⟩ := sortOrderLoop_sibling val d Q (Q.length - 1) 1 rfl (le_refl _)
  obtain ⟨c, hc⟩ := joinWith_snoc [d] ks
  have hxl := List.length_pos_iff.2 hx
  have hyl := List.length_pos_iff.2 hy
  refine ⟨c, ?_, ?_⟩
  · unfold getSortOrderString
    rw [hks x v _ hx dx hv rfl (by rw [List.length_append]; omega), hc]
  · unfold getSortOrderString
    rw [hks y w _ hy dy hw rfl (by rw [List.length_append]; omega), hc]

theorem foreign_in_summaries {srt : List Posting → List Posting} {b : Book} {base div : Str} {u : Txn} (hu : u ∈ b.transactions srt)
    (hg : IsGroup u) {e : Str × Str} (he : e ∈ acctsOf srt b) (hf : e.2 ≠ base) : e.1 ∈ summaries srt b base div := by
  obtain ⟨p0, hp0⟩ := List.exists_mem_of_ne_nil u hg.1
  have hk := (entryOf_key hg e hp0).2.2
  unfold summaries accumSet
  rw [List.mem_dedup, List.mem_append]
  left
  refine List.mem_map.2 ⟨entryOf u e, List.mem_filter.2 ⟨List.mem_flatten.2 ⟨_, List.mem_map.2 ⟨u, hu, rfl⟩, List.mem_map.2 ⟨e, he, rfl⟩⟩, ?_⟩, congrArg Prod.fst hk⟩
  have : (entryOf u e).ccy = e.2 := congrArg Prod.snd hk
  simp [this, hf]

theorem worth_base (prices : PriceBook) {base : Str} {p : Posting} (h : p.ccy = base) : worth prices base p = p.val := by
  unfold worth
  rw [h]
  simp [PriceBook.getPrice]

/-- A row that stands for the whole of its account: a subtotal row, or the row of an account
without a subtotal. -/
def WholeRow (S : List Str) (div base : Str) (r : Posting) : Prop := r.ccy = base ∧ r.acctlevel = (levelOf S div r.acct : Int)

theorem wholeRow_val {srt : List Posting → List Posting} {b : Book} {base : Str} {d : Nat} {u g : Txn} (hu : u ∈ b.transactions srt)
    (hg : IsGroup u) (hsub : (u.map pairOf).Sublist (acctsOf srt b))
    (hR : ReportOf b.prices base [d] (summaries srt b base [d]) (acctsOf srt b) u g) {r : Posting} (hr : r ∈ g)
    (hw : WholeRow (summaries srt b base [d]) [d] base r) :
    valOf b.prices base [d] (summaries srt b base [d]) (acctsOf srt b) u r.acct = some r.val ∧
    r.acctsort = getSortOrderString (valOf b.prices base [d] (summaries srt b base [d]) (acctsOf srt b) u) r.acct [d] := by
  obtain ⟨B, hbl, hpm, _⟩ := hR
  obtain ⟨l, s, S', rfl, hS', h1, h2⟩ := hbl.ex
  have hA := (c48_accounts srt b).1
  rcases List.mem_append.1 (hpm.mem_iff.1 hr) with hr | hr
  · obtain ⟨p, hp, lt, key, hsp, rfl, hkey⟩ := forall₂_mem_right h1 hr
    obtain ⟨e, he, rfl⟩ := List.mem_map.1 hp
    refine ⟨?_, hkey⟩
    obtain ⟨p0, hp0⟩ := List.exists_mem_of_ne_nil u hg.1
    have hk := (entryOf_key hg e hp0).2.2
    have k1 : (entryOf u e).acct = e.1 := congrArg Prod.fst hk
    have k2 : (entryOf u e).ccy = e.2 := congrArg Prod.snd hk
    obtain ⟨w1, w2⟩ := hw
    simp only at w1 w2
    have hSn : (summaries srt b base [d]).Nodup := accumSet_nodup _ _ _
    have hlev := split_level hSn (by simp) hsp
    have hns : (entryOf u e).acct ∉ summaries srt b base [d] := by
      intro hm
      simp only [hm, decide_true, Bool.and_true, if_true] at hlev
      omega
    show valOf _ _ _ _ _ _ (entryOf u e).acct = some (entryOf u e).val
    unfold valOf acctVal
    rw [if_neg hns]
    have hf : ((fill (acctsOf srt b) u).map fun p => (p.acct, worth b.prices base p)).filter
        (fun c => decide (c.1 = (entryOf u e).acct)) = [((entryOf u e).acct, worth b.prices base (entryOf u e))] := by
      unfold fill
      rw [List.map_map, List.filter_map]
      have : (acctsOf srt b).filter ((fun c : Str × Rat => decide (c.1 = (entryOf u e).acct)) ∘
          ((fun p => (p.acct, worth b.prices base p)) ∘ entryOf u)) = [e] := by
        rw [List.filter_congr (q := fun x => x == e)]
        · rw [List.filter_beq, List.count_eq_one_of_mem hA he]; rfl
        · intro x hx
          have hkx := (entryOf_key hg x hp0).2.2
          have x1 : (entryOf u x).acct = x.1 := congrArg Prod.fst hkx
          simp only [Function.comp]
          rw [Bool.eq_iff_iff, decide_eq_true_eq, beq_iff_eq, x1, k1]
          constructor
          · intro h
            refine Prod.ext h ?_
            by_contra hne
            have : x.2 ≠ base := fun hb => hne (by rw [hb, ← k2, w1])
            exact hns (by rw [k1, ← h]; exact foreign_in_summaries hu hg hx this)
          · rintro rfl; rfl
      rw [this]; rfl
    rw [hf]
    simp only [List.getLast?_singleton, Option.map_some]
    rw [worth_base _ w1]
  · obtain ⟨k, hk, lt, hsp, e1, e2, e3, _, _, _, e4⟩ := forall₂_mem_right h2 hr
    refine ⟨?_, by rw [e1]; exact e4⟩
    unfold valOf acctVal
    rw [e1, if_pos (hS'.mem_iff.1 hk), sumBelow_fill hA hg hsub, e3]

/-- C52, in the report: of two rows of the same transaction that stand for accounts under the same
parent (`x` and `y` are names without a divider), the earlier one has the larger amount (to
a millionth), if both amounts are in range. -/
theorem c52_siblings_partial (srt : List Posting → List Posting) (hs : IsSort srt) (today : Int) (b : Book) (hr : Reachable srt today b)
    (base : Str) (d : Nat) (o : Int → Str → List Str → List Str) (ho : ∀ d py l, (o d py l).Perm l) (ts : List Txn)
    (h : b.accumulate srt base [d] none [] o = some ts) :
    ∀ t ∈ ts, t.Pairwise fun r s => ∀ parent x y, r.acct = parent ++ x → s.acct = parent ++ y → x ≠ [] → y ≠ [] → d ∉ x → d ∉ y →
      WholeRow (summaries srt b base [d]) [d] base r → WholeRow (summaries srt b base [d]) [d] base s →
      KeyRange r.val → KeyRange s.val → micros s.val ≤ micros r.val := by
  obtain ⟨gs, _, g2, g3⟩ := accumulate_report hs hr ho h
  rw [h] at g3
  cases g3
  intro t ht
  have : ∃ u ∈ b.transactions srt, IsGroup u ∧ (u.map pairOf).Sublist (acctsOf srt b) ∧
      ReportOf b.prices base [d] (summaries srt b base [d]) (acctsOf srt b) u t := forall₂_mem_right g2 ht
  obtain ⟨u, hu, hg, hsub, hR⟩ := this
  have hR' := hR
  obtain ⟨B, hbl, hpm, hsort⟩ := hR'
  refine List.Pairwise.imp_of_mem ?_ hsort
  intro r s hr hs' hless P x y er es hx hy dx dy wr ws kr ks
  obtain ⟨v1, c1⟩ := wholeRow_val hu hg hsub hR hr wr
  obtain ⟨v2, c2⟩ := wholeRow_val hu hg hsub hR hs' ws
  rw [er] at v1 c1
  rw [es] at v2 c2
  obtain ⟨c, e1, e2⟩ := sortString_sibling _ d P x y hx hy dx dy _ _ v1 v2
  obtain ⟨p0, hp0⟩ := List.exists_mem_of_ne_nil u hg.1
  have d1 := block_keys hg hbl r (hpm.mem_iff.1 hr) p0 hp0
  have d2 := block_keys hg hbl s (hpm.mem_iff.1 hs') p0 hp0
  by_contra hcon
  have hlt := (c52_sort_order_partial r.val s.val kr ks).1 (by omega)
  have hls : s.acctsort < r.acctsort := by rw [c1, c2, e1, e2, append_lt_append_iff]; exact hlt
  have : s.isLess r = true := by
    unfold Posting.isLess
    rw [d1.1, d2.1, d1.2, d2.2]
    simp [hls]
  rw [this] at hless; cases hless

end Verif
