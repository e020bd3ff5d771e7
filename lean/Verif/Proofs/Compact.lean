import Verif.Model.Compact
import Verif.Spec.Ledger
import Mathlib.Data.Prod.Lex

/-! Lemmas on compaction. -/

namespace Verif
open Spec

/-! ### Weighted sums -/

/-- Sum of `w p * amount`. -/
def wsum (w : Posting → Rat) (l : List Posting) : Rat := (l.map (fun p => w p * p.val)).sum

@[simp] theorem wsum_nil (w) : wsum w [] = 0 := rfl
@[simp] theorem wsum_cons (w p l) : wsum w (p :: l) = w p * p.val + wsum w l := by simp [wsum]
@[simp] theorem wsum_append (w l m) : wsum w (l ++ m) = wsum w l + wsum w m := by simp [wsum]

theorem wsum_perm {w : Posting → Rat} {l m : List Posting} (h : l.Perm m) : wsum w l = wsum w m :=
  (h.map _).sum_eq

theorem total_eq_wsum (P : Posting → Bool) (l : List Posting) :
    total P l = wsum (fun p => if P p then 1 else 0) l := by
  induction l with
  | nil => rfl
  | cons p l ih =>
    simp only [total, List.filter_cons, wsum_cons] at *
    by_cases h : P p
    · simp [h, ih]
    · simp [h, ih]

@[simp] theorem total_nil (P) : total P [] = 0 := rfl
theorem total_cons (P p l) : total P (p :: l) = (if P p then p.val else 0) + total P l := by
  simp only [total, List.filter_cons]
  by_cases h : P p <;> simp [h]
theorem total_append (P l m) : total P (l ++ m) = total P l + total P m := by simp [total]
theorem total_perm {P} {l m : List Posting} (h : l.Perm m) : total P l = total P m := by
  simp [total_eq_wsum, wsum_perm h]
theorem total_congr {P Q : Posting → Bool} {l : List Posting} (h : ∀ p ∈ l, P p = Q p) :
    total P l = total Q l := by
  simp [total, List.filter_congr h]

/-! ### Keys -/

/-- The merge key with its lexicographic order. -/
abbrev Key := Int ×ₗ Str ×ₗ Str ×ₗ Str

/-- The key of a posting. -/
def key (p : Posting) : Key := toLex (p.date, toLex (p.payee, toLex (p.acct, p.ccy)))

theorem key_eq_iff {p q : Posting} :
    key p = key q ↔ p.date = q.date ∧ p.payee = q.payee ∧ p.acct = q.acct ∧ p.ccy = q.ccy := by
  simp [key]

theorem key_lt_iff {p q : Posting} :
    key p < key q ↔ p.date < q.date ∨ p.date = q.date ∧ (p.payee < q.payee ∨ p.payee = q.payee ∧
      (p.acct < q.acct ∨ p.acct = q.acct ∧ p.ccy < q.ccy)) := by
  simp [key, Prod.Lex.lt_iff]

theorem sameEntry_iff {p q : Posting} : sameEntry p q = true ↔ key p = key q := by
  rw [key_eq_iff]; simp [sameEntry, and_assoc]

/-- Postings as they occur in books: the summary-report fields are unset. -/
def Plain (p : Posting) : Prop := p.acctlevel = 0 ∧ p.acctsort = []

theorem isLess_iff {p q : Posting} (hp : Plain p) (hq : Plain q) :
    p.isLess q = true ↔ key p < key q := by
  obtain ⟨h1, h2⟩ := hp
  obtain ⟨h3, h4⟩ := hq
  rw [key_lt_iff]
  unfold Posting.isLess
  rw [h1, h2, h3, h4]
  rcases lt_trichotomy p.date q.date with a | a | a
  · simp [a]
  · rcases lt_trichotomy p.payee q.payee with b | b | b
    · simp [a, b]
    · rcases lt_trichotomy p.acct q.acct with c | c | c
      · simp [a, b, c]
      · simp [a, b, c]
      · simp [a, b, not_lt_of_gt c, c, ne_of_gt c]
    · simp [a, not_lt_of_gt b, b, ne_of_gt b]
  · simp [not_lt_of_gt a, a, ne_of_gt a]

theorem sorted_keys {srt} (hs : IsSort srt) {l : List Posting} (hl : ∀ p ∈ l, Plain p) :
    (srt l).Pairwise (fun a b => key a ≤ key b) := by
  have hm : ∀ p ∈ srt l, Plain p := fun p hp => hl p ((hs.perm l).mem_iff.1 hp)
  have := hs.sorted l
  refine this.imp_of_mem ?_
  intro a b ha hb h
  by_contra hc
  have := (isLess_iff (hm b hb) (hm a ha)).2 (lt_of_not_ge hc)
  rw [this] at h
  cases h

/-! ### Merging -/

/-- A weight that depends on the key only. -/
def KeyFun {α} (w : Posting → α) : Prop := ∀ p q, key p = key q → w p = w q

theorem wsum_mergeFrom {w : Posting → Rat} (hw : KeyFun w) (cur : Posting) (l : List Posting) :
    wsum w (mergeFrom cur l) = wsum w (cur :: l) := by
  induction l generalizing cur with
  | nil => rfl
  | cons q qs ih =>
    unfold mergeFrom
    split
    · rename_i h
      rw [ih]
      have h1 : w { cur with val := cur.val + q.val } = w cur := hw _ _ (by simp [key])
      have h2 : w q = w cur := hw _ _ (sameEntry_iff.1 h)
      simp only [wsum_cons, h1, h2]
      ring
    · simp only [wsum_cons, ih]

theorem mergeFrom_key_mem (cur : Posting) (l : List Posting) :
    ∀ p ∈ mergeFrom cur l, ∃ q ∈ cur :: l, key p = key q := by
  induction l generalizing cur with
  | nil => simp [mergeFrom]
  | cons q qs ih =>
    unfold mergeFrom
    split
    · intro p hp
      obtain ⟨r, hr, e⟩ := ih _ p hp
      rcases List.mem_cons.1 hr with hr | hr
      · exact ⟨cur, by simp, by rw [e, hr]; simp [key]⟩
      · exact ⟨r, by simp [hr], e⟩
    · intro p hp
      rcases List.mem_cons.1 hp with hp | hp
      · exact ⟨cur, by simp, by rw [hp]⟩
      · obtain ⟨r, hr, e⟩ := ih _ p hp
        exact ⟨r, by simp only [List.mem_cons] at hr ⊢; tauto, e⟩

theorem mergeFrom_strict (cur : Posting) (l : List Posting)
    (h : (cur :: l).Pairwise (fun a b => key a ≤ key b)) :
    (mergeFrom cur l).Pairwise (fun a b => key a < key b) := by
  induction l generalizing cur with
  | nil => simp [mergeFrom]
  | cons q qs ih =>
    rw [List.pairwise_cons] at h
    obtain ⟨h1, h2⟩ := h
    unfold mergeFrom
    split
    · apply ih
      rw [List.pairwise_cons] at h2 ⊢
      refine ⟨fun a ha => ?_, h2.2⟩
      have := h1 a (by simp [ha])
      simpa [key] using this
    · rename_i hne
      rw [List.pairwise_cons]
      refine ⟨fun a ha => ?_, ih q h2⟩
      obtain ⟨r, hr, e⟩ := mergeFrom_key_mem q qs a ha
      rw [e]
      have hcq : key cur < key q :=
        lt_of_le_of_ne (h1 q (by simp)) (fun hc => hne (sameEntry_iff.2 hc.symm))
      rcases List.mem_cons.1 hr with hr | hr
      · rw [hr]; exact hcq
      · exact lt_of_lt_of_le hcq ((List.pairwise_cons.1 h2).1 r hr)

theorem wsum_mergeAdj {w : Posting → Rat} (hw : KeyFun w) (l : List Posting) :
    wsum w (mergeAdj l) = wsum w l := by
  cases l with
  | nil => rfl
  | cons p l => exact wsum_mergeFrom hw p l

theorem wsum_dropZero (w : Posting → Rat) (l : List Posting) : wsum w (dropZero l) = wsum w l := by
  induction l with
  | nil => rfl
  | cons p l ih =>
    unfold dropZero at *
    rw [List.filter_cons]
    split
    · rw [wsum_cons, wsum_cons, ih]
    · rename_i h
      have : p.val = 0 := by simpa using h
      rw [wsum_cons, ih, this]; simp

/-! ### Balances -/

theorem setBals_map {α} (g : Posting → α) (hg : ∀ p b, g { p with bal := b } = g p)
    (amts) (l : List Posting) : (setBals amts l).map g = l.map g := by
  induction l generalizing amts with
  | nil => rfl
  | cons p l ih => simp [setBals, ih, hg]

theorem wsum_setBals {w : Posting → Rat} (hw : KeyFun w) (amts) (l : List Posting) :
    wsum w (setBals amts l) = wsum w l := by
  unfold wsum
  rw [setBals_map]
  intro p b
  rw [hw { p with bal := b } p (by simp [key])]

theorem setBals_pairwise {R : Posting → Posting → Prop}
    (hR : ∀ p q b c, R p q → R { p with bal := b } { q with bal := c }) (amts) (l : List Posting)
    (h : l.Pairwise R) : (setBals amts l).Pairwise R := by
  have hmem : ∀ amts (l : List Posting), ∀ p ∈ setBals amts l, ∃ q ∈ l, ∃ b, p = { q with bal := b } := by
    intro amts l
    induction l generalizing amts with
    | nil => simp [setBals]
    | cons p l ih =>
      intro r hr
      simp only [setBals, List.mem_cons] at hr
      rcases hr with hr | hr
      · exact ⟨p, by simp, _, hr⟩
      · obtain ⟨q, hq, b, e⟩ := ih _ r hr
        exact ⟨q, by simp [hq], b, e⟩
  induction l generalizing amts with
  | nil => exact List.Pairwise.nil
  | cons p l ih =>
    rw [List.pairwise_cons] at h
    simp only [setBals, List.pairwise_cons]
    refine ⟨fun a ha => ?_, ih _ h.2⟩
    obtain ⟨q, hq, b, e⟩ := hmem _ _ a ha
    rw [e]
    exact hR _ _ _ _ (h.1 q hq)

theorem setBals_mem {amts} {l : List Posting} {p : Posting} (h : p ∈ setBals amts l) :
    ∃ q ∈ l, ∃ b, p = { q with bal := b } := by
  induction l generalizing amts with
  | nil => simp [setBals] at h
  | cons r l ih =>
    simp only [setBals, List.mem_cons] at h
    rcases h with h | h
    · exact ⟨r, by simp, _, h⟩
    · obtain ⟨q, hq, b, e⟩ := ih h
      exact ⟨q, by simp [hq], b, e⟩

theorem setBals_running (amts) (l : List Posting) (pre : List Posting) (p : Posting) (post : List Posting)
    (h : setBals amts l = pre ++ p :: post) :
    p.bal = amts (p.acct, p.ccy) +
      total (fun q => decide (q.acct = p.acct ∧ q.ccy = p.ccy)) (pre ++ [p]) := by
  induction l generalizing amts pre with
  | nil => simp [setBals] at h
  | cons r l ih =>
    simp only [setBals] at h
    cases pre with
    | nil =>
      simp only [List.nil_append, List.cons.injEq] at h
      obtain ⟨h1, _⟩ := h
      subst h1
      simp [total_cons]
    | cons s pre =>
      simp only [List.cons_append, List.cons.injEq] at h
      obtain ⟨h1, h2⟩ := h
      rw [ih _ _ h2]
      subst h1
      simp only [List.cons_append, total_cons]
      by_cases hk : (p.acct, p.ccy) = (r.acct, r.ccy)
      · simp only [hk, if_true]
        simp only [Prod.mk.injEq] at hk
        simp [hk]
        ring
      · rw [if_neg hk]
        have : ¬ (r.acct = p.acct ∧ r.ccy = p.ccy) := by
          rintro ⟨a, b⟩; exact hk (by rw [a, b])
        simp [this]

/-! ### The whole of compaction on postings -/

section
variable {srt : List Posting → List Posting} (hs : IsSort srt)
include hs

theorem wsum_compactPost {w : Posting → Rat} (hw : KeyFun w) (l : List Posting) :
    wsum w (compactPost srt l) = wsum w l := by
  unfold compactPost
  rw [wsum_setBals hw, wsum_dropZero, wsum_mergeAdj hw, wsum_perm (hs.perm l)]

theorem total_compactPost {P : Posting → Bool} (hP : KeyFun P) (l : List Posting) :
    total P (compactPost srt l) = total P l := by
  rw [total_eq_wsum, total_eq_wsum]
  exact wsum_compactPost hs (fun p q h => by rw [hP p q h]) l

theorem compactPost_strict {l : List Posting} (hl : ∀ p ∈ l, Plain p) :
    (compactPost srt l).Pairwise (fun a b => key a < key b) := by
  unfold compactPost
  apply setBals_pairwise
  · intro p q b c h; simpa [key] using h
  · apply List.Pairwise.filter
    have := sorted_keys hs hl
    cases h : srt l with
    | nil => exact List.Pairwise.nil
    | cons p m => rw [h] at this; exact mergeFrom_strict p m this

omit hs in
theorem compactPost_nonzero (l : List Posting) : ∀ p ∈ compactPost srt l, p.val ≠ 0 := by
  intro p hp
  obtain ⟨q, hq, b, e⟩ := setBals_mem hp
  rw [e]
  simpa using (List.mem_filter.1 hq).2

omit hs in
theorem compactPost_running (l : List Posting) : RunningBalances (compactPost srt l) := by
  intro pre p post h
  have := setBals_running _ _ _ _ _ h
  simpa using this

theorem compactPost_key_mem (l : List Posting) : ∀ p ∈ compactPost srt l, ∃ q ∈ l, key p = key q := by
  intro p hp
  obtain ⟨q, hq, b, e⟩ := setBals_mem hp
  have hq := (List.mem_filter.1 hq).1
  have hk : key p = key q := by rw [e]; simp [key]
  cases h : srt l with
  | nil => rw [h] at hq; simp [mergeAdj] at hq
  | cons r m =>
    rw [h] at hq
    obtain ⟨s, hs', e'⟩ := mergeFrom_key_mem r m q hq
    exact ⟨s, (hs.perm l).mem_iff.1 (by rw [h]; exact hs'), by rw [hk, e']⟩

end

theorem mergeFrom_all {Q : Posting → Prop} (hQ : ∀ p v, Q p → Q { p with val := v }) (cur : Posting)
    (l : List Posting) (h : ∀ p ∈ cur :: l, Q p) : ∀ p ∈ mergeFrom cur l, Q p := by
  induction l generalizing cur with
  | nil => simpa [mergeFrom] using h
  | cons q qs ih =>
    unfold mergeFrom
    split
    · apply ih
      intro p hp
      rcases List.mem_cons.1 hp with hp | hp
      · rw [hp]; exact hQ _ _ (h cur (by simp))
      · exact h p (by simp [hp])
    · intro p hp
      rcases List.mem_cons.1 hp with hp | hp
      · rw [hp]; exact h cur (by simp)
      · exact ih q (fun r hr => h r (by simp only [List.mem_cons] at hr ⊢; tauto)) p hp

theorem compactPost_all {srt} (hs : IsSort srt) {Q : Posting → Prop}
    (hQ : ∀ p v, Q p → Q { p with val := v }) (hQ' : ∀ p b, Q p → Q { p with bal := b })
    {l : List Posting} (h : ∀ p ∈ l, Q p) : ∀ p ∈ compactPost srt l, Q p := by
  intro p hp
  obtain ⟨q, hq, b, e⟩ := setBals_mem hp
  have hq := (List.mem_filter.1 hq).1
  rw [e]
  apply hQ'
  cases h' : srt l with
  | nil => rw [h'] at hq; simp [mergeAdj] at hq
  | cons r m =>
    rw [h'] at hq
    exact mergeFrom_all hQ r m (fun p hp => h p ((hs.perm l).mem_iff.1 (by rw [h']; exact hp))) q hq

/-! ### Canonical lists with the same totals are the same -/

theorem keyFun_key (k : Key) : KeyFun (fun p => decide (key p = k)) := by
  intro p q h; simp [h]

theorem total_key_absent {k : Key} {l : List Posting} (h : ∀ p ∈ l, key p ≠ k) :
    total (fun p => decide (key p = k)) l = 0 := by
  have : l.filter (fun p => decide (key p = k)) = [] := by
    rw [List.filter_eq_nil_iff]; intro p hp; simpa using h p hp
  simp [total, this]

theorem canonical_unique {l m : List Posting}
    (hl : l.Pairwise (fun a b => key a < key b)) (hm : m.Pairwise (fun a b => key a < key b))
    (zl : ∀ p ∈ l, p.val ≠ 0) (zm : ∀ p ∈ m, p.val ≠ 0)
    (h : ∀ k, total (fun p => decide (key p = k)) l = total (fun p => decide (key p = k)) m) :
    l.map (fun p => (key p, p.val)) = m.map (fun p => (key p, p.val)) := by
  induction l generalizing m with
  | nil =>
    cases m with
    | nil => rfl
    | cons q m =>
      exfalso
      have := h (key q)
      rw [total_nil, total_cons, total_key_absent] at this
      · simp at this; exact zm q (by simp) this.symm
      · intro p hp; exact ne_of_gt ((List.pairwise_cons.1 hm).1 p hp)
  | cons p l ih =>
    cases m with
    | nil =>
      exfalso
      have := h (key p)
      rw [total_cons, total_key_absent] at this
      · simp at this; exact zl p (by simp) this
      · intro q hq; exact ne_of_gt ((List.pairwise_cons.1 hl).1 q hq)
    | cons q m =>
      rw [List.pairwise_cons] at hl hm
      have absl : total (fun r => decide (key r = key p)) l = 0 :=
        total_key_absent (fun r hr => ne_of_gt (hl.1 r hr))
      have absm : total (fun r => decide (key r = key q)) m = 0 :=
        total_key_absent (fun r hr => ne_of_gt (hm.1 r hr))
      rcases lt_trichotomy (key p) (key q) with hk | hk | hk
      · exfalso
        have := h (key p)
        rw [total_cons, absl, total_cons, total_key_absent] at this
        · simp [ne_of_gt hk] at this; exact zl p (by simp) this
        · intro r hr; exact ne_of_gt (lt_trans hk (hm.1 r hr))
      · have hv : p.val = q.val := by
          have := h (key p)
          rw [total_cons, absl, total_cons, hk, absm] at this
          simpa using this
        simp only [List.map_cons, hk, hv]
        congr 1
        apply ih hl.2 hm.2 (fun r hr => zl r (by simp [hr])) (fun r hr => zm r (by simp [hr]))
        intro k
        have := h k
        rw [total_cons, total_cons, hk, hv] at this
        exact add_left_cancel this
      · exfalso
        have := h (key q)
        rw [total_cons, total_cons, absm, total_key_absent] at this
        · simp [ne_of_gt hk] at this; exact zm q (by simp) this.symm
        · intro r hr; exact ne_of_gt (lt_trans hk (hl.1 r hr))

theorem setBals_obs {amts} {l m : List Posting}
    (h : l.map (fun p => (key p, p.val)) = m.map (fun p => (key p, p.val))) :
    (setBals amts l).map obs = (setBals amts m).map obs := by
  induction l generalizing amts m with
  | nil => cases m with
    | nil => rfl
    | cons q m => simp at h
  | cons p l ih =>
    cases m with
    | nil => simp at h
    | cons q m =>
      simp only [List.map_cons, List.cons.injEq, Prod.mk.injEq] at h
      obtain ⟨⟨hk, hv⟩, ht⟩ := h
      obtain ⟨h1, h2, h3, h4⟩ := key_eq_iff.1 hk
      simp only [setBals, List.map_cons, h3, h4, hv, ih ht]
      simp [obs, h1, h2, h3, h4, hv]

theorem compactPost_unique {srt srt'} (hs : IsSort srt) (hs' : IsSort srt') {l m : List Posting}
    (hl : ∀ p ∈ l, Plain p) (hm : ∀ p ∈ m, Plain p)
    (h : ∀ k, total (fun p => decide (key p = k)) l = total (fun p => decide (key p = k)) m) :
    (compactPost srt l).map obs = (compactPost srt' m).map obs := by
  have hkv : (compactPost srt l).map (fun p => (key p, p.val)) =
      (compactPost srt' m).map (fun p => (key p, p.val)) := by
    apply canonical_unique (compactPost_strict hs hl) (compactPost_strict hs' hm)
      (compactPost_nonzero l) (compactPost_nonzero m)
    intro k
    rw [total_compactPost hs (keyFun_key k), total_compactPost hs' (keyFun_key k)]
    exact h k
  unfold compactPost at hkv ⊢
  rw [setBals_map _ (fun p b => by simp [key]), setBals_map _ (fun p b => by simp [key])] at hkv
  exact setBals_obs hkv

/-! ### Grouping into transactions -/

theorem groupFrom_flatten (f : Posting) (acc l : List Posting) :
    (groupFrom f acc l).flatten = f :: acc.reverse ++ l := by
  induction l generalizing f acc with
  | nil => simp [groupFrom]
  | cons q qs ih =>
    unfold groupFrom
    split
    · rw [ih]; simp
    · simp [ih]

theorem groupTxns_flatten (l : List Posting) : (groupTxns l).flatten = l := by
  cases l with
  | nil => rfl
  | cons p l => simp [groupTxns, groupFrom_flatten]

/-- A group: non-empty, one date and payee. -/
def IsGroup (t : Txn) : Prop := t ≠ [] ∧ ∀ p ∈ t, ∀ q ∈ t, p.date = q.date ∧ p.payee = q.payee

theorem groupFrom_groups (f : Posting) (acc l : List Posting)
    (h : ∀ p ∈ acc, p.date = f.date ∧ p.payee = f.payee) :
    ∀ t ∈ groupFrom f acc l, IsGroup t := by
  have base : IsGroup (f :: acc.reverse) := by
    refine ⟨by simp, ?_⟩
    have : ∀ p ∈ f :: acc.reverse, p.date = f.date ∧ p.payee = f.payee := by
      intro p hp
      rcases List.mem_cons.1 hp with hp | hp
      · rw [hp]; exact ⟨rfl, rfl⟩
      · exact h p (List.mem_reverse.1 hp)
    intro p hp q hq
    rw [(this p hp).1, (this p hp).2, (this q hq).1, (this q hq).2]
    exact ⟨rfl, rfl⟩
  induction l generalizing f acc with
  | nil => simpa [groupFrom] using base
  | cons q qs ih =>
    unfold groupFrom
    split
    · rename_i hc
      have h' : ∀ p ∈ q :: acc, p.date = f.date ∧ p.payee = f.payee := by
        intro p hp
        rcases List.mem_cons.1 hp with hp | hp
        · rw [hp]; exact hc
        · exact h p hp
      apply ih f (q :: acc) h'
      refine ⟨by simp, ?_⟩
      have : ∀ p ∈ f :: (q :: acc).reverse, p.date = f.date ∧ p.payee = f.payee := by
        intro p hp
        rcases List.mem_cons.1 hp with hp | hp
        · rw [hp]; exact ⟨rfl, rfl⟩
        · exact h' p (List.mem_reverse.1 hp)
      intro p hp r hr
      rw [(this p hp).1, (this p hp).2, (this r hr).1, (this r hr).2]
      exact ⟨rfl, rfl⟩
    · intro t ht
      rcases List.mem_cons.1 ht with ht | ht
      · rw [ht]; exact base
      · exact ih q [] (by simp) ⟨by simp, by simp⟩ t ht

theorem groupTxns_groups (l : List Posting) : ∀ t ∈ groupTxns l, IsGroup t := by
  cases l with
  | nil => simp [groupTxns]
  | cons p l => exact groupFrom_groups p [] l (by simp)

theorem groupFrom_order (f : Posting) (acc l : List Posting)
    (hs : (f :: acc.reverse ++ l).Pairwise (fun a b => key a < key b))
    (h : ∀ p ∈ acc, p.date = f.date ∧ p.payee = f.payee) :
    (groupFrom f acc l).Pairwise (fun t u => ∀ p ∈ t, ∀ q ∈ u, TxnBefore p q) := by
  induction l generalizing f acc with
  | nil => simp [groupFrom]
  | cons q qs ih =>
    unfold groupFrom
    split
    · rename_i hc
      apply ih f (q :: acc)
      · simpa using hs
      · intro p hp
        rcases List.mem_cons.1 hp with hp | hp
        · rw [hp]; exact hc
        · exact h p hp
    · rename_i hc
      have hs2 : (q :: qs).Pairwise (fun a b => key a < key b) := (List.pairwise_append.1 hs).2.1
      rw [List.pairwise_cons]
      refine ⟨?_, ih q [] (by simpa using hs2) (by simp)⟩
      intro u hu p hp r hr
      have hmem : r ∈ q :: qs := by
        have : r ∈ (groupFrom q [] qs).flatten := List.mem_flatten.2 ⟨u, hu, hr⟩
        rw [groupFrom_flatten] at this; simpa using this
      have hpf : p.date = f.date ∧ p.payee = f.payee := by
        rcases List.mem_cons.1 hp with hp | hp
        · rw [hp]; exact ⟨rfl, rfl⟩
        · exact h p (List.mem_reverse.1 hp)
      have hfq : key f < key q := (List.pairwise_append.1 hs).2.2 f (by simp) q (by simp)
      have hqr : key q ≤ key r := by
        rcases List.mem_cons.1 hmem with hm | hm
        · rw [hm]
        · exact le_of_lt ((List.pairwise_cons.1 hs2).1 r hm)
      unfold TxnBefore
      rw [hpf.1, hpf.2]
      have hq' : f.date < q.date ∨ f.date = q.date ∧ f.payee < q.payee := by
        rcases key_lt_iff.1 hfq with a | ⟨a, b | ⟨b, c⟩⟩
        · exact Or.inl a
        · exact Or.inr ⟨a, b⟩
        · exact absurd ⟨a.symm, b.symm⟩ hc
      have hr' : q.date < r.date ∨ q.date = r.date ∧ q.payee ≤ r.payee := by
        rcases lt_or_eq_of_le hqr with hlt | heq
        · rcases key_lt_iff.1 hlt with a | ⟨a, b | ⟨b, _⟩⟩
          · exact Or.inl a
          · exact Or.inr ⟨a, le_of_lt b⟩
          · exact Or.inr ⟨a, le_of_eq b⟩
        · obtain ⟨a, b, _⟩ := key_eq_iff.1 heq
          exact Or.inr ⟨a, le_of_eq b⟩
      rcases hq' with a | ⟨a, b⟩ <;> rcases hr' with c | ⟨c, d⟩
      · exact Or.inl (lt_trans a c)
      · exact Or.inl (c ▸ a)
      · exact Or.inl (a ▸ c)
      · exact Or.inr ⟨a.trans c, lt_of_lt_of_le b d⟩

theorem groupTxns_canonical {l : List Posting} (hs : l.Pairwise (fun a b => key a < key b))
    (hz : ∀ p ∈ l, p.val ≠ 0) : Canonical (groupTxns l) where
  nonempty t ht := (groupTxns_groups l t ht).1
  oneTxn t ht := (groupTxns_groups l t ht).2
  txnOrder := by
    cases l with
    | nil => exact List.Pairwise.nil
    | cons p l => exact groupFrom_order p [] l (by simpa using hs) (by simp)
  postOrder t ht := by
    have hsub : t.Sublist l := by
      have := List.sublist_flatten_of_mem ht
      rwa [groupTxns_flatten] at this
    have hg := (groupTxns_groups l t ht).2
    refine (hs.sublist hsub).imp_of_mem ?_
    intro a b ha hb h
    obtain ⟨e1, e2⟩ := hg a ha b hb
    rcases key_lt_iff.1 h with c | ⟨_, c | ⟨_, c⟩⟩
    · exact absurd c (by rw [e1]; exact lt_irrefl _)
    · exact absurd c (by rw [e2]; exact lt_irrefl _)
    · exact c
  nonzero t ht p hp := hz p (by
    have : p ∈ (groupTxns l).flatten := List.mem_flatten.2 ⟨t, ht, hp⟩
    rwa [groupTxns_flatten] at this)

theorem groupFrom_map {α} (g : Posting → α) (f f' : Posting) (acc acc' l l' : List Posting)
    (hg : ∀ p q, g p = g q → p.date = q.date ∧ p.payee = q.payee)
    (h1 : g f = g f') (h2 : acc.map g = acc'.map g) (h3 : l.map g = l'.map g) :
    (groupFrom f acc l).map (·.map g) = (groupFrom f' acc' l').map (·.map g) := by
  induction l generalizing f f' acc acc' l' with
  | nil =>
    cases l' with
    | nil => simp [groupFrom, h1, h2]
    | cons _ _ => simp at h3
  | cons q qs ih =>
    cases l' with
    | nil => simp at h3
    | cons q' qs' =>
      simp only [List.map_cons, List.cons.injEq] at h3
      obtain ⟨hq, hqs⟩ := h3
      unfold groupFrom
      rw [(hg _ _ hq).1, (hg _ _ hq).2, (hg _ _ h1).1, (hg _ _ h1).2]
      split
      · exact ih _ _ _ _ _ h1 (by simp [hq, h2]) hqs
      · simp only [List.map_cons, List.map_reverse, h1, h2]
        rw [ih q q' [] [] qs' hq rfl hqs]

theorem groupTxns_map {α} (g : Posting → α) (l l' : List Posting)
    (hg : ∀ p q, g p = g q → p.date = q.date ∧ p.payee = q.payee)
    (h : l.map g = l'.map g) :
    (groupTxns l).map (·.map g) = (groupTxns l').map (·.map g) := by
  cases l with
  | nil => cases l' with
    | nil => rfl
    | cons _ _ => simp at h
  | cons p l => cases l' with
    | nil => simp at h
    | cons q l' =>
      simp only [List.map_cons, List.cons.injEq] at h
      exact groupFrom_map g p q [] [] l l' hg h.1 rfl h.2

end Verif
