import Verif.Spec.Import
import Verif.Props.Ops

/-! Lemmas on importing. -/

namespace Verif
open Spec

theorem hasTxn_iff {ts : List Txn} {d : Int} {py : Str} :
    hasTxn ts d py = true ↔ ∃ u ∈ ts, ∃ q ∈ u, q.date = d ∧ q.payee = py := by
  simp [hasTxn]

/-- Transactions in (date, payee) order, none empty. -/
def Ordered (ts : List Txn) : Prop :=
  (∀ t ∈ ts, IsGroup t) ∧ ts.Pairwise (fun t u => ∀ p ∈ t, ∀ q ∈ u, TxnBefore p q)

theorem txnBefore_trans {p q r : Posting} (h1 : TxnBefore p q) (h2 : TxnBefore q r) : TxnBefore p r := by
  unfold TxnBefore at *
  rcases h1 with h1 | ⟨a1, b1⟩ <;> rcases h2 with h2 | ⟨a2, b2⟩
  · left; omega
  · left; omega
  · left; omega
  · right; exact ⟨by omega, lt_trans b1 b2⟩

theorem txnBefore_of_same {p q r : Posting} (h : TxnBefore p q) (e : r.date = p.date ∧ r.payee = p.payee) : TxnBefore r q := by
  unfold TxnBefore at *; rw [e.1, e.2]; exact h

/-- What `dedupAdvance` leaves: a suffix; what it drops is before (date, payee). -/
theorem dedupAdvance_spec (p : Posting) (ref : List Txn) (hg : ∀ t ∈ ref, IsGroup t) :
    ∃ pre, ref = pre ++ dedupAdvance p.date p.payee ref ∧ (∀ t ∈ pre, ∀ q ∈ t, TxnBefore q p) ∧
      (∀ q qs rs, dedupAdvance p.date p.payee ref = (q :: qs) :: rs → ¬ TxnBefore q p) := by
  induction ref with
  | nil => exact ⟨[], rfl, by simp, by intro q qs rs h; cases h⟩
  | cons t ref ih =>
    obtain ⟨q, qs, rfl⟩ := List.exists_cons_of_ne_nil (hg t (by simp)).1
    obtain ⟨pre, h1, h2, h3⟩ := ih (fun u hu => hg u (by simp [hu]))
    have hq : ∀ x ∈ q :: qs, x.date = q.date ∧ x.payee = q.payee := fun x hx => (hg (q :: qs) (by simp)).2 x hx q (by simp)
    unfold dedupAdvance
    by_cases c1 : q.date < p.date
    · rw [if_pos c1]
      refine ⟨(q :: qs) :: pre, by rw [List.cons_append, ← h1], ?_, h3⟩
      intro t ht x hx
      rcases List.mem_cons.1 ht with e | e
      · subst e; left; rw [(hq x hx).1]; exact c1
      · exact h2 t e x hx
    · rw [if_neg c1]
      by_cases c2 : q.date = p.date ∧ q.payee < p.payee
      · rw [if_pos c2]
        refine ⟨(q :: qs) :: pre, by rw [List.cons_append, ← h1], ?_, h3⟩
        intro t ht x hx
        rcases List.mem_cons.1 ht with e | e
        · subst e; right; rw [(hq x hx).1, (hq x hx).2]; exact c2
        · exact h2 t e x hx
      · rw [if_neg c2]
        refine ⟨[], rfl, by simp, ?_⟩
        intro q' qs' rs' e
        simp only [List.cons.injEq] at e
        obtain ⟨⟨rfl, rfl⟩, rfl⟩ := e
        rintro (h | h)
        · exact c1 h
        · exact c2 h

theorem dedupLoop_eq (ts : List Txn) : ∀ ref, Ordered ts → Ordered ref →
    dedupLoop ts ref = ts.filter (fun t => t.all fun p => !hasTxn ref p.date p.payee) := by
  induction ts with
  | nil => intro ref _ _; rfl
  | cons t ts ih =>
    intro ref ho hr
    obtain ⟨p, ps, rfl⟩ := List.exists_cons_of_ne_nil (ho.1 t (by simp)).1
    have hps : ∀ x ∈ p :: ps, x.date = p.date ∧ x.payee = p.payee := fun x hx => (ho.1 (p :: ps) (by simp)).2 x hx p (by simp)
    obtain ⟨hlt, ho2⟩ := List.pairwise_cons.1 ho.2
    obtain ⟨pre, e, hpre, hhead⟩ := dedupAdvance_spec p ref hr.1
    have hr' : Ordered (dedupAdvance p.date p.payee ref) := by
      have hs : (dedupAdvance p.date p.payee ref).Sublist ref := by
        conv_rhs => rw [e]
        exact List.sublist_append_right _ _
      exact ⟨fun u hu => hr.1 u (hs.subset hu), hr.2.sublist hs⟩
    have hsame : ∀ d py, (∀ x : Posting, TxnBefore x p → ¬ (x.date = d ∧ x.payee = py)) →
        hasTxn ref d py = hasTxn (dedupAdvance p.date p.payee ref) d py := by
      intro d py h
      rw [Bool.eq_iff_iff, hasTxn_iff, hasTxn_iff]
      constructor
      · rintro ⟨u, hu, q, hq, hk⟩
        rw [e] at hu
        rcases List.mem_append.1 hu with hu | hu
        · exact absurd hk (h q (hpre u hu q hq))
        · exact ⟨u, hu, q, hq, hk⟩
      · rintro ⟨u, hu, q, hq, hk⟩
        exact ⟨u, by rw [e]; exact List.mem_append_right _ hu, q, hq, hk⟩
    have hrest : dedupLoop ts (dedupAdvance p.date p.payee ref) = ts.filter (fun t => t.all fun p => !hasTxn ref p.date p.payee) := by
      rw [ih _ ⟨fun u hu => ho.1 u (by simp [hu]), ho2⟩ hr']
      apply List.filter_congr
      intro u hu
      have : ∀ x ∈ u, hasTxn ref x.date x.payee = hasTxn (dedupAdvance p.date p.payee ref) x.date x.payee := by
        intro x hx
        apply hsame
        intro y hy hk
        exact txnBefore_irrefl (txnBefore_trans hy (hlt u hu p (by simp) x hx)) ⟨hk.1.symm, hk.2.symm⟩
      rw [Bool.eq_iff_iff, List.all_eq_true, List.all_eq_true]
      constructor <;> intro h x hx
      · rw [this x hx]; exact h x hx
      · rw [← this x hx]; exact h x hx
    have hkeep : dedupKeep p.date p.payee (dedupAdvance p.date p.payee ref) = !hasTxn ref p.date p.payee := by
      rw [hsame p.date p.payee (fun x hx hk => txnBefore_irrefl hx ⟨hk.1.symm, hk.2.symm⟩)]
      cases hadv : dedupAdvance p.date p.payee ref with
      | nil => rfl
      | cons u us =>
        rw [hadv] at hr'
        obtain ⟨q, qs, rfl⟩ := List.exists_cons_of_ne_nil (hr'.1 u (by simp)).1
        have hnb := hhead q qs us hadv
        show (!(decide (q.payee = p.payee) && decide (q.date = p.date))) = _
        congr 1
        rw [Bool.eq_iff_iff, hasTxn_iff]
        simp only [Bool.and_eq_true, decide_eq_true_eq]
        constructor
        · rintro ⟨h1, h2⟩
          exact ⟨q :: qs, by simp, q, by simp, h2, h1⟩
        · rintro ⟨u, hu, x, hx, h1, h2⟩
          rcases List.mem_cons.1 hu with eu | eu
          · subst eu
            have := (hr'.1 (q :: qs) (by simp)).2 x hx q (by simp)
            exact ⟨by rw [← this.2, h2], by rw [← this.1, h1]⟩
          · exfalso
            have hb := (List.pairwise_cons.1 hr'.2).1 u eu q (by simp) x hx
            apply hnb
            unfold TxnBefore at hb ⊢
            rw [h1, h2] at hb; exact hb
    unfold dedupLoop
    simp only
    rw [hrest, hkeep, List.filter_cons]
    have hall : ((p :: ps).all fun p => !hasTxn ref p.date p.payee) = !hasTxn ref p.date p.payee := by
      rw [Bool.eq_iff_iff, List.all_eq_true]
      constructor
      · intro h; exact h p (by simp)
      · intro h x hx; rw [(hps x hx).1, (hps x hx).2]; exact h
    rw [hall]

theorem ordered_trans {b : Book} (w : b.WF) : Ordered b.trans := ⟨w.groups, w.order⟩
theorem ordered_transactions {srt} (hs : IsSort srt) {b : Book} (w : b.WF) : Ordered (b.transactions srt) :=
  ordered_trans (compact_wf hs w.plain w.nil_trans)

theorem removeDuplicatesOf_trans {srt} (hs : IsSort srt) {b main : Book} (w : b.WF) (wm : main.WF) :
    (b.removeDuplicatesOf srt main).trans =
      b.trans.filter (fun t => t.all fun p => !hasTxn (main.transactions srt) p.date p.payee) :=
  dedupLoop_eq _ _ (ordered_trans w) (ordered_transactions hs wm)

theorem flatten_filter_key {ts : List Txn} (hg : ∀ t ∈ ts, IsGroup t) (K : Int → Str → Bool) :
    (ts.filter (fun t => t.all fun p => K p.date p.payee)).flatten = ts.flatten.filter (fun p => K p.date p.payee) := by
  induction ts with
  | nil => rfl
  | cons t ts ih =>
    rw [List.flatten_cons, List.filter_append, ← ih (fun u hu => hg u (by simp [hu]))]
    obtain ⟨p, t', rfl⟩ := List.exists_cons_of_ne_nil (hg t (by simp)).1
    have hgt := (hg (p :: t') (by simp)).2
    have : ∀ q ∈ p :: t', K q.date q.payee = K p.date p.payee := fun q hq => by
      rw [(hgt q hq p (by simp)).1, (hgt q hq p (by simp)).2]
    cases hk : K p.date p.payee with
    | false =>
      have h1 : ((p :: t').all fun p => K p.date p.payee) = false := by simp [hk]
      have h2 : (p :: t').filter (fun p => K p.date p.payee) = [] := by
        rw [List.filter_eq_nil_iff]; intro q hq; rw [this q hq, hk]; simp
      rw [List.filter_cons, h1, h2]; simp
    | true =>
      have h1 : ((p :: t').all fun p => K p.date p.payee) = true := by
        rw [List.all_eq_true]; intro q hq; rw [this q hq, hk]
      have h2 : (p :: t').filter (fun p => K p.date p.payee) = p :: t' := by
        rw [List.filter_eq_self]; intro q hq; rw [this q hq, hk]
      rw [List.filter_cons, h1, h2]; simp

/-- A filter on dates and payees, as the user sees it. -/
theorem filter_key_lines {srt} (hs : IsSort srt) {b b' : Book} (w : b.WF) (w' : b'.WF) (K : Int → Str → Bool)
    (hpost : b'.post = b.post.filter (fun p => K p.date p.payee)) :
    (b'.transactions srt).map (·.map line) =
      ((b.transactions srt).filter (fun t => t.all fun p => K p.date p.payee)).map (·.map line) := by
  have wc := compact_wf hs w.plain w.nil_trans
  have hfl : ((b.transactions srt).filter (fun t => t.all fun p => K p.date p.payee)).flatten =
      (reported srt b).filter (fun p => K p.date p.payee) := flatten_filter_key wc.groups K
  have hsub : ((b.transactions srt).filter (fun t => t.all fun p => K p.date p.payee)).Sublist (b.transactions srt) :=
    List.filter_sublist
  have hcan : Canonical (b.transactions srt) := compact_canonical hs w
  have hcanf := hcan.sublist hsub
  rw [transactions_eq hs w', ← groupTxns_of_groups (ts := (b.transactions srt).filter _)
    (fun t ht => ⟨hcanf.nonempty t ht, hcanf.oneTxn t ht⟩) hcanf.txnOrder]
  apply groupTxns_map
  · intro p q e; simp only [line, Line.mk.injEq] at e; exact ⟨e.1, e.2.1⟩
  have tf : ∀ (P : Posting → Bool) (l : List Posting),
      total P (l.filter fun p => K p.date p.payee) = total (fun p => K p.date p.payee && P p) l := by
    intro P l
    unfold total
    rw [List.filter_filter]
    congr 2
    apply List.filter_congr
    intro p _
    rw [Bool.and_comm]
  have hu := canonical_unique (compactPost_strict hs w'.plain)
    (canonical_flatten_strict hcanf) (compactPost_nonzero b'.post) (canonical_flatten_nonzero hcanf) (by
      intro k
      rw [total_compactPost hs (keyFun_key k), hfl, hpost, tf, tf]
      have hkf : KeyFun (fun p : Posting => K p.date p.payee && decide (key p = k)) := by
        intro p q hpq
        have := key_eq_iff.1 hpq
        simp [this.1, this.2.1, hpq]
      rw [total_reported hs hkf w])
  have := congrArg (List.map (fun x : Key × Rat => (⟨x.1.1, x.1.2.1, x.1.2.2.1, x.1.2.2.2, x.2⟩ : Line))) hu
  rw [List.map_map, List.map_map] at this
  exact this

/-- Transactions reported have a date and payee of the book. -/
theorem hasTxn_reported {srt} (hs : IsSort srt) {b : Book} (w : b.WF) {d : Int} {py : Str}
    (h : hasTxn (b.transactions srt) d py = true) : hasTxn b.trans d py = true := by
  obtain ⟨u, hu, q, hq, h1, h2⟩ := hasTxn_iff.1 h
  have hm : q ∈ compactPost srt b.post := by
    rw [← reported_eq hs w]; exact List.mem_flatten.2 ⟨u, hu, hq⟩
  obtain ⟨x, hx, hk⟩ := compactPost_key_mem hs b.post q hm
  rw [← w.index] at hx
  obtain ⟨t, ht, hxt⟩ := List.mem_flatten.1 hx
  obtain ⟨k1, k2, _⟩ := key_eq_iff.1 hk
  exact hasTxn_iff.2 ⟨t, ht, x, hxt, by rw [← k1, h1], by rw [← k2, h2]⟩

end Verif
