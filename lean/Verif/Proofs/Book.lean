import Verif.Model.Ops
import Verif.Proofs.Builder

/-! Lemmas on book operations. -/

namespace Verif
open Spec

/-- Well-formed books: plain postings, and the transaction index is up to date with the
postings. -/
structure Book.WF (b : Book) : Prop where
  plain : ∀ p ∈ b.post, Plain p
  index : b.trans.flatten = b.post
  groups : ∀ t ∈ b.trans, IsGroup t
  order : b.trans.Pairwise (fun t u => ∀ p ∈ t, ∀ q ∈ u, TxnBefore p q)

theorem flatten_groups_nil {ts : List Txn} (h : ∀ t ∈ ts, IsGroup t) (e : ts.flatten = []) : ts = [] := by
  cases ts with
  | nil => rfl
  | cons t ts =>
    exfalso
    simp at e
    exact (h t (by simp)).1 e.1

theorem Book.WF.nil_trans {b : Book} (h : b.WF) (e : b.post = []) : b.trans = [] :=
  flatten_groups_nil h.groups (by rw [h.index, e])

section
variable {srt : List Posting → List Posting} (hs : IsSort srt)
include hs

theorem plain_compactPost {l : List Posting} (h : ∀ p ∈ l, Plain p) : ∀ p ∈ compactPost srt l, Plain p :=
  compactPost_all hs (fun _ _ h => h) (fun _ _ h => h) h

theorem compact_wf {b : Book} (h1 : ∀ p ∈ b.post, Plain p) (h2 : b.post = [] → b.trans = []) :
    (b.compact srt).WF := by
  unfold Book.compact
  split
  · rename_i h0
    have ht := h2 h0
    refine ⟨h1, by rw [ht, h0]; rfl, by rw [ht]; simp, by rw [ht]; exact List.Pairwise.nil⟩
  · have hstrict := compactPost_strict hs h1
    have hc := groupTxns_canonical hstrict (compactPost_nonzero b.post)
    exact ⟨plain_compactPost hs h1, groupTxns_flatten _, groupTxns_groups _, hc.txnOrder⟩

theorem compact_canonical {b : Book} (h : b.WF) : Canonical (b.compact srt).trans := by
  unfold Book.compact
  split
  · rename_i h0
    rw [h.nil_trans h0]
    exact ⟨by simp, by simp, List.Pairwise.nil, by simp, by simp⟩
  · exact groupTxns_canonical (compactPost_strict hs h.plain) (compactPost_nonzero b.post)

omit hs in
theorem compact_post (b : Book) (h : srt [] = []) : (b.compact srt).post = compactPost srt b.post := by
  unfold Book.compact
  split
  · rename_i h0; rw [h0]; simp [compactPost, h, mergeAdj, dropZero, setBals]
  · rfl

theorem srt_nil : srt [] = [] := List.Perm.eq_nil (hs.perm [])

theorem wsum_compact {w : Posting → Rat} (hw : KeyFun w) (b : Book) :
    wsum w (b.compact srt).post = wsum w b.post := by
  rw [compact_post b (srt_nil hs), wsum_compactPost hs hw]

theorem total_compact {P : Posting → Bool} (hP : KeyFun P) (b : Book) :
    total P (b.compact srt).post = total P b.post := by
  rw [compact_post b (srt_nil hs), total_compactPost hs hP]

theorem transactions_flatten {b : Book} (h : b.WF) : (b.transactions srt).flatten = (b.compact srt).post :=
  (compact_wf hs h.plain h.nil_trans).index

end

/-! ### Balanced postings -/

theorem wsum_const (k : Rat) (l : List Posting) : wsum (fun _ => k) l = k * (l.map (·.val)).sum := by
  induction l with
  | nil => simp
  | cons p l ih => simp [ih]; ring

theorem total_false (l : List Posting) : total (fun _ => false) l = 0 := by
  rw [total_eq_wsum]; simp [wsum_const]

theorem total_filter (P Q : Posting → Bool) (l : List Posting) :
    total P (l.filter Q) = total (fun p => Q p && P p) l := by
  simp [total, List.filter_filter, Bool.and_comm]

theorem wsum_filter_split (w : Posting → Rat) (Q : Posting → Bool) (l : List Posting) :
    wsum w l = wsum w (l.filter Q) + wsum w (l.filter (fun p => !Q p)) := by
  induction l with
  | nil => simp
  | cons p l ih =>
    by_cases h : Q p
    · simp [List.filter_cons, h, ih]; ring
    · simp [List.filter_cons, h, ih]; ring

theorem wsum_congr {w w' : Posting → Rat} {l : List Posting} (h : ∀ p ∈ l, w p = w' p) : wsum w l = wsum w' l := by
  unfold wsum
  rw [List.map_congr_left (fun p hp => by rw [h p hp])]

/-- Any weight depending on date, payee and currency sums to zero over balanced postings. -/
theorem balanced_wsum {l : List Posting} (h : Balanced l) (w : Int → Str → Str → Rat) :
    wsum (fun p => w p.date p.payee p.ccy) l = 0 := by
  generalize hn : l.length = n
  induction n using Nat.strong_induction_on generalizing l with
  | _ n ih =>
    cases l with
    | nil => rfl
    | cons p l =>
      let Q : Posting → Bool := fun q => decide (q.date = p.date ∧ q.payee = p.payee ∧ q.ccy = p.ccy)
      rw [wsum_filter_split _ Q]
      have h1 : wsum (fun p => w p.date p.payee p.ccy) ((p :: l).filter Q) = 0 := by
        rw [wsum_congr (w' := fun _ => w p.date p.payee p.ccy)]
        · rw [wsum_const]
          have : (((p :: l).filter Q).map (·.val)).sum = 0 := h p.date p.payee p.ccy
          rw [this]; simp
        · intro q hq
          have := (List.mem_filter.1 hq).2
          simp only [Q, decide_eq_true_eq] at this
          rw [this.1, this.2.1, this.2.2]
      rw [h1, zero_add]
      refine ih _ ?_ ?_ rfl
      · have hQp : Q p = true := by simp [Q]
        simp only [List.filter_cons, hQp, Bool.not_true]
        have := List.length_filter_le (fun p => !Q p) l
        simp at hn ⊢; omega
      · intro d py c
        unfold txnTotal
        rw [total_filter]
        by_cases hd : d = p.date ∧ py = p.payee ∧ c = p.ccy
        · obtain ⟨rfl, rfl, rfl⟩ := hd
          have : ∀ q : Posting, (!Q q && decide (q.date = p.date ∧ q.payee = p.payee ∧ q.ccy = p.ccy)) = false := by
            intro q; simp only [Q]; cases decide (q.date = p.date ∧ q.payee = p.payee ∧ q.ccy = p.ccy) <;> rfl
          rw [total_congr (Q := fun _ => false) (fun q _ => this q), total_false]
        · rw [total_congr (Q := fun q => decide (q.date = d ∧ q.payee = py ∧ q.ccy = c))]
          · exact h d py c
          · intro q _
            by_cases hq : q.date = d ∧ q.payee = py ∧ q.ccy = c
            · have : Q q = false := by
                simp only [Q, decide_eq_false_iff_not]
                rintro ⟨a, b', c'⟩
                exact hd ⟨by rw [← hq.1, a], by rw [← hq.2.1, b'], by rw [← hq.2.2, c']⟩
              simp [this]
            · simp [hq]

theorem balanced_of_wsum {l : List Posting}
    (h : ∀ w : Int → Str → Str → Rat, wsum (fun p => w p.date p.payee p.ccy) l = 0) : Balanced l := by
  intro d py c
  unfold txnTotal
  rw [total_eq_wsum]
  have := h (fun d' py' c' => if d' = d ∧ py' = py ∧ c' = c then 1 else 0)
  simpa using this

theorem balanced_append {l m : List Posting} (hl : Balanced l) (hm : Balanced m) : Balanced (l ++ m) := by
  intro d py c
  unfold txnTotal at *
  rw [total_append]
  have h1 := hl d py c
  have h2 := hm d py c
  unfold txnTotal at h1 h2
  rw [h1, h2, add_zero]

theorem balanced_nil : Balanced [] := by intro d py c; rfl

theorem balanced_flatMap {α} {l : List α} {g : α → List Posting} (h : ∀ p ∈ l, Balanced (g p)) :
    Balanced (l.flatMap g) := by
  induction l with
  | nil => exact balanced_nil
  | cons p l ih =>
    rw [List.flatMap_cons]
    exact balanced_append (h p (by simp)) (ih fun q hq => h q (by simp [hq]))

theorem balanced_flatten {ts : List Txn} (h : ∀ t ∈ ts, Balanced t) : Balanced ts.flatten := by
  rw [← List.flatMap_id]; exact balanced_flatMap h

/-- Two postings that cancel. -/
theorem balanced_pair {p q : Posting} (h1 : p.date = q.date) (h2 : p.payee = q.payee) (h3 : p.ccy = q.ccy)
    (h4 : p.val + q.val = 0) : Balanced [p, q] := by
  intro d py c
  unfold txnTotal
  rw [total_cons, total_cons, total_nil, h1, h2, h3]
  split
  · rw [add_zero, h4]
  · simp

/-- In a well-formed balanced book every transaction of the index is balanced. -/
theorem wf_balanced_trans {b : Book} (h : b.WF) (hb : Balanced b.post) : ∀ t ∈ b.trans, Balanced t := by
  intro t ht
  obtain ⟨pre, post, e⟩ := List.append_of_mem ht
  have hg := h.groups t ht
  obtain ⟨p0, t', et⟩ := List.exists_cons_of_ne_nil hg.1
  have hp0 : p0 ∈ t := by rw [et]; simp
  have hord := h.order
  rw [e, List.pairwise_append] at hord
  obtain ⟨_, h2, h3⟩ := hord
  have hpost : b.post = pre.flatten ++ (t ++ post.flatten) := by
    rw [← h.index, e]; simp
  have habs : ∀ q, q ∈ pre.flatten ∨ q ∈ post.flatten → ¬ (q.date = p0.date ∧ q.payee = p0.payee) := by
    rintro q (hq | hq) ⟨a, b'⟩
    · obtain ⟨u, hu, hqu⟩ := List.mem_flatten.1 hq
      have hbef := h3 u hu t (by simp) q hqu p0 hp0
      unfold TxnBefore at hbef
      rw [a, b'] at hbef
      rcases hbef with hbef | ⟨_, hbef⟩
      · exact lt_irrefl _ hbef
      · exact lt_irrefl _ hbef
    · obtain ⟨u, hu, hqu⟩ := List.mem_flatten.1 hq
      have hbef := (List.pairwise_cons.1 h2).1 u hu p0 hp0 q hqu
      unfold TxnBefore at hbef
      rw [a, b'] at hbef
      rcases hbef with hbef | ⟨_, hbef⟩
      · exact lt_irrefl _ hbef
      · exact lt_irrefl _ hbef
  intro d py c
  by_cases hd : d = p0.date ∧ py = p0.payee
  · obtain ⟨rfl, rfl⟩ := hd
    have := hb p0.date p0.payee c
    unfold txnTotal at this ⊢
    rw [hpost, total_append, total_append] at this
    have z1 : total (fun p => decide (p.date = p0.date ∧ p.payee = p0.payee ∧ p.ccy = c)) pre.flatten = 0 := by
      rw [total_congr (Q := fun _ => false)]
      · exact total_false _
      · intro q hq
        have := habs q (Or.inl hq)
        simp only [decide_eq_false_iff_not]; tauto
    have z2 : total (fun p => decide (p.date = p0.date ∧ p.payee = p0.payee ∧ p.ccy = c)) post.flatten = 0 := by
      rw [total_congr (Q := fun _ => false)]
      · exact total_false _
      · intro q hq
        have := habs q (Or.inr hq)
        simp only [decide_eq_false_iff_not]; tauto
    rw [z1, z2] at this
    simpa using this
  · unfold txnTotal
    rw [total_congr (Q := fun _ => false)]
    · exact total_false _
    · intro q hq
      obtain ⟨a, b'⟩ := hg.2 q hq p0 hp0
      simp only [decide_eq_false_iff_not]
      rintro ⟨x, y, _⟩
      exact hd ⟨by rw [← x, a], by rw [← y, b']⟩

/-! ### Well-formedness of the operations -/

theorem filter_wf {b : Book} (h : b.WF) {ts : List Txn} (hsub : ts.Sublist b.trans) :
    ({ b with post := ts.flatten, trans := ts } : Book).WF where
  plain p hp := by
    obtain ⟨t, ht, hpt⟩ := List.mem_flatten.1 hp
    apply h.plain
    rw [← h.index]
    exact List.mem_flatten.2 ⟨t, hsub.subset ht, hpt⟩
  index := rfl
  groups t ht := h.groups t (hsub.subset ht)
  order := h.order.sublist hsub

theorem dedupLoop_sublist (ts ref : List Txn) : (dedupLoop ts ref).Sublist ts := by
  induction ts generalizing ref with
  | nil => exact List.Sublist.slnil
  | cons t ts ih =>
    cases t with
    | nil => exact (ih ref).cons _
    | cons p ps =>
      unfold dedupLoop
      simp only
      split
      · exact (ih _).cons_cons _
      · exact (ih _).cons _

theorem reclassTxn_cases (o2 dist ra mp) (t : Txn) :
    reclassTxn o2 dist ra mp t = t ∨
    (∃ p q a, t = [p, q] ∧ reclassTxn o2 dist ra mp t = [p, { q with acct := a }]) ∨
    (∃ p q a, t = [p, q] ∧ reclassTxn o2 dist ra mp t = [{ p with acct := a }, q]) := by
  unfold reclassTxn
  split
  · rename_i p q i c hc
    simp only
    split
    · split
      · exact Or.inr (Or.inl ⟨p, q, _, rfl, rfl⟩)
      · exact Or.inr (Or.inr ⟨p, q, _, rfl, rfl⟩)
    · exact Or.inl rfl
  · exact Or.inl rfl

/-- Reclassification keeps everything but the account. -/
theorem reclassTxn_map {α} (g : Posting → α) (hg : ∀ p a, g { p with acct := a } = g p) (o2 dist ra mp) (t : Txn) :
    (reclassTxn o2 dist ra mp t).map g = t.map g := by
  rcases reclassTxn_cases o2 dist ra mp t with h | ⟨p, q, a, e, h⟩ | ⟨p, q, a, e, h⟩
  · rw [h]
  · rw [h, e]; simp [hg]
  · rw [h, e]; simp [hg]

theorem map_txn_all {f : Txn → Txn} (hf : ∀ t, (f t).map (fun p => (p.date, p.payee)) = t.map (fun p => (p.date, p.payee)))
    {t : Txn} {R : Int × Str → Prop} (h : ∀ p ∈ t, R (p.date, p.payee)) : ∀ p ∈ f t, R (p.date, p.payee) := by
  intro p hp
  have : (p.date, p.payee) ∈ (f t).map (fun p => (p.date, p.payee)) := List.mem_map.2 ⟨p, hp, rfl⟩
  rw [hf] at this
  obtain ⟨q, hq, e⟩ := List.mem_map.1 this
  rw [← e]; exact h q hq

theorem map_wf {b : Book} (h : b.WF) {f : Txn → Txn} 
    (hf : ∀ t, (f t).map (fun p => (p.date, p.payee)) = t.map (fun p => (p.date, p.payee)))
    (hp : ∀ t, (∀ p ∈ t, Plain p) → ∀ p ∈ f t, Plain p) :
    ({ b with post := (b.trans.map f).flatten, trans := b.trans.map f } : Book).WF where
  plain p hpm := by
    obtain ⟨t, ht, hpt⟩ := List.mem_flatten.1 hpm
    obtain ⟨u, hu, e⟩ := List.mem_map.1 ht
    subst e
    refine hp u ?_ p hpt
    intro q hq
    apply h.plain
    rw [← h.index]
    exact List.mem_flatten.2 ⟨u, hu, hq⟩
  index := rfl
  groups t ht := by
    obtain ⟨u, hu, e⟩ := List.mem_map.1 ht
    subst e
    have hg := h.groups u hu
    refine ⟨?_, ?_⟩
    · intro e0
      have := hf u
      rw [e0] at this
      simp at this
      exact hg.1 this
    · intro p hp' q hq
      have hp2 : ∃ p' ∈ u, (p'.date, p'.payee) = (p.date, p.payee) :=
        map_txn_all hf (R := fun x => ∃ p' ∈ u, (p'.date, p'.payee) = x) (fun p hp => ⟨p, hp, rfl⟩) p hp'
      have hq2 : ∃ p' ∈ u, (p'.date, p'.payee) = (q.date, q.payee) :=
        map_txn_all hf (R := fun x => ∃ p' ∈ u, (p'.date, p'.payee) = x) (fun p hp => ⟨p, hp, rfl⟩) q hq
      obtain ⟨p', hp', ep⟩ := hp2
      obtain ⟨q', hq', eq⟩ := hq2
      have := hg.2 p' hp' q' hq'
      simp only [Prod.mk.injEq] at ep eq
      rw [← ep.1, ← ep.2, ← eq.1, ← eq.2]
      exact this
  order := by
    rw [List.pairwise_map]
    refine h.order.imp ?_
    intro t u htu p hp' q hq
    have hp2 : ∃ p' ∈ t, (p'.date, p'.payee) = (p.date, p.payee) :=
      map_txn_all hf (R := fun x => ∃ p' ∈ t, (p'.date, p'.payee) = x) (fun p hp => ⟨p, hp, rfl⟩) p hp'
    have hq2 : ∃ p' ∈ u, (p'.date, p'.payee) = (q.date, q.payee) :=
      map_txn_all hf (R := fun x => ∃ p' ∈ u, (p'.date, p'.payee) = x) (fun p hp => ⟨p, hp, rfl⟩) q hq
    obtain ⟨p', hp', ep⟩ := hp2
    obtain ⟨q', hq', eq⟩ := hq2
    have := htu p' hp' q' hq'
    simp only [Prod.mk.injEq] at ep eq
    unfold TxnBefore at *
    rw [← ep.1, ← ep.2, ← eq.1, ← eq.2]
    exact this

theorem plain_dup {p : Posting} (h : Plain p) (a d v) : Plain (p.dup a d v) := ⟨rfl, h.2⟩

theorem plain_instalments {p : Posting} (h : Plain p) (today nacct period periods) :
    ∀ k d, ∀ q ∈ instalments today p nacct period periods k d, Plain q := by
  intro k
  induction k with
  | zero => intro d q hq; simp [instalments] at hq
  | succ k ih =>
    intro d q hq
    simp only [instalments, List.mem_cons] at hq
    rcases hq with hq | hq | hq
    · rw [hq]; exact plain_dup h _ _ _
    · rw [hq]; exact plain_dup h _ _ _
    · exact ih _ q hq

theorem plain_depreciatePost {p : Posting} (h : Plain p) (today mat rep period periods) :
    ∀ q ∈ depreciatePost today mat rep period periods p, Plain q := by
  intro q hq
  unfold depreciatePost at hq
  split at hq
  · simp only [List.mem_cons] at hq
    rcases hq with hq | hq | hq
    · rw [hq]; exact plain_dup h _ _ _
    · rw [hq]; exact plain_dup h _ _ _
    · exact plain_instalments h _ _ _ _ _ _ q hq
  · simp at hq

theorem filterTxn_sublist (f : Int → Str → Txn → Bool) (ts : List Txn) :
    (ts.filter fun t => match t with | [] => false | p :: _ => f p.date p.payee t).Sublist ts :=
  List.filter_sublist

section
variable {srt : List Posting → List Posting} (hs : IsSort srt)
include hs

theorem apply_wf {today : Int} {o : Op} {b b' : Book} (h : b.WF) (ho : o.apply srt today b = some b') : b'.WF := by
  cases o with
  | read => cases ho; exact compact_wf hs h.plain h.nil_trans
  | mapTransaction g =>
    cases ho
    apply compact_wf hs
    · intro p hp
      obtain ⟨q, hq, rfl⟩ := List.mem_map.1 hp
      exact h.plain q hq
    · intro e; exact h.nil_trans (by simpa using e)
  | splitBy by_ =>
    cases ho
    apply compact_wf hs
    · intro p hp
      obtain ⟨q, hq, rfl⟩ := List.mem_map.1 hp
      exact h.plain q hq
    · intro e; exact h.nil_trans (by simpa using e)
  | mapAccount g =>
    cases ho
    apply compact_wf hs
    · intro p hp
      obtain ⟨q, hq, rfl⟩ := List.mem_map.1 hp
      exact ⟨rfl, (h.plain q hq).2⟩
    · intro e; exact h.nil_trans (by simpa using e)
  | mapAmount g =>
    cases ho
    have := map_wf h (f := fun t => t.map (mapAmountPost g))
      (fun t => by simp [mapAmountPost]) (fun t ht p hp => by
        obtain ⟨q, hq, rfl⟩ := List.mem_map.1 hp
        exact ht q hq)
    have e : b.mapAmount g = Book.mk (b.trans.map (fun t => t.map (mapAmountPost g))).flatten
        (b.trans.map (fun t => t.map (mapAmountPost g))) b.prices b.ccy := by
      unfold Book.mapAmount
      rw [← h.index, List.map_flatten]
    rw [e]; exact this
  | filter f => cases ho; exact filter_wf h (List.filter_sublist)
  | since d =>
    simp only [Op.apply, Option.some.injEq, Book.filterByDateSince] at ho
    split at ho
    · rw [← ho]; exact h
    · rw [← ho]; exact filter_wf h (List.filter_sublist)
  | asof d =>
    simp only [Op.apply, Option.some.injEq, Book.filterByDateAsof] at ho
    split at ho
    · rw [← ho]; exact h
    · rw [← ho]; exact filter_wf h (List.filter_sublist)
  | filterByAccount a => cases ho; exact filter_wf h (List.filter_sublist)
  | adjustPost mat rep f =>
    cases ho
    apply compact_wf hs
    · intro p hp
      rcases List.mem_append.1 hp with hp | hp
      · exact h.plain p hp
      · obtain ⟨q, hq, hpq⟩ := List.mem_flatMap.1 hp
        split at hpq
        · simp only [List.mem_cons, List.not_mem_nil, or_false] at hpq
          rcases hpq with e | e <;> rw [e] <;> exact plain_dup (h.plain q hq) _ _ _
        · simp at hpq
    · intro e; exact h.nil_trans (List.append_eq_nil_iff.1 e).1
  | depreciate mat rep period n =>
    cases ho
    apply compact_wf hs
    · intro p hp
      rcases List.mem_append.1 hp with hp | hp
      · exact h.plain p hp
      · obtain ⟨q, hq, hpq⟩ := List.mem_flatMap.1 hp
        exact plain_depreciatePost (h.plain q hq) _ _ _ _ _ p hpq
    · intro e; exact h.nil_trans (List.append_eq_nil_iff.1 e).1
  | adjustBy by_ =>
    simp only [Op.apply, Book.adjustBy] at ho
    split at ho
    · cases ho; exact h
    · split at ho
      · cases ho
      · split at ho
        · cases ho
        · cases ho
          apply compact_wf hs
          · intro p hp
            obtain ⟨q, hq, rfl⟩ := List.mem_map.1 hp
            exact plain_dup (h.plain q hq) _ _ _
          · intro e; exact h.nil_trans (by simpa using e)
  | removeDuplicatesOf main =>
    cases ho; exact filter_wf h (dedupLoop_sublist _ _)
  | reclassify o1 o2 dist ra ref =>
    cases ho
    have hc := compact_wf hs h.plain h.nil_trans
    have := map_wf hc (f := reclassTxn o2 dist ra (payeeMapping o1 (payeeMappingAll ra (ref.transactions srt))))
      (fun t => reclassTxn_map _ (fun p a => rfl) _ _ _ _ t) (fun t ht p hp => by
        have h2 := reclassTxn_map (fun p => (p.acctlevel, p.acctsort)) (fun p a => rfl) o2 dist ra
          (payeeMapping o1 (payeeMappingAll ra (ref.transactions srt))) t
        have : (p.acctlevel, p.acctsort) ∈ t.map (fun p => (p.acctlevel, p.acctsort)) := by
          rw [← h2]; exact List.mem_map.2 ⟨p, hp, rfl⟩
        obtain ⟨q, hq, e⟩ := List.mem_map.1 this
        simp only [Prod.mk.injEq] at e
        have := ht q hq
        exact ⟨by rw [← e.1]; exact this.1, by rw [← e.2]; exact this.2⟩)
    exact ⟨this.plain, this.index, this.groups, this.order⟩

theorem applyOps_wf {today : Int} {os : List Op} {b b' : Book} (h : b.WF)
    (ho : applyOps srt today os b = some b') : b'.WF := by
  induction os generalizing b with
  | nil => cases ho; exact h
  | cons o os ih =>
    simp only [applyOps] at ho
    cases hc : o.apply srt today b with
    | none => rw [hc] at ho; cases ho
    | some b1 => rw [hc] at ho; exact ih (apply_wf hs h hc) ho

/-! ### Balance is preserved -/

theorem compact_balanced {b : Book} (h : Balanced b.post) : Balanced (b.compact srt).post := by
  apply balanced_of_wsum
  intro w
  rw [wsum_compact hs]
  · exact balanced_wsum h w
  · intro p q hk
    obtain ⟨h1, h2, _, h4⟩ := key_eq_iff.1 hk
    simp only [h1, h2, h4]

omit hs in
theorem balanced_map_txn {l : List Posting} (h : Balanced l) (g : Int → Str → Int × Str) :
    Balanced (l.map fun p => { p with date := (g p.date p.payee).1, payee := (g p.date p.payee).2 }) := by
  apply balanced_of_wsum
  intro w
  have := balanced_wsum h (fun d py c => w (g d py).1 (g d py).2 c)
  unfold wsum at *
  rw [List.map_map]
  exact this

omit hs in
theorem balanced_map_amount {l : List Posting} (h : Balanced l) (g : Int → Str → Rat × Str) :
    Balanced (l.map (mapAmountPost g)) := by
  apply balanced_of_wsum
  intro w
  have := balanced_wsum h (fun d py c => w d py (g d c).2 * (g d c).1)
  unfold wsum at *
  rw [List.map_map]
  rw [← this]
  congr 1
  apply List.map_congr_left
  intro p _
  simp only [Function.comp, mapAmountPost]
  ring

omit hs in
theorem balanced_map_keep {l : List Posting} (h : Balanced l) (f : Posting → Posting) (k : Rat)
    (h1 : ∀ p, (f p).date = p.date) (h2 : ∀ p, (f p).payee = p.payee) (h3 : ∀ p, (f p).ccy = p.ccy)
    (h4 : ∀ p, (f p).val = p.val * k) : Balanced (l.map f) := by
  apply balanced_of_wsum
  intro w
  have := balanced_wsum h (fun d py c => w d py c * k)
  unfold wsum at *
  rw [List.map_map, ← this]
  congr 1
  apply List.map_congr_left
  intro p _
  simp only [Function.comp, h1, h2, h3, h4]
  ring

omit hs in
theorem balanced_instalments (today : Int) (p : Posting) (nacct period : Str) (periods : Int) :
    ∀ k d, Balanced (instalments today p nacct period periods k d) := by
  intro k
  induction k with
  | zero => intro d; exact balanced_nil
  | succ k ih =>
    intro d
    have := balanced_append (balanced_pair (p := p.byAcctDateFactor nacct d (-1 / (periods : Rat)))
      (q := p.byAcctDateFactor p.acct d (1 / (periods : Rat))) rfl rfl rfl (by
        show p.val * _ + p.val * _ = 0; ring)) (ih (floorDiff today d period 1))
    exact this

omit hs in
theorem balanced_depreciatePost (today : Int) (mat rep) (period : Str) (periods : Int) (p : Posting) :
    Balanced (depreciatePost today mat rep period periods p) := by
  unfold depreciatePost
  split
  · exact balanced_append (balanced_pair (p := p.byFactor (-1)) (q := p.byAcctFactor (rep p.acct) 1)
      rfl rfl rfl (by show p.val * _ + p.val * _ = 0; ring)) (balanced_instalments _ _ _ _ _ _ _)
  · exact balanced_nil

theorem apply_balanced {today : Int} {o : Op} {b b' : Book} (h : b.WF) (hb : Balanced b.post)
    (ho : o.apply srt today b = some b') : Balanced b'.post := by
  have hfilter : ∀ ts : List Txn, ts.Sublist b.trans → Balanced ts.flatten := fun ts hsub =>
    balanced_flatten fun t ht => wf_balanced_trans h hb t (hsub.subset ht)
  cases o with
  | read => cases ho; exact compact_balanced hs hb
  | mapTransaction g => cases ho; exact compact_balanced hs (balanced_map_txn hb g)
  | splitBy by_ => cases ho; exact compact_balanced hs (balanced_map_txn hb (fun d _ => (floorBy today d by_, [])))
  | mapAccount g =>
    cases ho
    exact compact_balanced hs (balanced_map_keep hb _ 1 (fun _ => rfl) (fun _ => rfl) (fun _ => rfl)
      (fun p => by simp [mapAccountPost]))
  | mapAmount g => cases ho; exact balanced_map_amount hb g
  | filter f => cases ho; exact hfilter _ (List.filter_sublist)
  | since d =>
    simp only [Op.apply, Option.some.injEq, Book.filterByDateSince] at ho
    split at ho
    · rw [← ho]; exact hb
    · rw [← ho]; exact hfilter _ (List.filter_sublist)
  | asof d =>
    simp only [Op.apply, Option.some.injEq, Book.filterByDateAsof] at ho
    split at ho
    · rw [← ho]; exact hb
    · rw [← ho]; exact hfilter _ (List.filter_sublist)
  | filterByAccount a => cases ho; exact hfilter _ (List.filter_sublist)
  | adjustPost mat rep f =>
    cases ho
    apply compact_balanced hs
    apply balanced_append hb
    apply balanced_flatMap
    intro p _
    split
    · exact balanced_pair rfl rfl rfl (by show p.val * _ + p.val * _ = 0; ring)
    · exact balanced_nil
  | depreciate mat rep period n =>
    cases ho
    apply compact_balanced hs
    exact balanced_append hb (balanced_flatMap fun p _ => balanced_depreciatePost _ _ _ _ _ p)
  | adjustBy by_ =>
    simp only [Op.apply, Book.adjustBy] at ho
    split at ho
    · cases ho; exact hb
    · split at ho
      · cases ho
      · split at ho
        · cases ho
        · rename_i f _
          cases ho
          exact compact_balanced hs (balanced_map_keep hb _ f (fun _ => rfl) (fun _ => rfl) (fun _ => rfl)
            (fun p => rfl))
  | removeDuplicatesOf main => cases ho; exact hfilter _ (dedupLoop_sublist _ _)
  | reclassify o1 o2 dist ra ref =>
    cases ho
    have hc := compact_wf hs h.plain h.nil_trans
    have hcb := compact_balanced hs hb
    apply balanced_flatten
    intro t ht
    obtain ⟨u, hu, e⟩ := List.mem_map.1 ht
    have hub := wf_balanced_trans hc hcb u hu
    intro d py c
    have h1 := hub d py c
    unfold txnTotal at h1 ⊢
    rw [total_eq_wsum] at h1 ⊢
    refine Eq.trans ?_ h1
    rw [← e]
    unfold wsum
    congr 1
    exact reclassTxn_map (fun p => (if decide (p.date = d ∧ p.payee = py ∧ p.ccy = c) = true then (1:Rat) else 0) * p.val)
      (fun p a => rfl) _ _ _ _ u

theorem applyOps_balanced {today : Int} {os : List Op} {b b' : Book} (h : b.WF) (hb : Balanced b.post)
    (ho : applyOps srt today os b = some b') : Balanced b'.post := by
  induction os generalizing b with
  | nil => cases ho; exact hb
  | cons o os ih =>
    simp only [applyOps] at ho
    cases hc : o.apply srt today b with
    | none => rw [hc] at ho; cases ho
    | some b1 => rw [hc] at ho; exact ih (apply_wf hs h hc) (apply_balanced hs h hb hc) ho

end

/-! ### The builder produces well-formed balanced books -/

/-- The builder's postings: balanced closed transactions and the open one. -/
structure BuildInv (b : Builder) (closed op : List Posting) : Prop where
  post : b.post = closed ++ op
  bal : Balanced closed
  opn : ∀ p ∈ op, p.date = b.currDate ∧ p.payee = b.currPayee
  amt : ∀ c, ccyTotal c op = amtAt b.currAmts c
  keys : (b.currAmts.map (·.1)).Nodup
  plain : ∀ p ∈ b.post, Plain p

theorem buildInv_close {b b1 : Builder} {closed op} (h : BuildInv b closed op) (hc : b.checkAndClear = some b1) :
    Balanced b.post ∧ b1.post = b.post ∧ (b1.currAmts.map (·.1)).Nodup ∧ (∀ c, amtAt b1.currAmts c = 0) ∧
      b1.prices = b.prices := by
  unfold Builder.checkAndClear at hc
  split at hc
  · rename_i hz
    cases hc
    refine ⟨?_, rfl, ?_, amtAt_clear _, rfl⟩
    · rw [h.post]
      apply balanced_append h.bal
      intro d py c
      by_cases hd : d = b.currDate ∧ py = b.currPayee
      · have := h.amt c
        rw [(all_zero_iff _ h.keys).1 hz c] at this
        unfold txnTotal
        unfold ccyTotal at this
        rw [← this]
        apply total_congr
        intro p hp
        have := h.opn p hp
        simp [this.1, this.2, hd.1, hd.2]
      · unfold txnTotal
        rw [total_congr (Q := fun _ => false)]
        · exact total_false _
        · intro p hp
          have := h.opn p hp
          simp only [decide_eq_false_iff_not]
          rintro ⟨x, y, _⟩
          exact hd ⟨by rw [← x, this.1], by rw [← y, this.2]⟩
    · have := h.keys
      rw [List.map_map]
      exact this
  · cases hc

theorem calls_inv (cs : List Call) : ∀ (b b' : Builder) (closed op), BuildInv b closed op → b.calls cs = some b' →
    ∃ closed' op', BuildInv b' closed' op' := by
  induction cs with
  | nil => intro b b' closed op h hb; cases hb; exact ⟨_, _, h⟩
  | cons c cs ih =>
    intro b b' closed op h hb
    simp only [Builder.calls] at hb
    cases hc : b.call c with
    | none => rw [hc] at hb; cases hb
    | some b1 =>
      rw [hc] at hb
      cases c with
      | newTransaction d p n =>
        simp only [Builder.call, Builder.newTransaction] at hc
        cases hcc : b.checkAndClear with
        | none => rw [hcc] at hc; cases hc
        | some b2 =>
          rw [hcc] at hc
          simp only at hc
          obtain ⟨x1, x2, x3, x4, _⟩ := buildInv_close h hcc
          split at hc
          · cases hc
          · cases hc
            refine ih ⟨b2.post, _, b2.currAmts, d, _, n, b2.prices⟩ _ b.post [] ⟨by simp [x2], x1, by simp, ?_, x3, ?_⟩ hb
            · intro c; rw [x4]; rfl
            · intro p hp; apply h.plain; rw [← x2]; exact hp
      | addPosting a cc v n =>
        cases hc
        refine ih _ _ closed (op ++ [⟨b.currDate, b.currPayee, b.currNote, a, cc, v, n, 0, 0, [], []⟩]) ⟨?_, h.bal, ?_, ?_, ?_, ?_⟩ hb
        · simp [Builder.addPosting, h.post]
        · intro p hp
          rcases List.mem_append.1 hp with hp | hp
          · exact h.opn p hp
          · simp at hp; rw [hp]; exact ⟨rfl, rfl⟩
        · intro c
          show _ = amtAt (amtAdd b.currAmts cc v) c
          rw [amtAt_add, ← h.amt]
          unfold ccyTotal
          rw [total_append, total_cons, total_nil]
          simp
        · exact (amtAdd_keys _ _ _ h.keys).1
        · intro p hp
          simp only [Builder.addPosting, List.mem_append, List.mem_singleton] at hp
          rcases hp with hp | hp
          · exact h.plain p hp
          · rw [hp]; exact ⟨rfl, rfl⟩
      | addPrice d u cc v =>
        cases hc
        exact ih (b.addPrice d u cc v) _ closed op ⟨h.post, h.bal, h.opn, h.amt, h.keys, h.plain⟩ hb

theorem built_balanced {srt} (hs : IsSort srt) {cs : List Call} {bb : Builder} {b : Book}
    (h : Builder.new.calls cs = some bb) (hb : bb.build srt = some b) : b.WF ∧ Balanced b.post := by
  obtain ⟨closed, op, hi⟩ := calls_inv cs Builder.new bb [] []
    ⟨rfl, balanced_nil, by simp, by intro c; rfl, by simp [Builder.new], by simp [Builder.new]⟩ h
  unfold Builder.build at hb
  cases hcc : bb.checkAndClear with
  | none => rw [hcc] at hb; cases hb
  | some b2 =>
    rw [hcc] at hb
    cases hb
    obtain ⟨x1, x2, _⟩ := buildInv_close hi hcc
    rw [x2]
    refine ⟨compact_wf hs hi.plain (fun e => ?_), compact_balanced hs x1⟩
    simp only at e ⊢
    rw [e]; rfl

theorem reachable_wf {srt} (hs : IsSort srt) {today : Int} {b : Book} (h : Reachable srt today b) :
    b.WF ∧ Balanced b.post := by
  obtain ⟨cs, bb, b0, ops, h1, h2, h3⟩ := h
  obtain ⟨w, bal⟩ := built_balanced hs h1 h2
  exact ⟨applyOps_wf hs w h3, applyOps_balanced hs w bal h3⟩

end Verif
