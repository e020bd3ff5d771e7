import Verif.Proofs.Reclassify

/-! # C40–C45: importing -/

namespace Verif
open Spec

/-! ## C40 -/

/-- C40: what `RemoveDuplicatesOf` keeps are exactly the transactions of the book whose date and
payee do not occur in `main`, unchanged and in order. -/
theorem c40_exact_difference (srt : List Posting → List Posting) (hs : IsSort srt) (today : Int) (b main : Book)
    (hr : Reachable srt today b) (hm : Reachable srt today main) :
    (b.removeDuplicatesOf srt main).trans =
      b.trans.filter (fun t => t.all fun p => !hasTxn (main.transactions srt) p.date p.payee) :=
  removeDuplicatesOf_trans hs (reachable_wf hs hr).1 (reachable_wf hs hm).1

theorem removeDuplicatesOf_wf {srt} {b main : Book} (w : b.WF) : (b.removeDuplicatesOf srt main).WF :=
  filter_wf w (dedupLoop_sublist _ _)

/-- C40, as the user sees it: the transactions reported afterwards are those reported before,
without the ones of a date and payee reported by `main`. -/
theorem c40_reported (srt : List Posting → List Posting) (hs : IsSort srt) (today : Int) (b main : Book)
    (hr : Reachable srt today b) (hm : Reachable srt today main) :
    ((b.removeDuplicatesOf srt main).transactions srt).map (·.map line) =
      ((b.transactions srt).filter
        (fun t => t.all fun p => !hasTxn (main.transactions srt) p.date p.payee)).map (·.map line) := by
  have w := (reachable_wf hs hr).1
  apply filter_key_lines hs w (removeDuplicatesOf_wf w)
    (fun d py => !hasTxn (main.transactions srt) d py)
  rw [← w.index, ← flatten_filter_key w.groups (fun d py => !hasTxn (main.transactions srt) d py), ← c40_exact_difference srt hs today b main hr hm]
  rfl

/-! ## C41 -/

theorem hasTxn_filter {ts : List Txn} (hg : ∀ t ∈ ts, IsGroup t) (K : Int → Str → Bool) (d : Int) (py : Str) :
    hasTxn (ts.filter (fun t => t.all fun p => K p.date p.payee)) d py = (hasTxn ts d py && K d py) := by
  rw [Bool.eq_iff_iff, Bool.and_eq_true, hasTxn_iff, hasTxn_iff]
  constructor
  · rintro ⟨t, ht, q, hq, h1, h2⟩
    obtain ⟨h3, h4⟩ := List.mem_filter.1 ht
    refine ⟨⟨t, h3, q, hq, h1, h2⟩, ?_⟩
    have := List.all_eq_true.1 h4 q hq
    rw [h1, h2] at this; exact this
  · rintro ⟨⟨t, ht, q, hq, h1, h2⟩, hk⟩
    refine ⟨t, List.mem_filter.2 ⟨ht, ?_⟩, q, hq, h1, h2⟩
    rw [List.all_eq_true]
    intro p hp
    have := (hg t ht).2 p hp q hq
    rw [this.1, this.2, h1, h2]; exact hk

theorem hasTxn_rdo {srt} (hs : IsSort srt) {b main : Book} (w : b.WF) (wm : main.WF) (d : Int) (py : Str) :
    hasTxn (b.removeDuplicatesOf srt main).trans d py = (hasTxn b.trans d py && !hasTxn (main.transactions srt) d py) := by
  rw [removeDuplicatesOf_trans hs w wm, hasTxn_filter w.groups (fun d py => !hasTxn (main.transactions srt) d py)]

theorem dedupAll_spec {srt} (hs : IsSort srt) (prev : List Book) : ∀ (b : Book), b.WF → (∀ p ∈ prev, p.WF) →
    (dedupAll srt b prev).WF ∧ (dedupAll srt b prev).trans.Sublist b.trans ∧
    ∀ d py, hasTxn (dedupAll srt b prev).trans d py = true ↔
      (hasTxn b.trans d py = true ∧ ∀ p ∈ prev, hasTxn (p.transactions srt) d py = false) := by
  induction prev with
  | nil => intro b w _; exact ⟨w, List.Sublist.refl _, by simp [dedupAll]⟩
  | cons p ps ih =>
    intro b w hp
    obtain ⟨h1, h2, h3⟩ := ih (b.removeDuplicatesOf srt p) (removeDuplicatesOf_wf w) (fun q hq => hp q (by simp [hq]))
    refine ⟨h1, h2.trans (dedupLoop_sublist _ _), fun d py => ?_⟩
    show hasTxn (dedupAll srt (b.removeDuplicatesOf srt p) ps).trans d py = true ↔ _
    rw [h3, hasTxn_rdo hs w (hp p (by simp))]
    simp only [Bool.and_eq_true, Bool.not_eq_true', List.mem_cons, forall_eq_or_imp, and_assoc]

/-- The book before reclassification. -/
theorem import_b2 {srt} (hs : IsSort srt) (dedup : Bool) {main : Book} (wm : main.WF) {prev : List Book}
    (wp : ∀ p ∈ prev, p.WF) {b : Book} (w : b.WF) :
    let b2 := dedupAll srt (if dedup then b.removeDuplicatesOf srt main else b) prev
    b2.WF ∧ b2.trans.Sublist b.trans ∧
    ∀ d py, hasTxn b2.trans d py = true ↔
      (hasTxn b.trans d py = true ∧ (dedup = true → hasTxn (main.transactions srt) d py = false) ∧
        ∀ p ∈ prev, hasTxn (p.transactions srt) d py = false) := by
  intro b2
  cases dedup with
  | false =>
    obtain ⟨h1, h2, h3⟩ := dedupAll_spec hs prev b w wp
    exact ⟨h1, h2, fun d py => by rw [show b2 = dedupAll srt b prev from rfl, h3]; simp⟩
  | true =>
    obtain ⟨h1, h2, h3⟩ := dedupAll_spec hs prev (b.removeDuplicatesOf srt main) (removeDuplicatesOf_wf w) wp
    refine ⟨h1, h2.trans (dedupLoop_sublist _ _), fun d py => ?_⟩
    rw [show b2 = dedupAll srt (b.removeDuplicatesOf srt main) prev from rfl, h3, hasTxn_rdo hs w wm]
    simp only [Bool.and_eq_true, Bool.not_eq_true', and_assoc, true_imp_iff]

theorem hasTxn_map {ts : List Txn} {f : Txn → Txn}
    (hf : ∀ t, (f t).map (fun p => (p.date, p.payee)) = t.map (fun p => (p.date, p.payee))) (d : Int) (py : Str) :
    hasTxn (ts.map f) d py = hasTxn ts d py := by
  have key : ∀ t : Txn, (t.any fun q => decide (q.date = d ∧ q.payee = py)) =
      (t.map (fun p => (p.date, p.payee))).any (fun x => decide (x = (d, py))) := by
    intro t; rw [List.any_map]; congr 1; funext q; simp [Prod.ext_iff]
  unfold hasTxn
  rw [List.any_map]
  congr 1
  funext u
  simp only [Function.comp]
  rw [key, key, hf]

theorem reclassify_wf {srt} (hs : IsSort srt) {b : Book} (w : b.WF) (o1 o2 dist ra) (ref : Book) :
    (b.reclassify srt o1 o2 dist ra ref).WF :=
  apply_wf hs (today := 0) (o := .reclassify o1 o2 dist ra ref) w rfl

theorem importOne_wf {srt} (hs : IsSort srt) (dedup : Bool) (rc : Option Reclass) {main : Book} (wm : main.WF)
    {prev : List Book} (wp : ∀ p ∈ prev, p.WF) {b : Book} (w : b.WF) : (importOne srt dedup rc main prev b).WF := by
  unfold importOne
  have h := (import_b2 hs dedup wm wp w).1
  cases rc with
  | none => exact h
  | some r => exact reclassify_wf hs h _ _ _ _ _

theorem importOne_keys {srt} (hs : IsSort srt) (dedup : Bool) (rc : Option Reclass) {main : Book} (wm : main.WF)
    {prev : List Book} (wp : ∀ p ∈ prev, p.WF) {b : Book} (w : b.WF) {d : Int} {py : Str}
    (h : hasTxn (importOne srt dedup rc main prev b).trans d py = true) :
    hasTxn b.trans d py = true ∧ (dedup = true → hasTxn (main.transactions srt) d py = false) ∧
        ∀ p ∈ prev, hasTxn (p.transactions srt) d py = false := by
  obtain ⟨h1, _, h3⟩ := import_b2 hs dedup wm wp w
  rw [← h3]
  unfold importOne at h
  cases rc with
  | none => exact h
  | some r =>
    have h : hasTxn ((_ : List Txn).map _) d py = true := h
    rw [hasTxn_map (fun t => reclassTxn_map _ (fun _ _ => rfl) _ _ _ _ t)] at h
    exact hasTxn_reported hs h1 h

theorem importRun_spec {srt} (hs : IsSort srt) (dedup : Bool) (rc : Option Reclass) {main : Book} (wm : main.WF)
    (bs : List Book) : ∀ (prev : List Book), (∀ p ∈ prev, p.WF) → (∀ b ∈ bs, b.WF) →
    (∀ out ∈ importRun srt dedup rc main prev bs,
      (∀ d py, hasTxn out d py = true → (dedup = true → hasTxn (main.transactions srt) d py = false) ∧
        ∀ p ∈ prev, hasTxn (p.transactions srt) d py = false) ∧ Canonical out) ∧
    (importRun srt dedup rc main prev bs).Pairwise (fun o1 o2 => ∀ d py, hasTxn o2 d py = true → hasTxn o1 d py = false) := by
  induction bs with
  | nil => intro prev _ _; simp [importRun]
  | cons b bs ih =>
    intro prev wp wb
    have w := wb b (by simp)
    have w' := importOne_wf hs dedup rc wm wp w
    obtain ⟨h1, h2⟩ := ih (prev ++ [importOne srt dedup rc main prev b])
      (by intro p hp
          rcases List.mem_append.1 hp with hp | hp
          · exact wp p hp
          · rw [List.mem_singleton.1 hp]; exact w') (fun x hx => wb x (by simp [hx]))
    unfold importRun
    refine ⟨?_, List.pairwise_cons.2 ⟨?_, h2⟩⟩
    · intro out hout
      rcases List.mem_cons.1 hout with e | e
      · subst e
        exact ⟨fun d py h => (importOne_keys hs dedup rc wm wp w (hasTxn_reported hs w' h)).2, compact_canonical hs w'⟩
      · obtain ⟨h3, h4⟩ := h1 out e
        exact ⟨fun d py h => ⟨(h3 d py h).1, fun p hp => (h3 d py h).2 p (List.mem_append_left _ hp)⟩, h4⟩
    · intro out hout d py h
      exact ((h1 out hout).1 d py h).2 _ (by simp)

/-- C41: in an import run over any list of files (`dedup` and reclassification as chosen), no
transaction emitted has a date and payee occurring in the main ledger (with `dedup`) or
in the output of an earlier file, and none within the output of one file. -/
theorem c41_no_duplicates (srt : List Posting → List Posting) (hs : IsSort srt) (today : Int) (dedup : Bool)
    (rc : Option Reclass) (main : Book) (bs : List Book) (hm : Reachable srt today main)
    (hb : ∀ b ∈ bs, Reachable srt today b) :
    (∀ out ∈ importRun srt dedup rc main [] bs, ∀ t ∈ out, ∀ p ∈ t,
        dedup = true → hasTxn (main.transactions srt) p.date p.payee = false) ∧
    (importRun srt dedup rc main [] bs).Pairwise
        (fun earlier later => ∀ t ∈ later, ∀ p ∈ t, hasTxn earlier p.date p.payee = false) ∧
    (∀ out ∈ importRun srt dedup rc main [] bs, out.Pairwise
        (fun t u => ∀ p ∈ t, ∀ q ∈ u, ¬ (p.date = q.date ∧ p.payee = q.payee))) := by
  obtain ⟨h1, h2⟩ := importRun_spec hs dedup rc (reachable_wf hs hm).1 bs [] (by simp) (fun b hbm => (reachable_wf hs (hb b hbm)).1)
  refine ⟨?_, ?_, ?_⟩
  · intro out ho t ht p hp
    exact ((h1 out ho).1 p.date p.payee (hasTxn_iff.2 ⟨t, ht, p, hp, rfl, rfl⟩)).1
  · refine h2.imp ?_
    intro o1 o2 h t ht p hp
    exact h _ _ (hasTxn_iff.2 ⟨t, ht, p, hp, rfl, rfl⟩)
  · intro out ho
    refine (h1 out ho).2.txnOrder.imp ?_
    intro t u htu p hp q hq e
    exact txnBefore_irrefl (htu p hp q hq) ⟨e.1.symm, e.2.symm⟩

/-! ## C43 -/

/-- What reclassification may do to one transaction. -/
def Reclassified (ra : Str) (dist : Str → Str → Rat) (ref : List Txn) (t t' : Txn) : Prop :=
  -- not a two-posting transaction with the reference account: unchanged
  ((∀ a, ¬ CounterIn ra a t) ∧ t' = t) ∨
  ∃ x y, t = [x, y] ∧ (x.acct = ra ∨ y.acct = ra) ∧
    -- no similar payee: unchanged
    (((∀ py a, UsedWith ra ref py a → dist x.payee py ≤ 0) ∧ t' = t) ∨
    -- otherwise the other posting gets a counter-account of a most similar payee
     ∃ py a, UsedWith ra ref py a ∧ 0 < dist x.payee py ∧
       (∀ py' a', UsedWith ra ref py' a' → dist x.payee py' ≤ dist x.payee py) ∧
       ((x.acct = ra ∧ t' = [x, { y with acct := a }]) ∨ (x.acct ≠ ra ∧ t' = [{ x with acct := a }, y])))

theorem reclassTxn_spec {o1 o2} (ho1 : ∀ l, (o1 l).Perm l) (ho2 : ∀ l, (o2 l).Perm l)
    (dist : Str → Str → Rat) (ra : Str) {ref : List Txn}
    (hg : ∀ t ∈ ref, ∀ p ∈ t, ∀ q ∈ t, p.date = q.date ∧ p.payee = q.payee) (t : Txn) :
    Reclassified ra dist ref t (reclassTxn o2 dist ra (payeeMapping o1 (payeeMappingAll ra ref)) t) := by
  obtain ⟨k1, k2⟩ := payeeMapping_spec ho1 ra hg
  cases hc : counterOf ra t with
  | none =>
    left
    refine ⟨fun a ha => ?_, ?_⟩
    · obtain ⟨i, h⟩ := counterIn_iff.1 ha; rw [hc] at h; cases h
    · unfold reclassTxn; split
      · rename_i heq; rw [hc] at heq; cases heq
      · rfl
  | some ic =>
    obtain ⟨i, c⟩ := ic
    right
    obtain ⟨x, y, rfl, hxy⟩ := counterOf_some hc
    refine ⟨x, y, rfl, by rcases hxy with h | h; exacts [Or.inl h.1, Or.inr h.2.1], ?_⟩
    obtain ⟨b1, b2, b3⟩ := bestLoop_spec dist x.payee (o2 (payeeMapping o1 (payeeMappingAll ra ref))) 0 []
    have hmax : ∀ py' a', UsedWith ra ref py' a' →
        dist x.payee py' ≤ (bestLoop dist x.payee 0 [] (o2 (payeeMapping o1 (payeeMappingAll ra ref)))).1 := by
      intro py' a' hu
      obtain ⟨c', hc'⟩ := k2 py' a' hu
      exact b2 py' c' ((ho2 _).mem_iff.2 hc')
    have hred : reclassTxn o2 dist ra (payeeMapping o1 (payeeMappingAll ra ref)) [x, y] =
        let best := bestLoop dist x.payee 0 [] (o2 (payeeMapping o1 (payeeMappingAll ra ref)))
        if best.1 > 0 then
          if i = 1 then [x, { y with acct := best.2 }] else [{ x with acct := best.2 }, y]
        else [x, y] := by
      unfold reclassTxn; rw [hc]
    rw [hred]
    simp only
    rcases b3 with b3 | ⟨p, c', hm, hlt, b3⟩
    · left
      rw [b3] at hmax ⊢
      exact ⟨hmax, by simp⟩
    · right
      rw [b3] at hmax ⊢
      refine ⟨p, c', k1 p c' ((ho2 _).mem_iff.1 hm), hlt, hmax, ?_⟩
      simp only
      rw [if_pos hlt]
      rcases hxy with h | h
      · left; exact ⟨h.1, by rw [if_pos h.2.1]⟩
      · right; exact ⟨h.1, by rw [h.2.2.1]; simp⟩

/-- C43: reclassification changes at most the account of the posting that is not on the
reference account, in two-posting transactions that involve it, and only to a counter-account of
a most similar payee of the reference book; for every order in which the maps are iterated.
Transactions stay balanced. -/
theorem c43_only_counter_account (srt : List Posting → List Posting) (hs : IsSort srt) (today : Int) (b ref : Book)
    (hr : Reachable srt today b) (hf : Reachable srt today ref) (o1 o2) (ho1 : ∀ l, (o1 l).Perm l) (ho2 : ∀ l, (o2 l).Perm l)
    (dist : Str → Str → Rat) (ra : Str) :
    List.Forall₂ (Reclassified ra dist (ref.transactions srt)) (b.transactions srt)
      (b.reclassify srt o1 o2 dist ra ref).trans ∧
    (∀ t ∈ (b.reclassify srt o1 o2 dist ra ref).trans, Balanced t) ∧
    (b.reclassify srt o1 o2 dist ra ref).post = (b.reclassify srt o1 o2 dist ra ref).trans.flatten := by
  obtain ⟨w, hb⟩ := reachable_wf hs hr
  have hcan : Canonical (ref.transactions srt) := compact_canonical hs (reachable_wf hs hf).1
  refine ⟨?_, ?_, rfl⟩
  · show List.Forall₂ _ _ ((b.transactions srt).map _)
    rw [List.forall₂_map_right_iff]
    generalize b.transactions srt = ts
    induction ts with
    | nil => exact List.Forall₂.nil
    | cons t ts ih => exact List.Forall₂.cons (reclassTxn_spec ho1 ho2 dist ra hcan.oneTxn t) ih
  · exact wf_balanced_trans (reclassify_wf hs w o1 o2 dist ra ref)
      (apply_balanced hs (today := today) (o := .reclassify o1 o2 dist ra ref) w hb rfl)

/-! ## C42 -/

theorem total_zero {P : Posting → Bool} {l : List Posting} (h : ∀ p ∈ l, P p = false) : total P l = 0 := by
  rw [total_congr h, total_false]

/-- Different postings of a transaction are on different accounts or currencies. -/
def DistinctLines (t : Txn) : Prop := t.Pairwise (fun p q => ¬ (p.acct = q.acct ∧ p.ccy = q.ccy))

theorem entry_in_txn {t : Txn} (hd : DistinctLines t) (hg : ∀ p ∈ t, ∀ q ∈ t, p.date = q.date ∧ p.payee = q.payee)
    {p : Posting} (hp : p ∈ t) : entryTotal p.date p.payee p.acct p.ccy t = p.val := by
  obtain ⟨pre, post, e⟩ := List.append_of_mem hp
  subst e
  unfold DistinctLines at hd
  rw [List.pairwise_append, List.pairwise_cons] at hd
  unfold entryTotal
  rw [total_append, total_cons, total_zero (l := pre), total_zero (l := post)]
  · simp
  · intro q hq
    have := hd.2.1.1 q hq
    simp only [decide_eq_false_iff_not]
    rintro ⟨_, _, h1, h2⟩; exact this ⟨h1.symm, h2.symm⟩
  · intro q hq
    have := hd.2.2 q hq p (by simp)
    simp only [decide_eq_false_iff_not]
    rintro ⟨_, _, h1, h2⟩; exact this ⟨h1, h2⟩

theorem entry_in_txns {ts : List Txn} (ho : Ordered ts) {t : Txn} (ht : t ∈ ts) {p : Posting} (hp : p ∈ t) (a c : Str) :
    entryTotal p.date p.payee a c ts.flatten = entryTotal p.date p.payee a c t := by
  obtain ⟨pre, post, e⟩ := List.append_of_mem ht
  subst e
  have h2 := ho.2
  rw [List.pairwise_append, List.pairwise_cons] at h2
  unfold entryTotal
  rw [List.flatten_append, List.flatten_cons, total_append, total_append, total_zero (l := pre.flatten),
    total_zero (l := post.flatten)]
  · simp
  · intro q hq
    obtain ⟨u, hu, hqu⟩ := List.mem_flatten.1 hq
    have := h2.2.1.1 u hu p hp q hqu
    simp only [decide_eq_false_iff_not]
    rintro ⟨h3, h4, _⟩; exact txnBefore_irrefl this ⟨h3, h4⟩
  · intro q hq
    obtain ⟨u, hu, hqu⟩ := List.mem_flatten.1 hq
    have := h2.2.2 u hu t (by simp) q hqu p hp
    simp only [decide_eq_false_iff_not]
    rintro ⟨h3, h4, _⟩; exact txnBefore_irrefl this ⟨h3.symm, h4.symm⟩

/-- An amount filed under a date and payee makes the transaction appear. -/
theorem hasTxn_of_entry {srt} (hs : IsSort srt) {b : Book} (w : b.WF) {d : Int} {py a c : Str}
    (h : entryTotal d py a c b.post ≠ 0) : hasTxn (b.transactions srt) d py = true := by
  have h2 : entryTotal d py a c (reported srt b) = entryTotal d py a c b.post :=
    total_reported hs (keyFun_of fun d' py' a' c' => decide (d' = d ∧ py' = py ∧ a' = a ∧ c' = c)) w
  rw [← h2] at h
  by_contra hn
  apply h
  apply total_zero
  intro p hp
  obtain ⟨t, ht, hpt⟩ := List.mem_flatten.1 hp
  simp only [decide_eq_false_iff_not]
  rintro ⟨h1, h2, _⟩
  exact hn (hasTxn_iff.2 ⟨t, ht, p, hpt, h1, h2⟩)

theorem entry_of_hasTxn {srt} (hs : IsSort srt) {b : Book} (w : b.WF) {d : Int} {py : Str}
    (h : hasTxn (b.transactions srt) d py = true) : ∃ a c, entryTotal d py a c b.post ≠ 0 := by
  obtain ⟨t, ht, p, hp, rfl, rfl⟩ := hasTxn_iff.1 h
  have hcan : Canonical (b.transactions srt) := compact_canonical hs w
  refine ⟨p.acct, p.ccy, ?_⟩
  have h2 : entryTotal p.date p.payee p.acct p.ccy (reported srt b) = entryTotal p.date p.payee p.acct p.ccy b.post :=
    total_reported hs (keyFun_of fun d' py' a' c' => decide (d' = p.date ∧ py' = p.payee ∧ a' = p.acct ∧ c' = p.ccy)) w
  rw [← h2]
  have hd : DistinctLines t := (hcan.postOrder t ht).imp (by
    rintro x y (h | h) ⟨e1, e2⟩
    · rw [e1] at h; exact lt_irrefl _ h
    · rw [e2] at h; exact lt_irrefl _ h.2)
  have := entry_in_txns (ordered_transactions hs w) ht hp p.acct p.ccy
  unfold reported
  rw [this, entry_in_txn hd (hcan.oneTxn t ht) hp]
  exact hcan.nonzero t ht p hp

/-- A balanced two-posting transaction of a canonical book is in one currency, between two accounts. -/
theorem canonical_pair {x y : Posting} (hb : Balanced [x, y]) (hd : x.date = y.date ∧ x.payee = y.payee) (ho : PostBefore x y)
    (hx : x.val ≠ 0) : x.ccy = y.ccy ∧ x.acct ≠ y.acct := by
  have h := hb x.date x.payee x.ccy
  unfold txnTotal at h
  rw [total_cons, total_cons, total_nil] at h
  have hc : x.ccy = y.ccy := by
    by_contra hne
    rw [if_pos (by simp), if_neg (by simp only [decide_eq_true_eq, not_and]; intro _ _ e; exact hne e.symm)] at h
    apply hx; linarith
  refine ⟨hc, fun e => ?_⟩
  rcases ho with h | h
  · rw [e] at h; exact lt_irrefl _ h
  · rw [hc] at h; exact lt_irrefl _ h.2

theorem counter_ne {ra a : Str} {t : Txn} (hb : Balanced t) (hd : ∀ p ∈ t, ∀ q ∈ t, p.date = q.date ∧ p.payee = q.payee)
    (ho : t.Pairwise PostBefore) (hx : ∀ p ∈ t, p.val ≠ 0) (h : CounterIn ra a t) : a ≠ ra := by
  obtain ⟨x, y, rfl, h⟩ := h
  have := (canonical_pair hb (hd x (by simp) y (by simp)) (by simpa using ho) (hx x (by simp))).2
  rcases h with ⟨h1, h2⟩ | ⟨h1, h2, h3⟩
  · rw [← h1, ← h2]; exact this.symm
  · rw [← h3]; exact h1

theorem canonical_distinct {ts : List Txn} (h : Canonical ts) {t : Txn} (ht : t ∈ ts) : DistinctLines t :=
  (h.postOrder t ht).imp (by
    rintro x y (h | h) ⟨e1, e2⟩
    · rw [e1] at h; exact lt_irrefl _ h
    · rw [e2] at h; exact lt_irrefl _ h.2)

/-- Reclassifying never makes two postings of a transaction fall together. -/
theorem reclassified_distinct {ra : Str} {dist} {ref : List Txn} (hc : Canonical ref) (hb : ∀ t ∈ ref, Balanced t)
    {t t' : Txn} (hd : DistinctLines t) (hz : ∀ p ∈ t, p.val ≠ 0) (h : Reclassified ra dist ref t t') :
    DistinctLines t' ∧ ∀ p ∈ t', p.val ≠ 0 := by
  rcases h with ⟨_, rfl⟩ | ⟨x, y, rfl, hxy, h⟩
  · exact ⟨hd, hz⟩
  · rcases h with ⟨_, rfl⟩ | ⟨py, a, ⟨u, hu, hcu, _⟩, _, _, h⟩
    · exact ⟨hd, hz⟩
    · have hne := counter_ne (hb u hu) (hc.oneTxn u hu) (hc.postOrder u hu) (hc.nonzero u hu) hcu
      rcases h with ⟨h1, rfl⟩ | ⟨h1, rfl⟩
      · refine ⟨?_, ?_⟩
        · simp only [DistinctLines, List.pairwise_cons, List.mem_singleton, forall_eq, List.not_mem_nil, false_imp_iff, implies_true,
            List.Pairwise.nil, and_true]
          rintro ⟨e, _⟩; exact hne (by rw [← e, h1])
        · intro p hp
          simp only [List.mem_cons, List.not_mem_nil, or_false] at hp
          rcases hp with rfl | rfl
          · exact hz _ (by simp)
          · exact hz y (by simp)
      · refine ⟨?_, ?_⟩
        · simp only [DistinctLines, List.pairwise_cons, List.mem_singleton, forall_eq, List.not_mem_nil, false_imp_iff, implies_true,
            List.Pairwise.nil, and_true]
          rintro ⟨e, _⟩
          exact hne (by rw [e]; exact hxy.resolve_left h1)
        · intro p hp
          simp only [List.mem_cons, List.not_mem_nil, or_false] at hp
          rcases hp with rfl | rfl
          · exact hz x (by simp)
          · exact hz _ (by simp)

/-- The orders of a reclassification are reorderings. -/
def Reclass.Valid (r : Reclass) : Prop := (∀ l, (r.o1 l).Perm l) ∧ ∀ l, (r.o2 l).Perm l

/-- Every transaction of an imported (freshly built) book that is not removed is reported. -/
theorem importOne_emits {srt} (hs : IsSort srt) (dedup : Bool) (rc : Option Reclass) (hrc : ∀ r, rc = some r → r.Valid)
    {main : Book} (wm : main.WF) (bm : Balanced main.post) {prev : List Book} (wp : ∀ p ∈ prev, p.WF) {b : Book} (w : b.WF)
    (hcan : Canonical b.trans) {d : Int} {py : Str} (h : hasTxn b.trans d py = true) :
    (hasTxn (main.transactions srt) d py = true) ∨ (∃ p ∈ prev, hasTxn (p.transactions srt) d py = true) ∨
      hasTxn ((importOne srt dedup rc main prev b).transactions srt) d py = true := by
  by_cases h1 : hasTxn (main.transactions srt) d py = true
  · exact Or.inl h1
  by_cases h2 : ∃ p ∈ prev, hasTxn (p.transactions srt) d py = true
  · exact Or.inr (Or.inl h2)
  right; right
  obtain ⟨wb2, hsub, hk⟩ := import_b2 hs dedup wm wp w
  have h3 := (hk d py).2 ⟨h, fun _ => by simpa using h1, fun p hp => by
    cases hh : hasTxn (p.transactions srt) d py with
    | false => rfl
    | true => exact absurd ⟨p, hp, hh⟩ h2⟩
  have hcan2 := hcan.sublist hsub
  revert wb2 h3 hcan2
  have hio : importOne srt dedup rc main prev b =
      match (generalizing := false) rc with
      | some r => (dedupAll srt (if dedup then b.removeDuplicatesOf srt main else b) prev).reclassify srt r.o1 r.o2 r.dist r.acct main
      | none => dedupAll srt (if dedup then b.removeDuplicatesOf srt main else b) prev := rfl
  rw [hio]
  generalize dedupAll srt (if dedup = true then b.removeDuplicatesOf srt main else b) prev = b2
  intro wb2 h3 hcan2
  have key : ∀ b3 : Book, b3.WF → hasTxn b3.trans d py = true →
      (∀ t ∈ b3.trans, DistinctLines t ∧ ∀ p ∈ t, p.val ≠ 0) → hasTxn (b3.transactions srt) d py = true := by
    intro b3 w3 hh hd
    obtain ⟨t, ht, p, hp, rfl, rfl⟩ := hasTxn_iff.1 hh
    apply hasTxn_of_entry hs w3 (a := p.acct) (c := p.ccy)
    rw [← w3.index, entry_in_txns (ordered_trans w3) ht hp, entry_in_txn (hd t ht).1 (w3.groups t ht).2 hp]
    exact (hd t ht).2 p hp
  have k2 := key b2 wb2 h3 (fun t ht => ⟨canonical_distinct hcan2 ht, hcan2.nonzero t ht⟩)
  cases rc with
  | none => exact k2
  | some r =>
    apply key _ (reclassify_wf hs wb2 _ _ _ _ _)
    · show hasTxn ((b2.transactions srt).map _) d py = true
      rw [hasTxn_map (fun t => reclassTxn_map _ (fun _ _ => rfl) _ _ _ _ t)]
      exact k2
    · intro t ht
      obtain ⟨u, hu, e⟩ := List.mem_map.1 (show t ∈ (b2.transactions srt).map _ from ht)
      have hcr : Canonical (main.transactions srt) := compact_canonical hs wm
      have hcu : Canonical (b2.transactions srt) := compact_canonical hs wb2
      have hbr : ∀ t ∈ main.transactions srt, Balanced t :=
        wf_balanced_trans (compact_wf hs wm.plain wm.nil_trans) (compact_balanced hs bm)
      have := reclassTxn_spec (hrc r rfl).1 (hrc r rfl).2 r.dist r.acct hcr.oneTxn u
      rw [e] at this
      exact reclassified_distinct hcr hbr (canonical_distinct hcu hu) (hcu.nonzero u hu) this

theorem importRun_emits {srt} (hs : IsSort srt) (dedup : Bool) (rc : Option Reclass) (hrc : ∀ r, rc = some r → r.Valid)
    {main : Book} (wm : main.WF) (bm : Balanced main.post) (bs : List Book) : ∀ prev : List Book, (∀ p ∈ prev, p.WF) →
    (∀ b ∈ bs, b.WF ∧ Canonical b.trans) → ∀ b ∈ bs, ∀ d py, hasTxn b.trans d py = true →
    hasTxn (main.transactions srt) d py = true ∨ (∃ p ∈ prev, hasTxn (p.transactions srt) d py = true) ∨
      ∃ out ∈ importRun srt dedup rc main prev bs, hasTxn out d py = true := by
  induction bs with
  | nil => intro prev _ _ b hb; cases hb
  | cons b0 bs ih =>
    intro prev wp wb b hb d py h
    obtain ⟨w0, c0⟩ := wb b0 (by simp)
    unfold importRun
    rcases List.mem_cons.1 hb with e | e
    · subst e
      rcases importOne_emits hs dedup rc hrc wm bm wp w0 c0 h with h1 | h1 | h1
      · exact Or.inl h1
      · exact Or.inr (Or.inl h1)
      · exact Or.inr (Or.inr ⟨_, by simp, h1⟩)
    · rcases ih (prev ++ [importOne srt dedup rc main prev b0])
        (by intro p hp
            rcases List.mem_append.1 hp with hp | hp
            · exact wp p hp
            · rw [List.mem_singleton.1 hp]; exact importOne_wf hs dedup rc wm wp w0)
        (fun x hx => wb x (by simp [hx])) b e d py h with h1 | ⟨p, hp, h1⟩ | ⟨out, ho, h1⟩
      · exact Or.inl h1
      · rcases List.mem_append.1 hp with hp | hp
        · exact Or.inr (Or.inl ⟨p, hp, h1⟩)
        · rw [List.mem_singleton.1 hp] at h1; exact Or.inr (Or.inr ⟨_, by simp, h1⟩)
      · exact Or.inr (Or.inr ⟨out, by simp [ho], h1⟩)

/-- A book as an import script leaves it: built, not changed since. -/
def Built (srt : List Posting → List Posting) (cs : List Call) (b : Book) : Prop :=
  ∃ bb, Builder.new.calls cs = some bb ∧ bb.build srt = some b

theorem Built.wf {srt} (hs : IsSort srt) {cs : List Call} {b : Book} (h : Built srt cs b) : b.WF ∧ Balanced b.post :=
  let ⟨_, h1, h2⟩ := h; built_balanced hs h1 h2

theorem Built.reachable {srt} {cs : List Call} {b : Book} (h : Built srt cs b) (today : Int) : Reachable srt today b := by
  obtain ⟨bb, h1, h2⟩ := h
  exact ⟨cs, bb, b, [], h1, h2, rfl⟩

theorem Built.canonical {srt} (hs : IsSort srt) {cs : List Call} {b : Book} (h : Built srt cs b) : Canonical b.trans := by
  obtain ⟨bb, h1, h2⟩ := id h
  have w := (Built.wf hs h).1
  unfold Builder.build at h2
  cases hc : bb.checkAndClear with
  | none => rw [hc] at h2; cases h2
  | some b1 =>
    rw [hc] at h2
    simp only [Option.some.injEq] at h2
    unfold Book.compact at h2
    split at h2
    · rename_i h0
      have h0 : b1.post = [] := h0
      have : b.trans = [] := w.nil_trans (by rw [← h2]; exact h0)
      rw [this]; exact ⟨by simp, by simp, by simp, by simp, by simp⟩
    · have hw := w
      rw [hw.trans_eq]
      have hp : b.post = compactPost srt b1.post := by rw [← h2]
      rw [hp]
      obtain ⟨closed, op, hi⟩ := calls_inv cs Builder.new bb [] []
        ⟨rfl, balanced_nil, by simp, by intro c; rfl, by simp [Builder.new], by simp [Builder.new]⟩ h1
      have hpl : ∀ p ∈ b1.post, Plain p := by rw [(buildInv_close hi hc).2.1]; exact hi.plain
      exact groupTxns_canonical (compactPost_strict hs hpl) (compactPost_nonzero _)

/-- C42 (core): let `main'` be any ledger in which every date and payee of `main` and of the
transactions emitted by the first run still occurs.  Then importing the same files again, with
deduplication, emits nothing. -/
theorem c42_reimport_emits_nothing (srt : List Posting → List Posting) (hs : IsSort srt) (today : Int)
    (dedup : Bool) (rc rc' : Option Reclass) (hrc : ∀ r, rc = some r → r.Valid) (main main' : Book) (bs : List Book)
    (hm : Reachable srt today main) (hm' : Reachable srt today main') (hb : ∀ b ∈ bs, ∃ cs, Built srt cs b)
    (happ : ∀ d py, (hasTxn (main.transactions srt) d py = true ∨
      ∃ out ∈ importRun srt dedup rc main [] bs, hasTxn out d py = true) → hasTxn (main'.transactions srt) d py = true) :
    ∀ out ∈ importRun srt true rc' main' [] bs, out = [] := by
  have wb : ∀ b ∈ bs, b.WF ∧ Canonical b.trans := fun b h => by
    obtain ⟨cs, hc⟩ := hb b h; exact ⟨(Built.wf hs hc).1, Built.canonical hs hc⟩
  obtain ⟨w, bal⟩ := reachable_wf hs hm
  have w' := (reachable_wf hs hm').1
  have hall : ∀ b ∈ bs, ∀ d py, hasTxn b.trans d py = true → hasTxn (main'.transactions srt) d py = true := by
    intro b hbm d py h
    rcases importRun_emits hs dedup rc hrc w bal bs [] (by simp) wb b hbm d py h with h1 | ⟨p, hp, _⟩ | h1
    · exact happ d py (Or.inl h1)
    · cases hp
    · exact happ d py (Or.inr h1)
  have key : ∀ (bs : List Book), (∀ b ∈ bs, b.WF ∧ ∀ d py, hasTxn b.trans d py = true → hasTxn (main'.transactions srt) d py = true) →
      ∀ prev : List Book, (∀ p ∈ prev, p.WF) → ∀ out ∈ importRun srt true rc' main' prev bs, out = [] := by
    intro bs
    induction bs with
    | nil => intro _ prev _ out ho; cases ho
    | cons b bs ih =>
      intro hbs prev wp out ho
      obtain ⟨wb0, hb0⟩ := hbs b (by simp)
      have w1 := importOne_wf hs true rc' w' wp wb0
      unfold importRun at ho
      rcases List.mem_cons.1 ho with e | e
      · have hc : Canonical out := by rw [e]; exact compact_canonical hs w1
        cases out with
        | nil => rfl
        | cons t ts =>
          exfalso
          obtain ⟨p, ps, rfl⟩ := List.exists_cons_of_ne_nil (hc.nonempty t (by simp))
          have h1 : hasTxn ((importOne srt true rc' main' prev b).transactions srt) p.date p.payee = true := by
            have e : (importOne srt true rc' main' prev b).transactions srt = (p :: ps) :: ts := e.symm
            rw [e]; exact hasTxn_iff.2 ⟨p :: ps, by simp, p, by simp, rfl, rfl⟩
          obtain ⟨k1, k2, _⟩ := importOne_keys hs true rc' w' wp wb0 (hasTxn_reported hs w1 h1)
          rw [hb0 _ _ k1] at k2
          exact absurd (k2 rfl) (by simp)
      · exact ih (fun x hx => hbs x (by simp [hx])) _
          (by intro p hp
              rcases List.mem_append.1 hp with hp | hp
              · exact wp p hp
              · rw [List.mem_singleton.1 hp]; exact w1) out e
  exact key bs (fun b h => ⟨(wb b h).1, hall b h⟩) [] (by simp)

end Verif
