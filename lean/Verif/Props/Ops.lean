import Verif.Props.Compact

/-! # C08–C12, C14, C16: book operations -/

namespace Verif
open Spec

/-- Predicates on date, payee, account and currency. -/
theorem keyFun_of (P : Int → Str → Str → Str → Bool) :
    KeyFun (fun p : Posting => P p.date p.payee p.acct p.ccy) := by
  intro p q hpq
  obtain ⟨h1, h2, h3, h4⟩ := key_eq_iff.1 hpq
  simp only [h1, h2, h3, h4]

theorem keyFun_ofR (P : Int → Str → Str → Str → Rat) :
    KeyFun (fun p : Posting => P p.date p.payee p.acct p.ccy) := by
  intro p q hpq
  obtain ⟨h1, h2, h3, h4⟩ := key_eq_iff.1 hpq
  simp only [h1, h2, h3, h4]

theorem total_map_val {f : Posting → Posting} (hf : ∀ p, (f p).val = p.val) (P : Posting → Bool) (l : List Posting) :
    total P (l.map f) = total (fun p => P (f p)) l := by
  induction l with
  | nil => rfl
  | cons p l ih => rw [List.map_cons, total_cons, total_cons, ih, hf]

/-- One operation that ends in a compaction: totals of the reported book. -/
theorem total_reported_compact {srt} (hs : IsSort srt) {b : Book}
    (hp : ∀ p ∈ b.post, Plain p) (ht : b.post = [] → b.trans = [])
    (P : Int → Str → Str → Str → Bool) :
    total (fun p => P p.date p.payee p.acct p.ccy) (reported srt (b.compact srt)) =
      total (fun p => P p.date p.payee p.acct p.ccy) b.post := by
  rw [total_reported hs (keyFun_of P) (compact_wf hs hp ht), total_compact hs (keyFun_of P)]

/-! ## C08 -/

/-- C08: double entry.  In every reachable book, whatever operations were applied, every
transaction nets to zero in every currency, and so does the whole book.  (`AdjustBy` may
panic; then there is no resulting book.) -/
theorem c08_double_entry (srt : List Posting → List Posting) (hs : IsSort srt) (today : Int) (b : Book)
    (hr : Reachable srt today b) :
    Balanced (reported srt b) ∧ (∀ t ∈ b.transactions srt, Balanced t) ∧ ∀ c, ccyTotal c (reported srt b) = 0 := by
  obtain ⟨w, hb⟩ := reachable_wf hs hr
  have h1 : Balanced (reported srt b) := by
    rw [reported_eq hs w, ← compact_post b (srt_nil hs)]
    exact compact_balanced hs hb
  refine ⟨h1, ?_, ?_⟩
  · have hc := compact_wf hs w.plain w.nil_trans
    apply wf_balanced_trans hc
    rw [compact_post b (srt_nil hs), ← reported_eq hs w]
    exact h1
  · intro c
    have := balanced_wsum h1 (fun _ _ c' => if c' = c then 1 else 0)
    unfold ccyTotal
    rw [total_eq_wsum]
    simpa using this

/-- C08, started from any balanced book rather than from a builder: the invariant is kept by
every operation sequence. -/
theorem c08_balanced_preserved (srt : List Posting → List Posting) (hs : IsSort srt) (today : Int) (b b' : Book)
    (ops : List Op) (hr : Reachable srt today b) (h : applyOps srt today ops b = some b') :
    Balanced b'.post :=
  applyOps_balanced hs (reachable_wf hs hr).1 (reachable_wf hs hr).2 h

/-- Non-vacuity: a long operation sequence on the demo book runs. -/
example : (applyOps insSort 20200202
    [.mapAccount (fun a => if a = b!"Inc" then b!"Cash" else a), .adjustPost (fun a => a == b!"Cash") (fun _ => b!"Save") (1/3),
     .mapAmount (fun _ _ => (2, b!"GBP")), .depreciate (fun a => a == b!"Exp:Food") (fun _ => b!"Asset") b!"monthly" 3,
     .since 20200201, .splitBy b!"yearly"] demoBook).isSome = true := by decide +kernel

/-! ## C09 -/

theorem reachable_filter {srt today} {b : Book} (hr : Reachable srt today b) (o : Op) {b' : Book}
    (h : o.apply srt today b = some b') : Reachable srt today b' := by
  obtain ⟨cs, bb, b0, ops, h1, h2, h3⟩ := hr
  refine ⟨cs, bb, b0, ops ++ [o], h1, h2, ?_⟩
  have : ∀ (ops : List Op) (b0 : Book), applyOps srt today ops b0 = some b →
      applyOps srt today (ops ++ [o]) b0 = some b' := by
    intro ops
    induction ops with
    | nil => intro b0 h0; cases h0; simp [applyOps, h]
    | cons o' os ih =>
      intro b0 h0
      simp only [applyOps, List.cons_append] at h0 ⊢
      cases hc : o'.apply srt today b0 with
      | none => rw [hc] at h0; cases h0
      | some b1 => rw [hc] at h0; simp only at h0 ⊢; exact ih b1 h0
  exact this ops b0 h3

private theorem filter_key {b : Book} (w : b.WF) (K : Int → Bool) :
    (b.trans.filter fun t => match t with | [] => false | p :: _ => K p.date) =
      b.trans.filter (fun t => t.all fun p => K p.date) := by
  apply List.filter_congr
  intro t ht
  have hg := w.groups t ht
  cases t with
  | nil => exact absurd rfl hg.1
  | cons p t =>
    have : ∀ q ∈ p :: t, K q.date = K p.date := fun q hq => by rw [(hg.2 q hq p (by simp)).1]
    cases hk : K p.date with
    | false => simp [hk]
    | true =>
      have h1 : ((p :: t).all fun p => K p.date) = true := by
        rw [List.all_eq_true]; intro q hq; rw [this q hq, hk]
      rw [h1]; exact hk

/-- A filter on dates, as the user sees it: the lines reported afterwards are the lines
reported before, restricted to the dates. -/
private theorem filter_dates_lines {srt} (hs : IsSort srt) {b b' : Book} (w : b.WF) (w' : b'.WF) (K : Int → Bool)
    (hpost : b'.post = b.post.filter (fun p => K p.date)) :
    (b'.transactions srt).map (·.map line) =
      ((b.transactions srt).filter (fun t => t.all fun p => K p.date)).map (·.map line) := by
  have wc := compact_wf hs w.plain w.nil_trans
  have hfl : ((b.transactions srt).filter (fun t => t.all fun p => K p.date)).flatten =
      (reported srt b).filter (fun p => K p.date) := by
    unfold reported
    have hg : ∀ t ∈ b.transactions srt, IsGroup t := wc.groups
    generalize b.transactions srt = ts at hg
    induction ts with
    | nil => rfl
    | cons t ts ih =>
      rw [List.flatten_cons, List.filter_append, ← ih (fun u hu => hg u (by simp [hu]))]
      obtain ⟨p, t', rfl⟩ := List.exists_cons_of_ne_nil (hg t (by simp)).1
      have hgt := (hg (p :: t') (by simp)).2
      have : ∀ q ∈ p :: t', K q.date = K p.date := fun q hq => by rw [(hgt q hq p (by simp)).1]
      cases hk : K p.date with
      | false =>
        have h1 : ((p :: t').all fun p => K p.date) = false := by simp [hk]
        have h2 : (p :: t').filter (fun p => K p.date) = [] := by
          rw [List.filter_eq_nil_iff]; intro q hq; rw [this q hq, hk]; simp
        rw [List.filter_cons, h1, h2]; simp
      | true =>
        have h1 : ((p :: t').all fun p => K p.date) = true := by
          rw [List.all_eq_true]; intro q hq; rw [this q hq, hk]
        have h2 : (p :: t').filter (fun p => K p.date) = p :: t' := by
          rw [List.filter_eq_self]; intro q hq; rw [this q hq, hk]
        rw [List.filter_cons, h1, h2]; simp
  have hsub : ((b.transactions srt).filter (fun t => t.all fun p => K p.date)).Sublist (b.transactions srt) :=
    List.filter_sublist
  have hcan : Canonical (b.transactions srt) := compact_canonical hs w
  have hcanf := hcan.sublist hsub
  rw [transactions_eq hs w', ← groupTxns_of_groups (ts := (b.transactions srt).filter _)
    (fun t ht => ⟨hcanf.nonempty t ht, hcanf.oneTxn t ht⟩) hcanf.txnOrder]
  apply groupTxns_map
  · intro p q e; simp only [line, Line.mk.injEq] at e; exact ⟨e.1, e.2.1⟩
  have hu := canonical_unique (compactPost_strict hs w'.plain)
    (canonical_flatten_strict hcanf) (compactPost_nonzero b'.post) (canonical_flatten_nonzero hcanf) (by
      intro k
      rw [total_compactPost hs (keyFun_key k), hfl, hpost, total_filter, total_filter]
      have hkf : KeyFun (fun p : Posting => K p.date && decide (key p = k)) := by
        intro p q hpq
        have := (key_eq_iff.1 hpq).1
        simp [this, hpq]
      rw [total_reported hs hkf w])
  have := congrArg (List.map (fun x : Key × Rat => (⟨x.1.1, x.1.2.1, x.1.2.2.1, x.1.2.2.2, x.2⟩ : Line))) hu
  rw [List.map_map, List.map_map] at this
  exact this

private theorem flatten_filter_all {ts : List Txn} (hg : ∀ t ∈ ts, IsGroup t) (K : Int → Bool) :
    (ts.filter (fun t => t.all fun p => K p.date)).flatten = ts.flatten.filter (fun p => K p.date) := by
  induction ts with
  | nil => rfl
  | cons t ts ih =>
    rw [List.flatten_cons, List.filter_append, ← ih (fun u hu => hg u (by simp [hu]))]
    obtain ⟨p, t', rfl⟩ := List.exists_cons_of_ne_nil (hg t (by simp)).1
    have hgt := (hg (p :: t') (by simp)).2
    have : ∀ q ∈ p :: t', K q.date = K p.date := fun q hq => by rw [(hgt q hq p (by simp)).1]
    cases hk : K p.date with
    | false =>
      have h1 : ((p :: t').all fun p => K p.date) = false := by simp [hk]
      have h2 : (p :: t').filter (fun p => K p.date) = [] := by
        rw [List.filter_eq_nil_iff]; intro q hq; rw [this q hq, hk]; simp
      rw [List.filter_cons, h1, h2]; simp
    | true =>
      have h1 : ((p :: t').all fun p => K p.date) = true := by
        rw [List.all_eq_true]; intro q hq; rw [this q hq, hk]
      have h2 : (p :: t').filter (fun p => K p.date) = p :: t' := by
        rw [List.filter_eq_self]; intro q hq; rw [this q hq, hk]
      rw [List.filter_cons, h1, h2]; simp

theorem filterTransaction_dates {b : Book} (w : b.WF) (K : Int → Bool) :
    b.filterTransaction (fun d _ _ => K d) =
      { b with post := b.post.filter (fun p => K p.date), trans := b.trans.filter (fun t => t.all fun p => K p.date) } := by
  have h1 : (b.filterTransaction (fun d _ _ => K d)).trans = b.trans.filter (fun t => t.all fun p => K p.date) :=
    filter_key w K
  have h2 : (b.filterTransaction (fun d _ _ => K d)).post = b.post.filter (fun p => K p.date) := by
    rw [← w.index, ← flatten_filter_all w.groups, ← h1]; rfl
  rw [← h1, ← h2]; rfl

/-- C09: `FilterByDateSince(d)` (d ≠ 0) keeps exactly the transactions dated d or later, with
the same lines in the same order. -/
theorem c09_since (srt : List Posting → List Posting) (hs : IsSort srt) (today : Int) (b : Book)
    (hr : Reachable srt today b) (d : Int) (hd : d ≠ 0) :
    ((b.filterByDateSince d).transactions srt).map (·.map line) =
      ((b.transactions srt).filter (fun t => t.all fun p => decide (d ≤ p.date))).map (·.map line) := by
  have w := (reachable_wf hs hr).1
  have w' := (reachable_wf hs (reachable_filter hr (.since d) rfl)).1
  apply filter_dates_lines hs w w' (fun x => decide (d ≤ x))
  unfold Book.filterByDateSince
  rw [if_neg hd, filterTransaction_dates w (fun x => decide (x ≥ d))]

/-- C09: `FilterByDateAsof(d)` (d ≠ 0) keeps exactly the transactions dated before d. -/
theorem c09_asof (srt : List Posting → List Posting) (hs : IsSort srt) (today : Int) (b : Book)
    (hr : Reachable srt today b) (d : Int) (hd : d ≠ 0) :
    ((b.filterByDateAsof d).transactions srt).map (·.map line) =
      ((b.transactions srt).filter (fun t => t.all fun p => decide (p.date < d))).map (·.map line) := by
  have w := (reachable_wf hs hr).1
  have w' := (reachable_wf hs (reachable_filter hr (.asof d) rfl)).1
  apply filter_dates_lines hs w w' (fun x => decide (x < d))
  unfold Book.filterByDateAsof
  rw [if_neg hd, filterTransaction_dates w (fun x => decide (x < d))]

/-- C09: the postings themselves (notes included) are exactly those with the right date. -/
theorem c09_postings_unchanged (srt : List Posting → List Posting) (hs : IsSort srt) (today : Int) (b : Book)
    (hr : Reachable srt today b) (d : Int) (hd : d ≠ 0) :
    (b.filterByDateSince d).post = b.post.filter (fun p => decide (d ≤ p.date)) ∧
    (b.filterByDateAsof d).post = b.post.filter (fun p => decide (p.date < d)) := by
  have w := (reachable_wf hs hr).1
  unfold Book.filterByDateSince Book.filterByDateAsof
  rw [if_neg hd, if_neg hd, filterTransaction_dates w (fun x => decide (x ≥ d)), filterTransaction_dates w (fun x => decide (x < d))]
  exact ⟨rfl, rfl⟩

/-- C09: date 0 filters nothing. -/
theorem c09_zero (b : Book) : b.filterByDateSince 0 = b ∧ b.filterByDateAsof 0 = b := by
  simp [Book.filterByDateSince, Book.filterByDateAsof]

/-- C09: `asof d` and `since d` partition the book: the first part, then the second. -/
theorem c09_partition (srt : List Posting → List Posting) (hs : IsSort srt) (today : Int) (b : Book)
    (hr : Reachable srt today b) (d : Int) (hd : d ≠ 0) :
    (b.filterByDateAsof d).trans ++ (b.filterByDateSince d).trans = b.trans ∧
    (b.filterByDateAsof d).post ++ (b.filterByDateSince d).post = b.post := by
  have w := (reachable_wf hs hr).1
  have w1 := (reachable_wf hs (reachable_filter hr (.asof d) rfl)).1
  have w2 := (reachable_wf hs (reachable_filter hr (.since d) rfl)).1
  have key : ∀ ts : List Txn, (∀ t ∈ ts, IsGroup t) →
      ts.Pairwise (fun t u => ∀ p ∈ t, ∀ q ∈ u, TxnBefore p q) →
      ts.filter (fun t => t.all fun p => decide (p.date < d)) ++ ts.filter (fun t => t.all fun p => decide (p.date ≥ d)) = ts := by
    intro ts hg ho
    induction ts with
    | nil => rfl
    | cons t ts ih =>
      obtain ⟨p, t', rfl⟩ := List.exists_cons_of_ne_nil (hg t (by simp)).1
      obtain ⟨h3, h4⟩ := List.pairwise_cons.1 ho
      have hgt := (hg (p :: t') (by simp)).2
      have hall : ∀ q ∈ p :: t', q.date = p.date := fun q hq => (hgt q hq p (by simp)).1
      by_cases hp : p.date < d
      · have h1 : ((p :: t').all fun p => decide (p.date < d)) = true := by
          rw [List.all_eq_true]; intro q hq; rw [hall q hq]; simpa using hp
        have h2 : ((p :: t').all fun p => decide (p.date ≥ d)) = false := by
          rw [List.all_eq_false]; exact ⟨p, by simp, by simpa using hp⟩
        rw [List.filter_cons, List.filter_cons, h1, h2]
        simp only [if_true, Bool.false_eq_true, if_false, List.cons_append]
        rw [ih (fun u hu => hg u (by simp [hu])) h4]
      · have h1 : ∀ u ∈ (p :: t') :: ts, (u.all fun p => decide (p.date < d)) = false := by
          intro u hu
          have hne := (hg u hu).1
          obtain ⟨q, u', rfl⟩ := List.exists_cons_of_ne_nil hne
          have : p.date ≤ q.date := by
            rcases List.mem_cons.1 hu with e | e
            · simp only [List.cons.injEq] at e; rw [e.1]
            · rcases h3 _ e p (by simp) q (by simp) with h | ⟨h, _⟩ <;> omega
          rw [List.all_eq_false]
          exact ⟨q, by simp, by simp; omega⟩
        have h2 : ∀ u ∈ (p :: t') :: ts, (u.all fun p => decide (p.date ≥ d)) = true := by
          intro u hu
          rw [List.all_eq_true]
          intro q hq
          have : p.date ≤ q.date := by
            rcases List.mem_cons.1 hu with e | e
            · rw [hall q (by rw [← e]; exact hq)]
            · rcases h3 _ e p (by simp) q hq with h | ⟨h, _⟩ <;> omega
          simp; omega
        have e1 : List.filter (fun t => t.all fun p => decide (p.date < d)) ((p :: t') :: ts) = [] := by
          rw [List.filter_eq_nil_iff]; intro u hu; rw [h1 u hu]; simp
        have e2 : List.filter (fun t => t.all fun p => decide (p.date ≥ d)) ((p :: t') :: ts) = (p :: t') :: ts := by
          rw [List.filter_eq_self]; exact h2
        rw [e1, e2]; rfl
  have h1 : (b.filterByDateAsof d).trans ++ (b.filterByDateSince d).trans = b.trans := by
    unfold Book.filterByDateSince Book.filterByDateAsof
    rw [if_neg hd, if_neg hd, filterTransaction_dates w (fun x => decide (x ≥ d)),
      filterTransaction_dates w (fun x => decide (x < d))]
    exact key b.trans w.groups w.order
  refine ⟨h1, ?_⟩
  rw [← w1.index, ← w2.index, ← List.flatten_append, h1, w.index]

/-- C09: the two filters commute, and together select the half-open interval. -/
theorem c09_interval (srt : List Posting → List Posting) (hs : IsSort srt) (today : Int) (b : Book)
    (hr : Reachable srt today b) (d e : Int) :
    (b.filterByDateSince d).filterByDateAsof e = (b.filterByDateAsof e).filterByDateSince d ∧
    (d ≠ 0 → e ≠ 0 → ((b.filterByDateSince d).filterByDateAsof e).post =
      b.post.filter (fun p => decide (d ≤ p.date ∧ p.date < e))) := by
  have w := (reachable_wf hs hr).1
  have w1 := (reachable_wf hs (reachable_filter hr (.since d) rfl)).1
  have w2 := (reachable_wf hs (reachable_filter hr (.asof e) rfl)).1
  by_cases hd : d = 0
  · subst hd; simp [Book.filterByDateSince]
  by_cases he : e = 0
  · subst he; simp [Book.filterByDateAsof]
  have ed : b.filterByDateSince d = b.filterTransaction (fun x _ _ => decide (x ≥ d)) := by
    unfold Book.filterByDateSince; rw [if_neg hd]
  have ee : b.filterByDateAsof e = b.filterTransaction (fun x _ _ => decide (x < e)) := by
    unfold Book.filterByDateAsof; rw [if_neg he]
  have l1 : (b.filterByDateSince d).filterByDateAsof e =
      (b.filterByDateSince d).filterTransaction (fun x _ _ => decide (x < e)) := by
    conv => lhs; unfold Book.filterByDateAsof
    rw [if_neg he]
  have l2 : (b.filterByDateAsof e).filterByDateSince d =
      (b.filterByDateAsof e).filterTransaction (fun x _ _ => decide (x ≥ d)) := by
    conv => lhs; unfold Book.filterByDateSince
    rw [if_neg hd]
  rw [l1, l2, filterTransaction_dates w1 (fun x => decide (x < e)), filterTransaction_dates w2 (fun x => decide (x ≥ d)), ed, ee,
    filterTransaction_dates w (fun x => decide (x ≥ d)), filterTransaction_dates w (fun x => decide (x < e))]
  simp only [List.filter_filter]
  refine ⟨?_, fun _ _ => ?_⟩
  · simp only [Bool.and_comm]
  · apply List.filter_congr
    intro p _
    rw [Bool.eq_iff_iff]
    simp [and_comm]

/-! ## C10 -/

/-- C10: after `SplitBy(by)` the total of each period start, account and currency is the total
of the original postings whose date falls into that period (its floor is that date); payees
are empty; account totals are unchanged. -/
theorem c10_splitBy (srt : List Posting → List Posting) (hs : IsSort srt) (today : Int) (b : Book)
    (hr : Reachable srt today b) (by_ : Str) :
    (∀ d a c, entryTotal d [] a c (reported srt (b.splitBy srt today by_)) =
      total (fun p => decide (floorBy today p.date by_ = d ∧ p.acct = a ∧ p.ccy = c)) (reported srt b)) ∧
    (∀ p ∈ reported srt (b.splitBy srt today by_), p.payee = [] ∧ ∃ q ∈ b.post, p.date = floorBy today q.date by_) ∧
    (∀ a c, acctTotal a c (reported srt (b.splitBy srt today by_)) = acctTotal a c (reported srt b)) := by
  have w := (reachable_wf hs hr).1
  have hp : ∀ p ∈ (b.post.map fun p => { p with date := floorBy today p.date by_, payee := ([] : Str) }), Plain p := by
    intro p hp
    obtain ⟨q, hq, rfl⟩ := List.mem_map.1 hp
    exact w.plain q hq
  have ht : (b.post.map fun p => ({ p with date := floorBy today p.date by_, payee := ([] : Str) } : Posting)) = [] → b.trans = [] := by
    intro e; exact w.nil_trans (by simpa using e)
  refine ⟨?_, ?_, ?_⟩
  · intro d a c
    unfold entryTotal
    refine (total_reported_compact hs (b := ⟨_, b.trans, b.prices, b.ccy⟩) hp ht
      (fun d' py a' c' => decide (d' = d ∧ py = [] ∧ a' = a ∧ c' = c))).trans ?_
    rw [total_reported hs (keyFun_of fun d' _ a' c' => decide (floorBy today d' by_ = d ∧ a' = a ∧ c' = c)) w]
    simp only
    rw [total_map_val (by intro p; rfl)]
    simp
  · intro p hpm
    have w' := compact_wf hs (b := ⟨_, b.trans, b.prices, b.ccy⟩) hp ht
    have : p ∈ compactPost srt (compactPost srt (b.post.map fun p => { p with date := floorBy today p.date by_, payee := ([] : Str) })) := by
      have := hpm
      rw [show b.splitBy srt today by_ = Book.compact srt ⟨b.post.map fun p => { p with date := floorBy today p.date by_, payee := ([] : Str) },
        b.trans, b.prices, b.ccy⟩ from rfl, reported_eq hs w', compact_post _ (srt_nil hs)] at this
      exact this
    obtain ⟨q, hq, e1⟩ := compactPost_key_mem hs _ p this
    obtain ⟨r, hr', e2⟩ := compactPost_key_mem hs _ q hq
    obtain ⟨s, hs', rfl⟩ := List.mem_map.1 hr'
    obtain ⟨k1, k2, _⟩ := key_eq_iff.1 (e1.trans e2)
    exact ⟨k2, s, hs', k1⟩
  · intro a c
    unfold acctTotal
    refine (total_reported_compact hs (b := ⟨_, b.trans, b.prices, b.ccy⟩) hp ht
      (fun _ _ a' c' => decide (a' = a ∧ c' = c))).trans ?_
    rw [total_reported hs (keyFun_of fun _ _ a' c' => decide (a' = a ∧ c' = c)) w]
    simp only
    rw [total_map_val (by intro p; rfl)]

/-! ## C11 -/

/-- C11: after `MapAccount(g)` the amount of a transaction in an account and currency is the
sum over the original accounts that map to it; transactions keep their totals. -/
theorem c11_mapAccount (srt : List Posting → List Posting) (hs : IsSort srt) (today : Int) (b : Book)
    (hr : Reachable srt today b) (g : Str → Str) :
    (∀ d py a c, entryTotal d py a c (reported srt (b.mapAccount srt g)) =
      total (fun p => decide (p.date = d ∧ p.payee = py ∧ g p.acct = a ∧ p.ccy = c)) (reported srt b)) ∧
    (∀ d py c, txnTotal d py c (reported srt (b.mapAccount srt g)) = txnTotal d py c (reported srt b)) := by
  have w := (reachable_wf hs hr).1
  have hp : ∀ p ∈ b.post.map (mapAccountPost g), Plain p := by
    intro p hp
    obtain ⟨q, hq, rfl⟩ := List.mem_map.1 hp
    exact ⟨rfl, (w.plain q hq).2⟩
  have ht : b.post.map (mapAccountPost g) = [] → b.trans = [] := by
    intro e; exact w.nil_trans (by simpa using e)
  refine ⟨?_, ?_⟩
  · intro d py a c
    unfold entryTotal
    refine (total_reported_compact hs (b := ⟨_, b.trans, b.prices, b.ccy⟩) hp ht
      (fun d' py' a' c' => decide (d' = d ∧ py' = py ∧ a' = a ∧ c' = c))).trans ?_
    rw [total_reported hs (keyFun_of fun d' py' a' c' => decide (d' = d ∧ py' = py ∧ g a' = a ∧ c' = c)) w]
    simp only
    rw [total_map_val (by intro p; rfl)]
    rfl
  · intro d py c
    unfold txnTotal
    refine (total_reported_compact hs (b := ⟨_, b.trans, b.prices, b.ccy⟩) hp ht
      (fun d' py' _ c' => decide (d' = d ∧ py' = py ∧ c' = c))).trans ?_
    rw [total_reported hs (keyFun_of fun d' py' _ c' => decide (d' = d ∧ py' = py ∧ c' = c)) w]
    simp only
    rw [total_map_val (by intro p; rfl)]
    rfl

/-- C11, `RegexAccounts`: the mapping is: the alternate for a non-matching account if an
alternate is given; otherwise the replacement if one is given; otherwise unchanged. -/
theorem c11_regexAccounts (srt : List Posting → List Posting) (hs : IsSort srt) (today : Int) (b : Book)
    (hr : Reachable srt today b) (mat : Str → Bool) (rep : Str → Str) (replace alt : Str) (d : Int) (py a c : Str) :
    entryTotal d py a c (reported srt (b.regexAccounts srt mat rep replace alt)) =
      total (fun p => decide (p.date = d ∧ p.payee = py ∧
        (if mat p.acct = false ∧ alt ≠ [] then alt else if replace = [] then p.acct else rep p.acct) = a ∧ p.ccy = c))
        (reported srt b) := by
  refine ((c11_mapAccount srt hs today b hr (regexAccount mat rep replace alt)).1 d py a c).trans ?_
  apply total_congr
  intro p _
  have : regexAccount mat rep replace alt p.acct =
      (if mat p.acct = false ∧ alt ≠ [] then alt else if replace = [] then p.acct else rep p.acct) := by
    unfold regexAccount
    by_cases h1 : alt = [] <;> by_cases h2 : mat p.acct = false <;> by_cases h3 : replace = [] <;> simp [h1, h2, h3]
  rw [this]

/-! ## C12 -/

private theorem total_flatMap {α} (P : Posting → Bool) (l : List α) (g : α → List Posting) :
    total P (l.flatMap g) = (l.map (fun x => total P (g x))).sum := by
  induction l with
  | nil => rfl
  | cons x l ih => rw [List.flatMap_cons, total_append, ih]; simp

/-- C12: `AdjustPost` (move) takes the fraction f of every matching amount away and adds it to
the replacement account of the same transaction and currency. -/
theorem c12_adjustPost (srt : List Posting → List Posting) (hs : IsSort srt) (today : Int) (b : Book)
    (hr : Reachable srt today b) (mat : Str → Bool) (rep : Str → Str) (f : Rat) (d : Int) (py a c : Str) :
    entryTotal d py a c (reported srt (b.adjustPost srt mat rep f)) =
      entryTotal d py a c (reported srt b)
        - f * (if mat a then entryTotal d py a c (reported srt b) else 0)
        + f * total (fun p => decide (p.date = d ∧ p.payee = py ∧ (mat p.acct = true ∧ rep p.acct = a) ∧ p.ccy = c))
            (reported srt b) := by
  have w := (reachable_wf hs hr).1
  have w' := (reachable_wf hs (reachable_filter hr (.adjustPost mat rep f) rfl)).1
  unfold entryTotal
  rw [total_reported hs (keyFun_of fun d' py' a' c' => decide (d' = d ∧ py' = py ∧ a' = a ∧ c' = c)) w',
    total_reported hs (keyFun_of fun d' py' a' c' => decide (d' = d ∧ py' = py ∧ a' = a ∧ c' = c)) w,
    total_reported hs (keyFun_of fun d' py' a' c' => decide (d' = d ∧ py' = py ∧ (mat a' = true ∧ rep a' = a) ∧ c' = c)) w]
  unfold Book.adjustPost
  rw [total_compact hs (keyFun_of fun d' py' a' c' => decide (d' = d ∧ py' = py ∧ a' = a ∧ c' = c))]
  simp only
  rw [total_append, total_flatMap]
  have : ∀ l : List Posting, (l.map fun x => total (fun p => decide (p.date = d ∧ p.payee = py ∧ p.acct = a ∧ p.ccy = c))
      (if mat x.acct = true then [x.byFactor (-f), x.byAcctFactor (rep x.acct) f] else [])).sum =
      - f * (if mat a then total (fun p => decide (p.date = d ∧ p.payee = py ∧ p.acct = a ∧ p.ccy = c)) l else 0)
      + f * total (fun p => decide (p.date = d ∧ p.payee = py ∧ (mat p.acct = true ∧ rep p.acct = a) ∧ p.ccy = c)) l := by
    intro l
    induction l with
    | nil => simp
    | cons p l ih =>
      rw [List.map_cons, List.sum_cons, ih, total_cons, total_cons]
      by_cases hm : mat p.acct = true
      · rw [if_pos hm, total_cons, total_cons, total_nil]
        simp only [Posting.byFactor, Posting.byAcctFactor, Posting.byAcctDateFactor, Posting.dup, hm, true_and]
        by_cases ha : p.acct = a
        · rw [← ha]
          simp only [hm, if_true, true_and]
          by_cases hc : p.date = d ∧ p.payee = py ∧ p.ccy = c
          · obtain ⟨x, y, z⟩ := hc
            by_cases hr' : rep p.acct = p.acct <;> simp [x, y, z, hr'] <;> ring
          · have n1 : ¬ (p.date = d ∧ p.payee = py ∧ p.ccy = c) := hc
            have n2 : ∀ X : Prop, ¬ (p.date = d ∧ p.payee = py ∧ X ∧ p.ccy = c) := fun X h => hc ⟨h.1, h.2.1, h.2.2.2⟩
            simp [n1, n2]
        · simp only [ha, false_and, and_false, decide_false, Bool.false_eq_true, if_false]
          by_cases hc : p.date = d ∧ p.payee = py ∧ rep p.acct = a ∧ p.ccy = c
          · simp [hc]; ring
          · simp [hc]
      · rw [if_neg hm, total_nil]
        simp only [hm, false_and, and_false, decide_false, Bool.false_eq_true, if_false]
        by_cases ha : p.acct = a
        · subst ha; simp [hm]
        · simp only [ha, false_and, and_false, decide_false, Bool.false_eq_true, if_false]
          split_ifs <;> ring
  rw [this]
  ring

/-! ## C14 -/

/-- C14: after `MapAmount(g)` the amount of a transaction in an account and a currency is the
rate-weighted sum of the original amounts whose currency is mapped to it. -/
theorem c14_mapAmount (srt : List Posting → List Posting) (hs : IsSort srt) (today : Int) (b : Book)
    (hr : Reachable srt today b) (g : Int → Str → Rat × Str) (d : Int) (py a c : Str) :
    entryTotal d py a c (reported srt (b.mapAmount g)) =
      weighted (fun p => decide (p.date = d ∧ p.payee = py ∧ p.acct = a ∧ (g p.date p.ccy).2 = c))
        (fun p => (g p.date p.ccy).1) (reported srt b) := by
  have w := (reachable_wf hs hr).1
  have w' := (reachable_wf hs (reachable_filter hr (.mapAmount g) rfl)).1
  have hw : ∀ l : List Posting, weighted (fun p => decide (p.date = d ∧ p.payee = py ∧ p.acct = a ∧ (g p.date p.ccy).2 = c))
      (fun p => (g p.date p.ccy).1) l =
      wsum (fun p => (fun d' py' a' c' => if d' = d ∧ py' = py ∧ a' = a ∧ (g d' c').2 = c then (g d' c').1 else 0)
        p.date p.payee p.acct p.ccy) l := by
    intro l
    induction l with
    | nil => rfl
    | cons p l ih =>
      unfold weighted at ih ⊢
      rw [List.filter_cons, wsum_cons, ← ih]
      by_cases h : p.date = d ∧ p.payee = py ∧ p.acct = a ∧ (g p.date p.ccy).2 = c
      · have h' : decide (p.date = d ∧ p.payee = py ∧ p.acct = a ∧ (g p.date p.ccy).2 = c) = true := by simpa using h
        rw [if_pos h', List.map_cons, List.sum_cons]
        simp only [if_pos h]
      · have h' : decide (p.date = d ∧ p.payee = py ∧ p.acct = a ∧ (g p.date p.ccy).2 = c) = false := by simpa using h
        simp only [h', Bool.false_eq_true, if_false, if_neg h, zero_mul, zero_add]
  rw [hw, wsum_reported hs (keyFun_ofR (fun d' py' a' c' => if d' = d ∧ py' = py ∧ a' = a ∧ (g d' c').2 = c then (g d' c').1 else 0)) w]
  unfold entryTotal
  rw [total_reported hs (keyFun_of fun d' py' a' c' => decide (d' = d ∧ py' = py ∧ a' = a ∧ c' = c)) w']
  show total _ (b.post.map (mapAmountPost g)) = _
  generalize b.post = l
  induction l with
  | nil => rfl
  | cons p l ih =>
    rw [List.map_cons, total_cons, wsum_cons, ih]
    congr 1
    show (if decide (p.date = d ∧ p.payee = py ∧ p.acct = a ∧ (g p.date p.ccy).2 = c) = true
      then p.val * (g p.date p.ccy).1 else 0) =
      (if p.date = d ∧ p.payee = py ∧ p.acct = a ∧ (g p.date p.ccy).2 = c then (g p.date p.ccy).1 else 0) * p.val
    by_cases h : p.date = d ∧ p.payee = py ∧ p.acct = a ∧ (g p.date p.ccy).2 = c
    · rw [if_pos (by simpa using h), if_pos h, mul_comm]
    · rw [if_neg (by simpa using h), if_neg h, zero_mul]

/-- C14, postings of `RegexCCY`: currencies are renamed, totals are kept. -/
theorem c14_regexCCY (srt : List Posting → List Posting) (hs : IsSort srt) (today : Int) (b : Book)
    (hr : Reachable srt today b) (mat : Str → Bool) (rep : Str → Str) (d : Int) (py a c : Str) :
    entryTotal d py a c (reported srt (b.mapAmount (regexCCYMap mat rep))) =
      total (fun p => decide (p.date = d ∧ p.payee = py ∧ p.acct = a ∧ (if mat p.ccy then rep p.ccy else p.ccy) = c))
        (reported srt b) := by
  rw [c14_mapAmount srt hs today b hr]
  unfold weighted total
  have h1 : ∀ p : Posting, (regexCCYMap mat rep p.date p.ccy).1 = 1 := by
    intro p; unfold regexCCYMap; split <;> rfl
  have h2 : ∀ p : Posting, (regexCCYMap mat rep p.date p.ccy).2 = (if mat p.ccy then rep p.ccy else p.ccy) := by
    intro p; unfold regexCCYMap; split <;> rfl
  simp only [h1, h2, one_mul]

/-! ## C16 -/

/-- C16: reading the book, `FilterByAccount(a)`, reading again: exactly the transactions with
a posting to a remain, unchanged (balances are recomputed) and in order. -/
theorem c16_filterByAccount (srt : List Posting → List Posting) (hs : IsSort srt) (today : Int) (b : Book)
    (hr : Reachable srt today b) (a : Str) :
    (((b.compact srt).filterByAccount a).transactions srt).map (·.map noBal) =
      ((b.transactions srt).filter (fun t => decide (∃ p ∈ t, p.acct = a))).map (·.map noBal) := by
  have w := (reachable_wf hs hr).1
  have hr1 := reachable_filter hr .read rfl
  have w1 := (reachable_wf hs hr1).1
  have w2 := (reachable_wf hs (reachable_filter hr1 (.filterByAccount a) rfl)).1
  have hcan := compact_canonical hs w
  have e : ((b.compact srt).filterByAccount a).trans = (b.transactions srt).filter (fun t => decide (∃ p ∈ t, p.acct = a)) := by
    unfold Book.filterByAccount Book.filterTransaction Book.transactions
    apply List.filter_congr
    intro t ht
    cases t with
    | nil => exact absurd rfl (hcan.nonempty _ ht)
    | cons p t =>
      simp only
      rw [Bool.eq_iff_iff]
      simp
  rw [← e]
  apply transactions_of_canonical hs w2
  rw [e]
  exact hcan.sublist List.filter_sublist

/-- C16 for any book and any state of its index: the filter itself keeps exactly the indexed
transactions touching the account. -/
theorem c16_filterByAccount_index (srt : List Posting → List Posting) (hs : IsSort srt) (today : Int) (b : Book)
    (hr : Reachable srt today b) (a : Str) :
    (b.filterByAccount a).trans = b.trans.filter (fun t => decide (∃ p ∈ t, p.acct = a)) ∧
    (b.filterByAccount a).post = (b.trans.filter (fun t => decide (∃ p ∈ t, p.acct = a))).flatten := by
  have w := (reachable_wf hs hr).1
  have e : (b.filterByAccount a).trans = b.trans.filter (fun t => decide (∃ p ∈ t, p.acct = a)) := by
    unfold Book.filterByAccount Book.filterTransaction
    apply List.filter_congr
    intro t ht
    cases t with
    | nil => exact absurd rfl (w.groups _ ht).1
    | cons p t =>
      simp only
      rw [Bool.eq_iff_iff]
      simp
  exact ⟨e, by rw [← e]; rfl⟩

/-! ## Concrete cases -/

example : entryTotal 20200131 b!"shop" b!"Save" b!"USD"
    (reported insSort (demoBook.adjustPost insSort (fun a => a == b!"Cash") (fun _ => b!"Save") (1/2))) = -7/4 := by
  decide +kernel
example : ((demoBook.filterByDateSince 20200131).transactions insSort).length = 2 ∧
    ((demoBook.filterByDateAsof 20200131).transactions insSort).length = 0 := by decide +kernel
example : ((demoBook.filterByAccount b!"Inc").transactions insSort).length = 1 := by decide +kernel
example : entryTotal 20200101 [] b!"Exp:Food" b!"USD" (reported insSort (demoBook.splitBy insSort 0 b!"yearly")) = 7/2 := by
  decide +kernel

end Verif
