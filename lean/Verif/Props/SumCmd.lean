import Verif.Spec.SumCmd
import Verif.Props.Accum
import Verif.Props.Accum4
import Verif.Props.RegisterCmd
import Verif.Props.Commands
import Verif.Props.Import
import Verif.Props.File

/-! # C116: a summary adds up the ledger file -/

namespace Verif
open Spec

theorem wsum_zero {w : Posting → Rat} {l : List Posting} (h : ∀ p ∈ l, w p = 0) : wsum w l = 0 := by
  induction l with
  | nil => rfl
  | cons p l ih => rw [wsum_cons, h p (by simp), ih (fun q hq => h q (by simp [hq]))]; simp

/-- What is counted of one transaction is counted of the book. -/
theorem wsum_in_txns {ts : List Txn} (ho : Ordered ts) {t : Txn} (ht : t ∈ ts) {p : Posting} (hp : p ∈ t) (w : Posting → Rat) :
    wsum (fun q => if q.date = p.date ∧ q.payee = p.payee then w q else 0) ts.flatten = wsum w t := by
  have hg := ho.1 t ht
  obtain ⟨pre, post, e⟩ := List.append_of_mem ht
  subst e
  have h2 := ho.2
  rw [List.pairwise_append, List.pairwise_cons] at h2
  rw [List.flatten_append, List.flatten_cons, wsum_append, wsum_append, wsum_zero (l := pre.flatten), wsum_zero (l := post.flatten), zero_add, add_zero]
  · exact wsum_congr fun q hq => if_pos (hg.2 q hq p hp)
  · intro q hq
    obtain ⟨u, hu, hqu⟩ := List.mem_flatten.1 hq
    have := h2.2.1.1 u hu p hp q hqu
    exact if_neg fun h => txnBefore_irrefl this h
  · intro q hq
    obtain ⟨u, hu, hqu⟩ := List.mem_flatten.1 hq
    have := h2.2.2 u hu t (by simp) q hqu p hp
    exact if_neg fun h => txnBefore_irrefl this ⟨h.1.symm, h.2.symm⟩

theorem treeTotal_wsum (prices : PriceBook) (base div k : Str) (u : Txn) :
    treeTotal prices base div k u =
      wsum (fun p => if AtOrAbove div k p.acct then ((prices.getPrice p.date p.ccy base).map (·.1)).getD 0 else 0) u := by
  unfold treeTotal
  induction u with
  | nil => rfl
  | cons p u ih =>
    rw [wsum_cons, ← ih, List.filter_cons]
    by_cases h : AtOrAbove div k p.acct
    · rw [if_pos (by simpa using h), if_pos h, List.map_cons, List.sum_cons]
      congr 1
      unfold worth
      cases prices.getPrice p.date p.ccy base with
      | none => simp
      | some r => simp [mul_comm]
    · rw [if_neg (by simpa using h), if_neg h]
      simp

theorem shown_prices {e : OpEnv} {a : AppConf} {r : ReportConf} {b fb : Book} (h : shownBook e a r b = .ok fb) : fb.prices = b.prices := by
  unfold shownBook at h
  split at h
  · cases h; rfl
  · have hcv := convertCmd_ok h
    have h1 : (if r.combineby ≠ b!"skip" then b.splitBy e.srt e.today r.combineby else b).prices = b.prices := by
      split
      · unfold Book.splitBy Book.mapTransaction Book.compact; split <;> rfl
      · rfl
    split at hcv
    · rw [(convertBook_some hcv.2).1, ← h1]; rfl
    · rw [hcv, h1]

/-- The leaf rows of a summary. -/
theorem leaf_rows {srt : List Posting → List Posting} {b : Book} {base div : Str} {u g : Txn} (hg : IsGroup u)
    (hsub : (u.map pairOf).Sublist (acctsOf srt b)) (hR : ReportOf b.prices base div (summaries srt b base div) (acctsOf srt b) u g) :
    (∀ x ∈ g, ∀ p ∈ u, x.date = p.date ∧ x.payee = p.payee) ∧
    (∀ e ∈ acctsOf srt b, ∃ x ∈ g, x.acct = e.1 ∧ x.ccy = e.2 ∧ x.val = entryTotal x.date x.payee e.1 e.2 u) ∧
    ∀ x ∈ g, (x.acct ∈ summaries srt b base div ∧ x.ccy = base ∧ x.val = treeTotal b.prices base div x.acct u) ∨
      x.val = entryTotal x.date x.payee x.acct x.ccy u := by
  obtain ⟨B, hbl, hpm, _⟩ := hR
  have hkeys : ∀ x ∈ g, ∀ p ∈ u, x.date = p.date ∧ x.payee = p.payee := fun x hx p hp => block_keys hg hbl x (hpm.mem_iff.1 hx) p hp
  obtain ⟨l, s, S', rfl, hS', h1, h2⟩ := hbl.ex
  have hnd : (u.map pairOf).Nodup := hsub.nodup (c48_accounts srt b).1
  have leaf : ∀ x ∈ g, ∀ e, LeafOf (summaries srt b base div) div (valOf b.prices base div (summaries srt b base div) (acctsOf srt b) u) (entryOf u e) x →
      x.acct = e.1 ∧ x.ccy = e.2 ∧ x.val = entryTotal x.date x.payee e.1 e.2 u := by
    intro x hx e hleaf
    obtain ⟨_, _, k3, k4, k5⟩ := leafOf_key hleaf
    have hent : ∀ ac c, entryTotal x.date x.payee ac c u = total (fun p => decide (pairOf p = (ac, c))) u := by
      intro ac c
      unfold entryTotal
      apply total_congr
      intro p hp
      have := hkeys x hx p hp
      simp [this.1.symm, this.2.symm, pairOf]
    rw [hent]
    by_cases hm : e ∈ u.map pairOf
    · obtain ⟨p, hpu, rfl⟩ := List.mem_map.1 hm
      rw [entryOf_mem hnd hpu] at k3 k4 k5
      refine ⟨k3, k4, ?_⟩
      rw [k5]
      have : ∀ (u : List Posting), (u.map pairOf).Nodup → p ∈ u → total (fun q => decide (pairOf q = (p.acct, p.ccy))) u = p.val := by
        intro u
        induction u with
        | nil => intro _ h; cases h
        | cons q u ih =>
          intro hn hp
          rw [List.map_cons, List.nodup_cons] at hn
          rw [total_cons]
          rcases List.mem_cons.1 hp with rfl | hp
          · rw [if_pos (by simp [pairOf]), total_congr (Q := fun _ => false), total_false]
            · simp
            · intro q hq
              have : ¬ pairOf q = (p.acct, p.ccy) := fun e => hn.1 (List.mem_map.2 ⟨q, hq, e⟩)
              simp [this]
          · have : ¬ pairOf q = (p.acct, p.ccy) := fun e => hn.1 (e ▸ List.mem_map.2 ⟨p, hp, rfl⟩)
            rw [if_neg (by simpa using this), ih hn.2 hp]
            simp
      exact (this u hnd hpu).symm
    · obtain ⟨p0, t, rfl⟩ := List.exists_cons_of_ne_nil hg.1
      rw [entryOf_not_mem hm] at k3 k4 k5
      refine ⟨k3, k4, ?_⟩
      rw [k5]
      rw [total_congr (Q := fun _ => false), total_false]
      · rfl
      · intro q hq
        have : ¬ pairOf q = e := fun h => hm (List.mem_map.2 ⟨q, hq, h⟩)
        simpa using this
  refine ⟨hkeys, ?_, ?_⟩
  · intro e he
    obtain ⟨x, hx, hl⟩ := forall₂_mem_left h1 (List.mem_map.2 ⟨e, he, rfl⟩)
    have hxg := hpm.mem_iff.2 (List.mem_append_left _ hx)
    exact ⟨x, hxg, leaf x hxg e hl⟩
  · intro x hx
    rcases List.mem_append.1 (hpm.mem_iff.1 hx) with hr | hr
    · right
      obtain ⟨p, hp, hleaf⟩ := forall₂_mem_right h1 hr
      obtain ⟨e, _, rfl⟩ := List.mem_map.1 hp
      obtain ⟨z1, z2, z3⟩ := leaf x hx e hleaf
      rw [z1, z2]; exact z3
    · left
      obtain ⟨k, hk, lt, _, e1, e2, e3, _⟩ := forall₂_mem_right h2 hr
      exact ⟨e1 ▸ hS'.mem_iff.1 hk, e2, e1 ▸ e3⟩

theorem column_sum {e : OpEnv} (hs : IsSort e.srt) {a : AppConf} {r : ReportConf} {b fb : Book} (hg : b.Good)
    (h : shownBook e a r b = .ok fb) {u : Txn} (hu : u ∈ fb.transactions e.srt) {p : Posting} (hp : p ∈ u) (k : Str) :
    treeTotal fb.prices a.baseCCY a.divider k u = columnTree b.prices e.today a r p.date p.payee k (reported e.srt b) := by
  have hf := (shown_wsum hs hg h (fun _ _ _ _ => 0)).1
  rw [treeTotal_wsum, ← wsum_in_txns (ordered_transactions hs hf.1) hu hp]
  have hw := (shown_wsum hs hg h (fun d' py' ac c => if d' = p.date ∧ py' = p.payee then
    (if AtOrAbove a.divider k ac then ((fb.prices.getPrice d' c a.baseCCY).map (·.1)).getD 0 else 0) else 0)).2
  unfold reported at hw
  rw [hw, columnTree, weighted_wsum]
  apply wsum_congr
  intro q _
  unfold InColumn sumRate
  rw [shown_prices h]
  by_cases h1 : shownDate e.today r q = p.date ∧ shownPayee r q = p.payee
  · by_cases h2 : AtOrAbove a.divider k q.acct
    · simp only [h1, h2, and_self, if_true, decide_true]
      by_cases h3 : shownCCY a.baseCCY r q = a.baseCCY
      · simp [h3, PriceBook.getPrice]
      · have hnc : ¬ converts r := fun hc => h3 (by simp [shownCCY, hc])
        simp only [shownCCY, shownRate, hnc, if_false] at h3 ⊢
        simp [h3]
    · simp [h1, h2]
  · have : ¬ ((shownDate e.today r q = p.date ∧ shownPayee r q = p.payee) ∧ AtOrAbove a.divider k q.acct) := fun h => h1 h.1
    rw [if_neg h1, zero_mul, if_neg (by simpa using this)]

theorem column_entry {e : OpEnv} (hs : IsSort e.srt) {a : AppConf} {r : ReportConf} {b fb : Book} (hg : b.Good)
    (h : shownBook e a r b = .ok fb) (d : Int) (py ac c : Str) :
    entryTotal d py ac c (reported e.srt fb) = columnEntry b.prices e.today a r d py ac c (reported e.srt b) := by
  obtain ⟨_, hw⟩ := shown_wsum hs hg h (fun d' py' a' c' => if d' = d ∧ py' = py ∧ a' = ac ∧ c' = c then 1 else 0)
  unfold entryTotal columnEntry
  rw [weighted_wsum, total_eq_wsum]
  simp only [decide_eq_true_eq] at hw ⊢
  rw [hw]
  apply wsum_congr
  intro q _
  unfold InColumn
  by_cases h1 : shownDate e.today r q = d ∧ shownPayee r q = py ∧ q.acct = ac ∧ shownCCY a.baseCCY r q = c
  · rw [if_pos h1, if_pos ⟨⟨h1.1, h1.2.1⟩, h1.2.2⟩, one_mul]
  · rw [if_neg h1, if_neg (fun hh => h1 ⟨hh.1.1, hh.1.2, hh.2⟩), zero_mul]

/-- The accounts and currencies of the reported postings. -/
theorem shown_pairs {e : OpEnv} (hs : IsSort e.srt) {a : AppConf} {r : ReportConf} {b fb : Book} (hg : b.Good)
    (h : shownBook e a r b = .ok fb) (ac c : Str) :
    ShownAcct b.prices e.today a r (reported e.srt b) ac c ↔ ∃ p ∈ reported e.srt fb, p.acct = ac ∧ p.ccy = c := by
  have hf := (shown_wsum hs hg h (fun _ _ _ _ => 0)).1
  have hord := ordered_transactions hs hf.1
  have hc := compact_canonical hs hf.1
  unfold ShownAcct
  constructor
  · rintro ⟨d, py, hne⟩
    rw [← column_entry hs hg h] at hne
    by_contra hno
    apply hne
    unfold entryTotal
    rw [total_congr (Q := fun _ => false), total_false]
    intro p hp
    simp only [decide_eq_false_iff_not]
    rintro ⟨_, _, z1, z2⟩
    exact hno ⟨p, hp, z1, z2⟩
  · rintro ⟨p, hp, rfl, rfl⟩
    refine ⟨p.date, p.payee, ?_⟩
    rw [← column_entry hs hg h]
    obtain ⟨u, hu, hpu⟩ := List.mem_flatten.1 hp
    have : entryTotal p.date p.payee p.acct p.ccy (reported e.srt fb) = entryTotal p.date p.payee p.acct p.ccy u :=
      entry_in_txns hord hu hpu _ _
    rw [this, entry_in_txn (canonical_distinct hc hu) (hc.oneTxn u hu) hpu]
    exact hc.nonzero u hu p hpu

theorem sumTxns_ok {e : OpEnv} {a : AppConf} {r : ReportConf} {o} {b : Book} {ts : List Txn}
    (h : reportTxns e a r o b = .ok ts) (hr : r.sum = true) (ht : r.typ ≠ b!"Beancount") :
    ∃ fb, shownBook e a r b = .ok fb ∧
      fb.accumulate e.srt a.baseCCY a.divider (if r.credit = [] then none else some (e.mat r.credit)) r.hidden o = some ts := by
  unfold reportTxns at h
  rw [if_neg ht] at h
  obtain ⟨fb, h1, h2⟩ := bind_ok h
  refine ⟨fb, by unfold shownBook; rw [if_neg ht]; exact h1, ?_⟩
  unfold sumCmd at h2
  split at h2
  · cases h2
  · split at h2
    · cases h2
    · exact orCrash_ok h2

/-- **C116**: a summary (`report --sum`) of the book left by the operations: apart from `--credit` and `--hidden` (which negate and leave out rows) it
consists of columns whose figures are what the book has on the accounts, and what is in none of the columns is nothing. -/
theorem c116_summary (le : Env) (depth : Nat) (e : OpEnv) (hs : IsSort e.srt) (fuel : Nat) (a : AppConf) (hd : a.divider ≠ []) (r : ReportConf)
    (hr : r.sum = true) (ht : r.typ ≠ b!"Beancount") (o : Int → Str → List Str → List Str) (ho : ∀ d py l, (o d py l).Perm l) (args : List Str)
    (ts : List Txn) (h : reportCmd le depth e fuel a r o args = .ok ts) :
    ∃ b0 b, loadCmd le depth e.srt a = .ok b0 ∧ opsCmd e fuel a args b0 = .ok b ∧ ∃ (S : List Str) (gs : List Txn),
      ts = gs.map (shown (if r.credit = [] then none else some (e.mat r.credit)) r.hidden) ∧
      SummaryOf b.prices e.today a r (reported e.srt b) S gs := by
  unfold reportCmd at h
  obtain ⟨b, h1, h2⟩ := bind_ok h
  obtain ⟨b0, h0, h1⟩ := bind_ok h1
  have hg := good_ops hs (good_load hs h0) h1
  obtain ⟨fb, hfb, hacc⟩ := sumTxns_ok h2 hr ht
  have hf := (shown_wsum hs hg hfb (fun _ _ _ _ => 0)).1
  obtain ⟨gs, e1, e2, e3⟩ := accumulate_good hs hf.1 hf.2 ho hacc
  have hsums := summary_totals_good e.srt hs fb hf.1 hf.2 a.baseCCY a.divider hd o ho gs e3
  have hord := ordered_transactions hs hf.1
  refine ⟨b0, b, h0, h1, summaries e.srt fb a.baseCCY a.divider, gs, ?_, ⟨accumSet_nodup _ _ _, ?_, ?_, ?_, ?_⟩⟩
  · rw [e1]
    apply List.map_congr_left
    intro g _
    unfold hideFlip shown
    have e1 : (fun p : Posting => !(decide (r.hidden ≠ []) && decide (p.acct = r.hidden))) = fun p => decide (r.hidden = [] ∨ p.acct ≠ r.hidden) := by
      funext p
      by_cases h1 : r.hidden = [] <;> by_cases h2 : p.acct = r.hidden <;> simp [h1, h2]
    rw [e1]
    apply List.map_congr_left
    intro p _
    by_cases hc : r.credit = []
    · simp [hc]
    · by_cases hm : e.mat r.credit p.acct = true <;> simp [hc, hm]
  · intro g hgm
    obtain ⟨u, hu, ⟨u1, u2, u3⟩, u4⟩ : ∃ u ∈ fb.transactions e.srt, (IsGroup u ∧ (u.map pairOf).Sublist (acctsOf e.srt fb) ∧
        ReportOf fb.prices a.baseCCY a.divider (summaries e.srt fb a.baseCCY a.divider) (acctsOf e.srt fb) u g) ∧
        ∀ k ∈ summaries e.srt fb a.baseCCY a.divider, ∃ r', g.filter (fun r => decide (r.acct = k ∧ r.acctlevel =
          (levelOf (summaries e.srt fb a.baseCCY a.divider) a.divider k : Int))) = [r'] ∧ r'.ccy = a.baseCCY ∧
          r'.val = treeTotal fb.prices a.baseCCY a.divider k u ∧ ∀ p ∈ u, r'.date = p.date ∧ r'.payee = p.payee := by
      clear e1
      revert e2 hsums hgm hord
      generalize hus : fb.transactions e.srt = us
      intro e2 hsums hord
      clear hus e3 hord
      induction e2 with
      | nil => intro hm; cases hm
      | @cons u g' us gs' x _ ih =>
        intro hgm
        cases hsums with
        | cons y hsums =>
          rcases List.mem_cons.1 hgm with rfl | hgm
          · exact ⟨u, by simp, x, y⟩
          · obtain ⟨u', m, rest⟩ := ih hsums hgm
            exact ⟨u', List.mem_cons_of_mem _ m, rest⟩
    obtain ⟨p, hp⟩ := List.exists_mem_of_ne_nil u u1.1
    obtain ⟨l1, l0, l2⟩ := leaf_rows u1 u2 u3
    refine ⟨?_, ?_, ?_, ?_, ?_⟩
    · intro hnil
      obtain ⟨B, hbl, hpm, _⟩ := u3
      have hm : pairOf p ∈ acctsOf e.srt fb := u2.subset (List.mem_map.2 ⟨p, hp, rfl⟩)
      obtain ⟨x, hx, _⟩ := block_nonempty hbl hm
      have := hpm.mem_iff.2 hx
      rw [hnil] at this
      cases this
    · intro x hx y hy
      have a1 := l1 x hx p hp
      have a2 := l1 y hy p hp
      exact ⟨a1.1.trans a2.1.symm, a1.2.trans a2.2.symm⟩
    · intro k hk
      obtain ⟨x, v1, v2, v3, v4⟩ := u4 k hk
      refine ⟨x, v1, v2, ?_⟩
      rw [v3, (v4 p hp).1, (v4 p hp).2]
      exact column_sum hs hg hfb hu hp k
    · intro ac c hsh
      obtain ⟨q, hq, q1, q2⟩ := (shown_pairs hs hg hfb ac c).1 hsh
      obtain ⟨x, hx, x1, x2, x3⟩ := l0 (ac, c) (((c48_accounts e.srt fb).2 ac c).2 ⟨q, hq, q1, q2⟩)
      have hk := l1 x hx p hp
      refine ⟨x, hx, x1, x2, ?_⟩
      rw [x3, ← column_entry hs hg hfb, hk.1, hk.2]
      exact (entry_in_txns hord hu hp _ _).symm
    · intro x hx
      have hk := l1 x hx p hp
      rcases l2 x hx with ⟨w1, w2, w3⟩ | w
      · refine .inl ⟨w1, w2, ?_⟩
        rw [w3, hk.1, hk.2]
        exact column_sum hs hg hfb hu hp x.acct
      · right
        rw [w, ← column_entry hs hg hfb, hk.1, hk.2]
        exact (entry_in_txns hord hu hp _ _).symm
  · have hall : ∀ {us gs : List Txn}, List.Forall₂ (fun u g => IsGroup u ∧ (u.map pairOf).Sublist (acctsOf e.srt fb) ∧
        ReportOf fb.prices a.baseCCY a.divider (summaries e.srt fb a.baseCCY a.divider) (acctsOf e.srt fb) u g) us gs →
        List.Pairwise (fun t u => ∀ p ∈ t, ∀ q ∈ u, TxnBefore p q) us → List.Pairwise (fun t u => ∀ p ∈ t, ∀ q ∈ u, TxnBefore p q) gs := by
      intro us gs hh
      induction hh with
      | nil => intro _; exact .nil
      | @cons u g us gs x hrest ih =>
        intro hp
        rw [List.pairwise_cons] at hp ⊢
        refine ⟨?_, ih hp.2⟩
        intro g' hg' y hy z hz
        obtain ⟨u', hu', x'⟩ := forall₂_mem_right hrest hg'
        obtain ⟨p, hpu⟩ := List.exists_mem_of_ne_nil u x.1.1
        obtain ⟨q, hqu⟩ := List.exists_mem_of_ne_nil u' x'.1.1
        have hb := hp.1 u' hu' p hpu q hqu
        have k1 := (leaf_rows x.1 x.2.1 x.2.2).1 y hy p hpu
        have k2 := (leaf_rows x'.1 x'.2.1 x'.2.2).1 z hz q hqu
        unfold TxnBefore at hb ⊢
        rw [k1.1, k1.2, k2.1, k2.2]
        exact hb
    exact hall e2 hord.2
  · intro d py hno ac c
    rw [← column_entry hs hg hfb]
    unfold entryTotal
    rw [total_congr (Q := fun _ => false), total_false]
    intro p hp
    obtain ⟨u, hu, hpu⟩ := List.mem_flatten.1 hp
    obtain ⟨g, hgm, u1, u2, u3⟩ := forall₂_mem_left e2 hu
    obtain ⟨B, hbl, hpm, hsrt⟩ := u3
    have hm : pairOf p ∈ acctsOf e.srt fb := u2.subset (List.mem_map.2 ⟨p, hpu, rfl⟩)
    obtain ⟨x, hx, _⟩ := block_nonempty hbl hm
    have hxg := hpm.mem_iff.2 hx
    have k := (leaf_rows u1 u2 ⟨B, hbl, hpm, hsrt⟩).1 x hxg p hpu
    have := hno g hgm x hxg
    rw [k.1, k.2] at this
    simp only [decide_eq_false_iff_not]
    rintro ⟨z1, z2, _⟩
    exact this ⟨z1, z2⟩
  · intro x hx hno hgs k
    have hne : fb.transactions e.srt ≠ [] := by
      intro h0
      rw [h0] at e2
      cases e2
      exact hgs rfl
    have hpr := fun ac c => shown_pairs hs hg hfb ac c
    rw [hx, which_accounts_good e.srt hs fb hf.1 hf.2 a.baseCCY x hne
      (fun p hp q hq => hno p.acct p.ccy q.acct q.ccy ((hpr _ _).2 ⟨p, hp, rfl, rfl⟩) ((hpr _ _).2 ⟨q, hq, rfl, rfl⟩)) k]
    refine or_congr ⟨?_, ?_⟩ (and_congr_right fun _ => ⟨?_, ?_⟩)
    · rintro ⟨p, hp, rfl, hc⟩
      exact ⟨p.ccy, (hpr _ _).2 ⟨p, hp, rfl, rfl⟩, hc⟩
    · rintro ⟨c, hsh, hc⟩
      obtain ⟨p, hp, rfl, rfl⟩ := (hpr _ _).1 hsh
      exact ⟨p, hp, rfl, hc⟩
    · rintro ⟨p, hp, q, hq, h1, h2⟩
      exact ⟨_, _, _, _, (hpr _ _).2 ⟨p, hp, rfl, rfl⟩, (hpr _ _).2 ⟨q, hq, rfl, rfl⟩, h1, h2⟩
    · rintro ⟨ac, c, ac', c', h1, h2, h3, h4⟩
      obtain ⟨p, hp, rfl, rfl⟩ := (hpr _ _).1 h1
      obtain ⟨q, hq, rfl, rfl⟩ := (hpr _ _).1 h2
      exact ⟨p, hp, q, hq, h3, h4⟩

theorem weighted_entries {srt : List Posting → List Posting} (hs : IsSort srt) {cs : List Call} {b : Book} (h : Built srt cs b) :
    ∃ names, FiledAs [] cs names ∧ names.Nodup ∧ ∀ (sel : Posting → Bool) (rate : Posting → Rat), KeyFun sel → KeyFun rate →
      weighted sel rate (reported srt b) = weighted sel rate ((entries (-1, []) names cs).map Entry.asPosting) := by
  obtain ⟨bb, h1, h2⟩ := h
  refine ⟨issued Builder.new cs, filedAs_aux cs _ bb [] seenInv_new h1, c02_names_distinct cs, ?_⟩
  intro sel rate hsel hrate
  obtain ⟨e1, e2⟩ := builder_post cs bb h1
  rw [← e1, List.map_map, weighted_wsum, weighted_wsum]
  have hw : KeyFun (fun p => if sel p = true then rate p else 0) := by
    intro p q hpq
    simp only [hsel p q hpq, hrate p q hpq]
  have hkey : ∀ p : Posting, key ((Entry.asPosting ∘ fun p => (⟨p.date, p.payee, p.acct, p.ccy, p.val⟩ : Entry)) p) = key p :=
    fun p => key_eq_iff.2 ⟨rfl, rfl, rfl, rfl⟩
  have hmap : wsum (fun p => if sel p = true then rate p else 0)
      (bb.post.map (Entry.asPosting ∘ fun p => (⟨p.date, p.payee, p.acct, p.ccy, p.val⟩ : Entry))) =
      wsum (fun p => if sel p = true then rate p else 0) bb.post := by
    unfold wsum
    rw [List.map_map]
    congr 1
    apply List.map_congr_left
    intro p _
    show (if sel _ = true then rate _ else 0) * _ = _
    rw [hsel _ _ (hkey p), hrate _ _ (hkey p)]
    rfl
  rw [hmap]
  have hb : Built srt cs b := ⟨bb, h1, h2⟩
  rw [wsum_reported hs hw (hb.wf hs).1]
  unfold Builder.build at h2
  cases hcc : bb.checkAndClear with
  | none => rw [hcc] at h2; cases h2
  | some b2 =>
    rw [hcc] at h2
    simp only [Option.some.injEq] at h2
    have hp2 : b2.post = bb.post := by
      unfold Builder.checkAndClear at hcc
      split at hcc
      · cases hcc; rfl
      · cases hcc
    subst h2
    rw [hp2]
    unfold Book.compact
    by_cases h0 : bb.post = []
    · simp [h0]
    · simp only [h0, if_false]
      exact wsum_compactPost hs hw _

theorem shown_keys (today : Int) (r : ReportConf) (base : Str) {p q : Posting} (h : key p = key q) :
    shownDate today r p = shownDate today r q ∧ shownPayee r p = shownPayee r q ∧ shownCCY base r p = shownCCY base r q ∧ p.acct = q.acct ∧
    (∀ prices, shownRate prices today base r p = shownRate prices today base r q) ∧ ∀ prices, sumRate prices today base r p = sumRate prices today base r q := by
  obtain ⟨h1, h2, h3, h4⟩ := key_eq_iff.1 h
  refine ⟨?_, ?_, ?_, h3, fun _ => ?_, fun _ => ?_⟩ <;> simp [shownDate, shownPayee, shownCCY, shownRate, sumRate, h1, h2, h4]

/-- **C116** in terms of the ledger file: without operations the figures of a summary are sums of the amounts written in the file. -/
theorem c116_file {le : Env} (he : le.Ok) (hl : PlainLetters le) {fs : Str → Option (List FileLine)} (hdisk : OnDisk le fs) {ls : List FileLine}
    (depth : Nat) (e : OpEnv) (hs : IsSort e.srt) (fuel : Nat) (a : AppConf) (hf : fs a.ledger = some ls) (hd : a.divider ≠ []) (r : ReportConf)
    (hr : r.sum = true) (ht : r.typ ≠ b!"Beancount") (o : Int → Str → List Str → List Str) (ho : ∀ d py l, (o d py l).Perm l)
    (ts : List Txn) (h : reportCmd le depth e fuel a r o [] = .ok ts) :
    ∃ cs names b, FileSays fs le.join a.ledger [] [] ls cs ∧ FiledAs [] cs names ∧ loadCmd le depth e.srt a = .ok b ∧
    ∃ (S : List Str) (gs : List Txn), ts = gs.map (shown (if r.credit = [] then none else some (e.mat r.credit)) r.hidden) ∧
      SummaryOf b.prices e.today a r ((entries (-1, []) names cs).map Entry.asPosting) S gs := by
  obtain ⟨b, b', h0, h1, S, gs, e1, e2⟩ := c116_summary le depth e hs fuel a hd r hr ht o ho [] ts h
  simp only [opsCmd, bookOps, runAll] at h1
  cases h1
  have hb : loadBook e.srt le depth a.ledger = .ok b := by
    unfold loadCmd at h0
    split at h0 <;> cases h0
    rename_i hb
    exact hb
  obtain ⟨cs, c1, c2, _⟩ := c96_loaded_book he hl hdisk hf hb
  obtain ⟨names, n1, _, n3⟩ := weighted_entries hs c2
  refine ⟨cs, names, b, c1, n1, h0, S, gs, e1, ?_⟩
  have ht : ∀ d py k, columnTree b.prices e.today a r d py k (reported e.srt b) =
      columnTree b.prices e.today a r d py k ((entries (-1, []) names cs).map Entry.asPosting) := by
    intro d py k
    refine n3 _ _ ?_ (fun p q h => (shown_keys e.today r a.baseCCY h).2.2.2.2.2 _)
    intro p q h
    obtain ⟨k1, k2, _, k4, _⟩ := shown_keys e.today r a.baseCCY h
    show decide _ = decide _
    rw [decide_eq_decide, InColumn, InColumn, k1, k2, k4]
  have hc : ∀ d py ac c, columnEntry b.prices e.today a r d py ac c (reported e.srt b) =
      columnEntry b.prices e.today a r d py ac c ((entries (-1, []) names cs).map Entry.asPosting) := by
    intro d py ac c
    refine n3 _ _ ?_ (fun p q h => (shown_keys e.today r a.baseCCY h).2.2.2.2.1 _)
    intro p q h
    obtain ⟨k1, k2, k3, k4, _⟩ := shown_keys e.today r a.baseCCY h
    show decide _ = decide _
    rw [decide_eq_decide, InColumn, InColumn, k1, k2, k3, k4]
  have hsh : ∀ ac c, ShownAcct b.prices e.today a r (reported e.srt b) ac c ↔
      ShownAcct b.prices e.today a r ((entries (-1, []) names cs).map Entry.asPosting) ac c := by
    intro ac c; unfold ShownAcct; simp only [hc]
  obtain ⟨f1, f2, f3, f4, f5⟩ := e2
  simp only [hsh, hc] at f4 f5
  refine ⟨f1, ?_, f3, f4, f5⟩
  intro g hg
  obtain ⟨g1, g2, g3, g4, g5⟩ := f2 g hg
  simp only [hsh, hc, ht] at g3 g4 g5
  exact ⟨g1, g2, g3, g4, g5⟩

/-! Non-vacuity: a file with two accounts below `Assets` and a foreign currency, and its summary. -/

def sumFile : Str :=
  b!"P 2020/01/01 00:00:00 U 2 E\n2020/02/01 Buy\n  Assets:Cash -6 E\n  Assets:Bank -1 E\n  Gold 7 E\n2020/02/02 Sell\n  Assets:Bank 3 U\n  Gold -3 U\n"

example : (reportCmd (demoEnv [(b!"a", sumFile)]) 1 plainOps 1 demoApp { yearReport false b!"skip" with sum := true } (fun _ _ l => l) []).lines.map
      (fun ts => ts.map fun t => t.filter fun l => decide (l.ccy = b!"E" ∧ l.acct = b!"Assets")) =
    some [[⟨20200201, b!"Buy", b!"Assets", b!"E", -7⟩], [⟨20200202, b!"Sell", b!"Assets", b!"E", 6⟩]] := by decide +kernel

example : demoApp.divider ≠ [] ∧ ({ yearReport false b!"skip" with sum := true } : ReportConf).typ ≠ b!"Beancount" := by decide

/-- Non-vacuity of `c116_file`: the summary of the file of `demoDisk`, whose lines are known. -/
example : OnDisk demoDiskEnv demoDisk ∧ PlainLetters demoDiskEnv ∧ demoDisk b!"main" = some demoMain ∧
    (reportCmd demoDiskEnv 3 plainOps 1 { demoApp with ledger := b!"main" } { yearReport false b!"skip" with sum := true } (fun _ _ l => l) []).lines.isSome = true :=
  ⟨demo_disk, demo_letters _, rfl, by decide +kernel⟩

end Verif
