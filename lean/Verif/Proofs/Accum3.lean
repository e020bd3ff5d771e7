import Verif.Proofs.Accum2

/-! The report of `Accumulate`, transaction by transaction. -/

namespace Verif
open Spec

theorem accumSet_nodup (base div : Str) (posts : List Posting) : (accumSet base div posts).Nodup := List.nodup_dedup _

/-- A non-empty balanced transaction has two accounts. -/
theorem two_accounts {u : Txn} (hg : IsGroup u) (hb : Balanced u) (hz : ∀ p ∈ u, p.val ≠ 0) (ho : u.Pairwise PostBefore)
    (x : Str) : ∃ p ∈ u, p.acct ≠ x := by
  by_contra hcon
  simp only [not_exists, not_and, not_not] at hcon
  obtain ⟨p, t, rfl⟩ := List.exists_cons_of_ne_nil hg.1
  have h1 := hb p.date p.payee p.ccy
  unfold txnTotal total at h1
  have : (p :: t).filter (fun q => decide (q.date = p.date ∧ q.payee = p.payee ∧ q.ccy = p.ccy)) = [p] := by
    rw [List.filter_cons, if_pos (by simp)]
    congr 1
    rw [List.filter_eq_nil_iff]
    intro q hq hc
    simp only [decide_eq_true_eq] at hc
    have h2 := (List.pairwise_cons.1 ho).1 q hq
    have e1 := hcon p (by simp)
    have e2 := hcon q (by simp [hq])
    rcases h2 with h | ⟨_, h⟩
    · rw [e1, e2] at h; exact lt_irrefl _ h
    · rw [hc.2.2] at h; exact lt_irrefl _ h
  rw [this] at h1
  simp at h1
  exact hz p (by simp) h1

theorem hideFlip_flatten (credit : Option (Str → Bool)) (hidden : Str) (gs : List Txn) :
    hideFlip credit hidden gs.flatten = (gs.map (hideFlip credit hidden)).flatten := by
  induction gs with
  | nil => rfl
  | cons g gs ih =>
    rw [List.flatten_cons, List.map_cons, List.flatten_cons, ← ih]
    unfold hideFlip
    rw [List.filter_append, List.map_append]

theorem mem_hideFlip {credit : Option (Str → Bool)} {hidden : Str} {g : Txn} {r : Posting} (h : r ∈ hideFlip credit hidden g) :
    ∃ p ∈ g, r.date = p.date ∧ r.payee = p.payee ∧ r.acct = p.acct := by
  unfold hideFlip at h
  obtain ⟨p, hp, rfl⟩ := List.mem_map.1 h
  refine ⟨p, (List.mem_filter.1 hp).1, ?_⟩
  split
  · split <;> exact ⟨rfl, rfl, rfl⟩
  · exact ⟨rfl, rfl, rfl⟩

theorem forall₂_flip {α β} {R : α → β → Prop} {l : List α} {m : List β} (h : List.Forall₂ R l m) :
    List.Forall₂ (fun b a => R a b) m l := by
  induction h with
  | nil => exact .nil
  | cons a _ ih => exact .cons a ih

theorem forall₂_trans {α β γ} {R : α → β → Prop} {Q : β → γ → Prop} {l : List α} {m : List β} {n : List γ}
    (h : List.Forall₂ R l m) (h' : List.Forall₂ Q m n) : List.Forall₂ (fun a c => ∃ b, R a b ∧ Q b c) l n := by
  induction h generalizing n with
  | nil => cases h'; exact .nil
  | cons a _ ih => cases h' with | cons b h' => exact .cons ⟨_, a, b⟩ (ih h')

/-- The transaction `g` of the report (before hiding and flipping). -/
def ReportOf (prices : PriceBook) (base div : Str) (S : List Str) (A : List (Str × Str)) (u g : Txn) : Prop :=
  ∃ B, BlockOf prices base div S A u B ∧ g.Perm B ∧ g.Pairwise (fun a b => b.isLess a = false)

theorem ordered_forall₂ {R : Txn → Txn → Prop} {us gs : List Txn} (h : List.Forall₂ R us gs) (ho : Ordered us)
    (hR : ∀ u g, u ∈ us → g ∈ gs → R u g → g ≠ [] ∧ ∀ r ∈ g, ∀ p ∈ u, r.date = p.date ∧ r.payee = p.payee) : Ordered gs := by
  induction h with
  | nil => exact ⟨by simp, List.Pairwise.nil⟩
  | @cons u g us gs h1 h2 ih =>
    have ih' := ih ⟨fun t ht => ho.1 t (by simp [ht]), (List.pairwise_cons.1 ho.2).2⟩
      (fun u' g' hu hg => hR u' g' (by simp [hu]) (by simp [hg]))
    obtain ⟨k1, k2⟩ := hR u g (by simp) (by simp) h1
    obtain ⟨p, hp⟩ := List.exists_mem_of_ne_nil u (ho.1 u (by simp)).1
    refine ⟨?_, ?_⟩
    · intro t ht
      rcases List.mem_cons.1 ht with rfl | ht
      · exact ⟨k1, fun x hx y hy => by
          have a := k2 x hx p hp; have b := k2 y hy p hp
          exact ⟨by rw [a.1, b.1], by rw [a.2, b.2]⟩⟩
      · exact ih'.1 t ht
    · refine List.pairwise_cons.2 ⟨?_, ih'.2⟩
      intro g' hg' x hx y hy
      obtain ⟨u', hu', hr'⟩ := forall₂_mem_right h2 hg'
      obtain ⟨q, hq⟩ := List.exists_mem_of_ne_nil u' (ho.1 u' (by simp [hu'])).1
      have hb := (List.pairwise_cons.1 ho.2).1 u' hu' p hp q hq
      have a := k2 x hx p hp
      have b := (hR u' g' (by simp [hu']) (by simp [hg']) hr').2 y hy q hq
      unfold TxnBefore at hb ⊢
      rw [a.1, a.2, b.1, b.2]; exact hb

theorem flatten_pairs_perm (bs : List (List Posting × List Posting)) :
    ((bs.map (·.1)).flatten ++ (bs.map (·.2)).flatten).Perm (bs.map fun r => r.1 ++ r.2).flatten := by
  induction bs with
  | nil => exact List.Perm.refl _
  | cons b bs ih =>
    simp only [List.map_cons, List.flatten_cons]
    refine List.Perm.trans ?_ (List.Perm.append_left (b.1 ++ b.2) ih)
    rw [List.append_assoc, List.append_assoc]
    refine List.Perm.append_left b.1 ?_
    rw [← List.append_assoc, ← List.append_assoc]
    exact List.Perm.append_right _ List.perm_append_comm

/-- Every account of the book is an account of every transaction's rows. -/
theorem block_nonempty {prices base div S A u B} (h : BlockOf prices base div S A u B) {e : Str × Str} (he : e ∈ A) :
    ∃ r ∈ B, r.acct = (entryOf u e).acct ∧ r.ccy = (entryOf u e).ccy := by
  obtain ⟨l, s, S', rfl, _, h1, _⟩ := h.ex
  obtain ⟨r, hr, hl⟩ := forall₂_mem_left h1 (List.mem_map.2 ⟨e, he, rfl⟩)
  have := leafOf_key hl
  exact ⟨r, by simp [hr], this.2.2.1, this.2.2.2.1⟩

section
variable {srt : List Posting → List Posting} (hs : IsSort srt)

/-- The accounts and currencies of a book. -/
def acctsOf (srt : List Posting → List Posting) (b : Book) : List (Str × Str) := acctList (reported srt b)
/-- The accounts with a subtotal. -/
def summaries (srt : List Posting → List Posting) (b : Book) (base div : Str) : List Str :=
  accumSet base div ((b.transactions srt).map (fill (acctsOf srt b))).flatten

include hs in
theorem book_data {b : Book} (w : b.WF) (hb : Balanced b.post) (hne : b.transactions srt ≠ []) :
    Canonical (b.transactions srt) ∧ (∀ u ∈ b.transactions srt, IsGroup u ∧ (u.map pairOf).Sublist (acctsOf srt b) ∧ Balanced u) ∧
    (acctsOf srt b).Nodup ∧ acctsOf srt b ≠ [] ∧ (b.compact srt).post ≠ [] ∧
    addEmptyAccounts srt (b.compact srt).post = some ((b.transactions srt).map (fill (acctsOf srt b))).flatten ∧
    Ordered ((b.transactions srt).map (fill (acctsOf srt b))) ∧
    (∀ x, ∃ e ∈ acctsOf srt b, e.1 ≠ x) := by
  have hc := compact_canonical hs w
  have w1 := compact_wf hs w.plain w.nil_trans
  have hfl := transactions_flatten hs w
  have hbal := wf_balanced_trans w1 (compact_balanced hs hb)
  have hgrp : ∀ u ∈ b.transactions srt, IsGroup u := fun u hu => w1.groups u hu
  have hne' : (b.transactions srt).flatten ≠ [] := by
    intro h0
    obtain ⟨u, us, e⟩ := List.exists_cons_of_ne_nil hne
    have := (hgrp u (by rw [e]; simp)).1
    rw [e, List.flatten_cons, List.append_eq_nil_iff] at h0
    exact this h0.1
  obtain ⟨a1, a2⟩ := acctList_spec (reported srt b)
  obtain ⟨s1, s2⟩ := addEmpty_spec hs hc (fun p hp => w1.plain p (by rw [← hfl]; exact hp)) hne'
  refine ⟨hc, fun u hu => ⟨hgrp u hu, ?_, hbal u hu⟩, pairwise_lt_nodup a2, ?_, by rw [← hfl]; exact hne', by rw [← hfl]; exact s1, s2, ?_⟩
  · apply sublist_of_sorted _ a2
    · intro e he
      obtain ⟨p, hp, rfl⟩ := List.mem_map.1 he
      exact (a1 _).2 ⟨p, List.mem_flatten.2 ⟨u, hu, hp⟩, rfl⟩
    · rw [List.pairwise_map]
      refine (hc.postOrder u hu).imp ?_
      intro p q h
      rw [Prod.Lex.lt_iff]
      exact h
  · obtain ⟨p, ps, e⟩ := List.exists_cons_of_ne_nil hne'
    intro h0
    have := (a1 (p.acct, p.ccy)).2 ⟨p, by rw [reported, e]; simp, rfl⟩
    rw [acctsOf] at h0
    rw [h0] at this; cases this
  · intro x
    obtain ⟨u, us, e⟩ := List.exists_cons_of_ne_nil hne
    have hu : u ∈ b.transactions srt := by rw [e]; simp
    obtain ⟨p, hp, hx⟩ := two_accounts (hgrp u hu) (hbal u hu) (hc.nonzero u hu) (hc.postOrder u hu) x
    exact ⟨(p.acct, p.ccy), (a1 _).2 ⟨p, List.mem_flatten.2 ⟨u, hu, hp⟩, rfl⟩, hx⟩

theorem mapOrder_perm {o : Int → Str → List Str → List Str} (ho : ∀ d py l, (o d py l).Perm l) (g : Txn) (l : List Str) :
    (mapOrder o g l).Perm l := by
  cases g with
  | nil => exact List.Perm.refl _
  | cons h t => exact ho _ _ _

/-- The blocks of the report. -/
def blocksOf (srt : List Posting → List Posting) (b : Book) (base div : Str) (o : Int → Str → List Str → List Str) :
    Option (List (List Posting × List Posting)) :=
  ((b.transactions srt).map (fill (acctsOf srt b))).mapM fun g =>
    blockRows b.prices base div (summaries srt b base div) (mapOrder o g) g

include hs in
theorem accumulate_blocks {b : Book} (w : b.WF) (hb : Balanced b.post) (hne : b.transactions srt ≠ [])
    (base div : Str) (credit : Option (Str → Bool)) (hidden : Str) {o : Int → Str → List Str → List Str}
    (ho : ∀ d py l, (o d py l).Perm l) {bs} (hbs : blocksOf srt b base div o = some bs) :
    ∃ gs, b.accumulate srt base div credit hidden o = some (gs.map (hideFlip credit hidden)) ∧
      List.Forall₂ (ReportOf b.prices base div (summaries srt b base div) (acctsOf srt b)) (b.transactions srt) gs ∧
      Ordered (gs.map (hideFlip credit hidden)) ∧
      gs.flatten = srt ((bs.map (·.1)).flatten ++ (bs.map (·.2)).flatten) := by
  obtain ⟨hc, hu, hn, hA, hp, hadd, hord, htwo⟩ := book_data hs w hb hne
  have hB : List.Forall₂ (BlockOf b.prices base div (summaries srt b base div) (acctsOf srt b)) (b.transactions srt)
      (bs.map fun r => r.1 ++ r.2) := by
    have h1 := mapM_forall₂ hbs
    rw [List.forall₂_map_left_iff] at h1
    rw [List.forall₂_map_right_iff]
    generalize hus : b.transactions srt = us at h1 hu ⊢
    clear hus hbs hord hadd hc hne
    induction h1 with
    | nil => exact .nil
    | @cons u r us bs h1 _ ih =>
      refine .cons ?_ (ih (fun v hv => hu v (by simp [hv])))
      refine block_of_rows (o := mapOrder o (fill (acctsOf srt b) u)) ?_ hn hA
        (hu u (by simp)).1 (hu u (by simp)).2.1 h1
      exact mapOrder_perm ho _
  have hOus : Ordered (b.transactions srt) := ordered_transactions hs w
  have hBo : Ordered (bs.map fun r => r.1 ++ r.2) := by
    refine ordered_forall₂ hB hOus ?_
    intro u g hu' _ hbl
    refine ⟨?_, fun r hr p hp => block_keys (hu u hu').1 hbl r hr p hp⟩
    obtain ⟨e, es, he⟩ := List.exists_cons_of_ne_nil hA
    obtain ⟨r, hr, _⟩ := block_nonempty hbl (e := e) (by rw [he]; simp)
    exact List.ne_nil_of_mem hr
  obtain ⟨gs, g1, g2⟩ := sorted_blocks _ (srt ((bs.map (·.1)).flatten ++ (bs.map (·.2)).flatten)) hBo
    ((hs.perm _).trans (flatten_pairs_perm bs)) (sorted_txnBefore hs _)
  have hsort := hs.sorted ((bs.map (·.1)).flatten ++ (bs.map (·.2)).flatten)
  rw [g1, List.pairwise_flatten] at hsort
  have hR : List.Forall₂ (ReportOf b.prices base div (summaries srt b base div) (acctsOf srt b)) (b.transactions srt) gs := by
    have h3 := forall₂_trans hB (forall₂_flip g2)
    have h4 : List.Forall₂ (fun (_ : Txn) g => g ∈ gs) (b.transactions srt) gs := by
      have hl := h3.length_eq
      generalize b.transactions srt = us at hl
      clear h3 g1 g2 hsort
      rw [List.forall₂_iff_get]
      exact ⟨hl, fun i _ _ => by simp⟩
    have : ∀ {us gs' : List Txn}, List.Forall₂ (fun a c => ∃ B, BlockOf b.prices base div (summaries srt b base div) (acctsOf srt b) a B ∧ List.Perm c B) us gs' →
        List.Forall₂ (fun (_ : Txn) g => g ∈ gs) us gs' →
        List.Forall₂ (ReportOf b.prices base div (summaries srt b base div) (acctsOf srt b)) us gs' := by
      intro us gs' a
      induction a with
      | nil => intro _; exact .nil
      | cons x _ ih =>
        intro b'
        cases b' with
        | cons y b' =>
          obtain ⟨B, h1, h2⟩ := x
          exact .cons ⟨B, h1, h2, hsort.1 _ y⟩ (ih b')
    exact this h3 h4
  have hOh : Ordered (gs.map (hideFlip credit hidden)) := by
    have : List.Forall₂ (fun u t => ∃ g, ReportOf b.prices base div (summaries srt b base div) (acctsOf srt b) u g ∧ t = hideFlip credit hidden g)
        (b.transactions srt) (gs.map (hideFlip credit hidden)) := by
      rw [List.forall₂_map_right_iff]
      exact hR.imp fun u g h => ⟨g, h, rfl⟩
    refine ordered_forall₂ this hOus ?_
    rintro u t hu' _ ⟨g, ⟨B, hbl, hpm, _⟩, rfl⟩
    constructor
    · obtain ⟨e, he, hx⟩ := htwo hidden
      obtain ⟨r, hr, hra, _⟩ := block_nonempty hbl he
      obtain ⟨p0, hp0⟩ := List.exists_mem_of_ne_nil u (hu u hu').1.1
      have hacct : (entryOf u e).acct = e.1 := by have := (entryOf_key (hu u hu').1 e hp0).2.2; exact congrArg Prod.fst this
      unfold hideFlip
      intro h0
      have : r ∈ g.filter fun p => !(decide (hidden ≠ []) && decide (p.acct = hidden)) := by
        rw [List.mem_filter]
        refine ⟨hpm.mem_iff.2 hr, ?_⟩
        rw [hra, hacct]; simp [hx]
      rw [List.map_eq_nil_iff] at h0
      rw [h0] at this; cases this
    · intro r hr p hp
      obtain ⟨q, hq, e1, e2, _⟩ := mem_hideFlip hr
      have := block_keys (hu u hu').1 hbl q (hpm.mem_iff.1 hq) p hp
      exact ⟨by rw [e1, this.1], by rw [e2, this.2]⟩
  refine ⟨gs, ?_, hR, hOh, g1.symm⟩
  unfold Book.accumulate
  simp only
  rw [if_neg hp, hadd]
  simp only
  have hgt : groupTxns ((b.transactions srt).map (fill (acctsOf srt b))).flatten = (b.transactions srt).map (fill (acctsOf srt b)) :=
    groupTxns_of_groups hord.1 hord.2
  have hbs' := hbs
  unfold blocksOf summaries at hbs'
  rw [hgt, hbs']
  simp only
  rw [g1, hideFlip_flatten, groupTxns_of_groups hOh.1 hOh.2, if_neg]
  intro h0
  have := hR.length_eq
  cases gs with
  | nil => simp at this; exact hne this
  | cons g gs =>
    have := (hOh.1 (hideFlip credit hidden g) (by simp)).1
    rw [List.map_cons, List.flatten_cons, List.append_eq_nil_iff] at h0
    exact this h0.1

include hs in
/-- If the report completes, so did its blocks. -/
theorem accumulate_some {b : Book} (w : b.WF) (hb : Balanced b.post) (hne : b.transactions srt ≠ [])
    (base div : Str) (credit : Option (Str → Bool)) (hidden : Str) {o : Int → Str → List Str → List Str} {ts}
    (h : b.accumulate srt base div credit hidden o = some ts) : ∃ bs, blocksOf srt b base div o = some bs := by
  obtain ⟨hc, hu, hn, hA, hp, hadd, hord, htwo⟩ := book_data hs w hb hne
  unfold Book.accumulate at h
  simp only at h
  rw [if_neg hp, hadd] at h
  simp only at h
  rw [groupTxns_of_groups hord.1 hord.2] at h
  unfold blocksOf summaries
  split at h
  · cases h
  · exact ⟨_, by assumption⟩

end

end Verif
