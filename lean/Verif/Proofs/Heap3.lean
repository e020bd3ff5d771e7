import Verif.Proofs.Heap2

namespace Verif
open Spec

theorem cellsort_of_strict {srt : List HPost → List HPost} (hs : IsHSort srt) {l : List HPost} (hp : ∀ x ∈ l, Plain x.p)
    (h : l.Pairwise (fun a b => key a.p < key b.p)) : srt l = l := by
  have hsorted : (srt l).Pairwise fun a b => key a.p ≤ key b.p := by
    refine (List.Pairwise.imp_of_mem ?_ (hs.sorted l))
    intro a b ha hb hab
    rw [← not_lt]
    intro hlt
    have := (isLess_iff (hp b ((hs.perm l).mem_iff.1 hb)) (hp a ((hs.perm l).mem_iff.1 ha))).2 hlt
    rw [hab] at this
    exact Bool.noConfusion this
  refine List.Perm.eq_of_pairwise (le := fun a b => key a.p ≤ key b.p) ?_ hsorted (h.imp le_of_lt) (hs.perm l)
  intro a b ha hb hab hba
  have e := le_antisymm hab hba
  have ha' : a ∈ l := (hs.perm l).mem_iff.1 ha
  by_contra hne
  rcases List.pairwise_iff_getElem.1 h with h'
  obtain ⟨i, hi, ei⟩ := List.getElem_of_mem ha'
  obtain ⟨j, hj, ej⟩ := List.getElem_of_mem hb
  rcases Nat.lt_trichotomy i j with hij | hij | hij
  · have := h' i j hi hj hij; rw [ei, ej, e] at this; exact lt_irrefl _ this
  · subst hij; exact hne (by rw [← ei, ej])
  · have := h' j i hj hi hij; rw [ei, ej, e] at this; exact lt_irrefl _ this

theorem setBals_congr : ∀ (l l' : List Posting) (amts : Str × Str → Rat), l.map noBal = l'.map noBal → setBals amts l = setBals amts l' := by
  intro l
  induction l with
  | nil => intro l' amts h; cases l' with
    | nil => rfl
    | cons => simp at h
  | cons p l ih =>
    intro l' amts h
    cases l' with
    | nil => simp at h
    | cons q l' =>
      rw [List.map_cons, List.map_cons] at h
      obtain ⟨h1, h2⟩ := List.cons.inj h
      have e : ∀ v, ({ p with bal := v } : Posting) = { q with bal := v } := by
        intro v
        have := congrArg (fun x : Posting => { x with bal := v }) h1
        simpa [noBal] using this
      have ev : p.val = q.val := by have := congrArg Posting.val h1; exact this
      have ea : p.acct = q.acct := by have := congrArg Posting.acct h1; exact this
      have ec : p.ccy = q.ccy := by have := congrArg Posting.ccy h1; exact this
      simp only [setBals]
      rw [e, ev, ea, ec, ih l' _ h2]

theorem apart_of_mem {l : List HPost} (h : Sep l) {x y : HPost} (hx : x ∈ l) (hy : y ∈ l) (hne : x ≠ y) : Apart x y := by
  obtain ⟨i, hi, ei⟩ := List.getElem_of_mem hx
  obtain ⟨j, hj, ej⟩ := List.getElem_of_mem hy
  have h' := List.pairwise_iff_getElem.1 h.pair
  rcases Nat.lt_trichotomy i j with hij | hij | hij
  · have := h' i j hi hj hij; rwa [ei, ej] at this
  · subst hij; exact absurd (by rw [← ei, ej]) hne
  · have := h' j i hj hi hij; rw [ei, ej] at this; exact this.symm

/-- The transactions of the two copies: lists of cells, read with the numbers `r0`. -/
structure Static (r0 : Nat → Rat) (K0 : List (List HPost)) : Prop where
  sep : Sep K0.flatten
  plain : ∀ x ∈ K0.flatten, Plain x.p
  canon : Canonical (K0.map (·.map (derefR r0)))

/-- A copy whose transactions are the cells `K`. -/
structure Copy (m : Mem) (b : HBook) (K : List (List HPost)) : Prop where
  posts : b.posts m = K.flatten
  len : b.len ≤ (m.arrs b.arr).length
  views : b.trans.map m.view = K
  arr : b.arr < m.next
  slices : ∀ s ∈ b.trans, s.arr < m.next

/-- Books as values: the transactions `K` read with `r0`. -/
def bookOfCells (fb : Book) (r0 : Nat → Rat) (K : List (List HPost)) : Book :=
  { fb with post := (K.map (·.map (derefR r0))).flatten, trans := K.map (·.map (derefR r0)) }

theorem Static.sublist {r0 K0 K} (h : Static r0 K0) (hs : K.Sublist K0) : Static r0 K :=
  ⟨h.sep.sublist (flatten_sublist hs), fun x hx => h.plain x ((flatten_sublist hs).mem hx), h.canon.sublist (hs.map _)⟩

theorem bookOfCells_wf {r0 K} (fb : Book) (h : Static r0 K) : (bookOfCells fb r0 K).WF where
  plain := by
    intro p hp
    obtain ⟨t, ht, hpt⟩ := List.mem_flatten.1 hp
    obtain ⟨u, hu, rfl⟩ := List.mem_map.1 ht
    obtain ⟨x, hx, rfl⟩ := List.mem_map.1 hpt
    exact h.plain x (List.mem_flatten.2 ⟨u, hu, hx⟩)
  index := rfl
  groups t ht := ⟨h.canon.nonempty t ht, h.canon.oneTxn t ht⟩
  order := h.canon.txnOrder

/-- Copies do not notice what happens elsewhere. -/
theorem Copy.mono {m m' : Mem} {b : HBook} {K} (h : Copy m b K) (ha : ∀ i, i < m.next → m'.arrs i = m.arrs i) (hn : m.next ≤ m'.next) :
    Copy m' b K := by
  have hb := ha b.arr h.arr
  have h1 := h.arr
  refine ⟨?_, ?_, ?_, by omega, fun s hs => by have := h.slices s hs; omega⟩
  · rw [← h.posts]; unfold HBook.posts; rw [hb]
  · rw [hb]; exact h.len
  · rw [← h.views]
    apply List.map_congr_left
    intro s hs
    unfold Mem.view
    rw [ha s.arr (h.slices s hs)]

section
variable {srt : List HPost → List HPost} (hs : IsHSort srt) {r0 : Nat → Rat} {K0 : List (List HPost)}
include hs

/-- Reading a copy: nothing changes but the balances. -/
theorem read_copy (h0 : Static r0 K0) {m : Mem} {b : HBook} {K : List (List HPost)} (hK : K.Sublist K0) (h : Copy m b K)
    (hm : ∀ x ∈ K0.flatten, m.rats x.v = r0 x.v) :
    Copy (b.compact srt m).1 (b.compact srt m).2 K ∧ (b.compact srt m).1.arrs = m.arrs ∧ (b.compact srt m).1.next = m.next ∧
    (∀ x ∈ K0.flatten, (b.compact srt m).1.rats x.v = r0 x.v) ∧
    ∀ {srtP : List Posting → List Posting}, IsSort srtP → ∀ fb : Book,
      (b.transactions srt m).2.2 = (bookOfCells fb r0 K).transactions srtP := by
  have hst := h0.sublist hK
  by_cases hne : b.posts m = []
  · have e : b.compact srt m = (m, b) := by unfold HBook.compact; rw [if_pos hne]
    have hKn : K = [] := by
      by_contra hc
      obtain ⟨t, ht⟩ := List.exists_mem_of_ne_nil _ hc
      have hflat : K.flatten = [] := by rw [← h.posts]; exact hne
      have htn := List.flatten_eq_nil_iff.1 hflat t ht
      exact hst.canon.nonempty (t.map (derefR r0)) (List.mem_map.2 ⟨t, ht, rfl⟩) (by rw [htn]; rfl)
    rw [e]
    refine ⟨h, rfl, rfl, hm, ?_⟩
    intro srtP _ fb
    have ht : b.trans = [] := by
      have := h.views
      rw [hKn] at this
      simpa using this
    unfold HBook.transactions Book.transactions Book.compact
    rw [e, hKn]
    simp [bookOfCells, ht]
  · have hsepP : Sep (b.posts m) := by rw [h.posts]; exact hst.sep
    obtain ⟨h1, h2, h3, h3', h4, h5, h6, h7, h8, h9, h10, h11⟩ := hcompact_spec hs m b h.len hne hsepP
    have hrd : ∀ r : Nat → Rat, (K.map (·.map (derefR r))).flatten = K.flatten.map (derefR r) := fun r => by
      rw [List.map_flatten]
    -- keys are strictly increasing
    have hstrict : (b.posts m).Pairwise (fun a b => key a.p < key b.p) := by
      have := canonical_flatten_strict hst.canon
      rw [hrd, List.pairwise_map] at this
      rw [h.posts]
      exact this
    have hplain : ∀ x ∈ b.posts m, Plain x.p := by rw [h.posts]; exact hst.plain
    have hsrt := cellsort_of_strict hs hplain hstrict
    have hval : ∀ x ∈ b.posts m, m.rats x.v = r0 x.v := by
      intro x hx
      rw [h.posts] at hx
      exact hm x ((flatten_sublist hK).mem hx)
    have hstrictD : ((b.posts m).map (derefR m.rats)).Pairwise (fun a b => key a < key b) := by
      rw [List.pairwise_map]; exact hstrict
    have hnz : ∀ p ∈ (b.posts m).map (derefR m.rats), p.val ≠ 0 := by
      intro p hp
      obtain ⟨x, hx, rfl⟩ := List.mem_map.1 hp
      show m.rats x.v ≠ 0
      rw [hval x hx]
      have := canonical_flatten_nonzero hst.canon (derefR r0 x)
      rw [hrd] at this
      exact this (List.mem_map.2 ⟨x, by rw [← h.posts]; exact hx, rfl⟩)
    rw [hsrt, mergeAdj_of_strict hstrictD, dropZero_of_nonzero hnz] at h4 h5
    rw [hsrt] at h6
    -- the cells stay
    have hcells : (b.compact srt m).2.posts (b.compact srt m).1 = b.posts m := by
      apply h6.eq_of_length
      have := congrArg List.length h4
      have e2 := congrArg List.length (setBals_noBal (fun _ => 0) ((b.posts m).map (derefR m.rats)))
      simp only [List.length_map] at this e2
      rw [this, e2]
    have hlenE : (b.compact srt m).2.len = b.len := by
      have := congrArg List.length hcells
      unfold HBook.posts at this
      rw [List.length_take, List.length_take] at this
      have := h.len
      omega
    have harrB : (b.compact srt m).1.arrs b.arr = m.arrs b.arr := by
      rw [← List.take_append_drop b.len ((b.compact srt m).1.arrs b.arr), h9]
      conv_rhs => rw [← List.take_append_drop b.len (m.arrs b.arr)]
      congr 1
      have := hcells
      unfold HBook.posts at this
      rw [h1, hlenE] at this
      exact this
    have harrs : (b.compact srt m).1.arrs = m.arrs := by
      funext i
      by_cases hi : i = b.arr
      · rw [hi]; exact harrB
      · exact h7 i hi
    have hvals : ∀ x ∈ b.posts m, (b.compact srt m).1.rats x.v = m.rats x.v := by
      rw [hcells] at h4
      have := congrArg (List.map Posting.val) h4
      rw [setBals_map Posting.val (fun _ _ => rfl), List.map_map, List.map_map] at this
      exact List.map_inj_left.1 this
    -- the transactions stay
    have hgr : K.map (·.map (derefR (b.compact srt m).1.rats)) =
        groupTxns (K.flatten.map (derefR (b.compact srt m).1.rats)) := by
      rw [← hrd]
      symm
      apply groupTxns_of_groups
      · intro t ht
        obtain ⟨u, hu, rfl⟩ := List.mem_map.1 ht
        have hm : u.map (derefR r0) ∈ K.map (·.map (derefR r0)) := List.mem_map.2 ⟨u, hu, rfl⟩
        refine ⟨?_, ?_⟩
        · have := hst.canon.nonempty _ hm
          simpa using this
        · have := hst.canon.oneTxn _ hm
          simp only [List.forall_mem_map] at this ⊢
          exact this
      · have := hst.canon.txnOrder
        rw [List.pairwise_map] at this ⊢
        refine this.imp ?_
        intro t u htu
        simp only [List.forall_mem_map] at htu ⊢
        exact htu
    have hviews : (b.compact srt m).2.trans.map (b.compact srt m).1.view = K := by
      rw [List.eq_iff_flatten_eq]
      refine ⟨by rw [h10, hcells, h.posts], ?_⟩
      rw [hcells] at h4
      rw [← h4, h.posts, ← hgr] at h5
      have := congrArg (List.map List.length) h5
      simpa [List.map_map, Function.comp_def] using this
    refine ⟨⟨?_, h2, hviews, ?_, ?_⟩, harrs, h3, ?_, ?_⟩
    · rw [hcells, h.posts]
    · rw [h1, h3]; exact h.arr
    · intro s hs'
      rw [(h11 s hs').1, h3]; exact h.arr
    · intro x hx
      by_cases hxp : x ∈ b.posts m
      · rw [hvals x hxp, hval x hxp]
      · rw [h8 x.v ?_, hm x hx]
        intro y hy
        have hy0 : y ∈ K0.flatten := by
          rw [h.posts] at hy; exact (flatten_sublist hK).mem hy
        have := apart_of_mem h0.sep hy0 hx (by rintro rfl; exact hxp hy)
        exact ⟨this.1, this.2.2.1⟩
    · intro srtP hP fb
      have hwf := bookOfCells_wf fb hst
      rw [transactions_eq hP hwf, compactPost_of_canonical hP hwf.plain (by rw [← hwf.index]; exact canonical_flatten_strict hst.canon)
        (by rw [← hwf.index]; exact canonical_flatten_nonzero hst.canon)]
      have e3 : (b.transactions srt m).2.2 =
          (b.compact srt m).2.trans.map fun s => ((b.compact srt m).1.view s).map (derefR (b.compact srt m).1.rats) := rfl
      rw [e3, h5]
      congr 1
      apply setBals_congr
      show _ = ((K.map (·.map (derefR r0))).flatten).map noBal
      rw [hrd, ← h.posts, List.map_map, List.map_map]
      apply List.map_congr_left
      intro x hx
      simp [noBal, derefR, hval x hx]

end

/-- The filter does not look at running balances. -/
def BalFree (f : Int → Str → Txn → Bool) : Prop := ∀ d p t t', t.map noBal = t'.map noBal → f d p t = f d p t'

theorem keepTxn_congr {f} (hf : BalFree f) {t t' : Txn} (h : t.map noBal = t'.map noBal) : keepTxn f t = keepTxn f t' := by
  cases t with
  | nil => cases t' with
    | nil => rfl
    | cons => simp at h
  | cons p t =>
    cases t' with
    | nil => simp at h
    | cons q t' =>
      have h1 : noBal p = noBal q := (List.cons.inj h).1
      have ed : p.date = q.date := by have := congrArg Posting.date h1; exact this
      have ep : p.payee = q.payee := by have := congrArg Posting.payee h1; exact this
      simp only [keepTxn]
      rw [ed, ep]
      exact hf _ _ _ _ h

/-- Filtering a copy. -/
theorem filter_copy {r0 : Nat → Rat} {K0 K : List (List HPost)} {f} (hf : BalFree f) (fb : Book) {m : Mem} {b : HBook} (hK : K.Sublist K0)
    (h : Copy m b K) (hm : ∀ x ∈ K0.flatten, m.rats x.v = r0 x.v) :
    ∃ K', K'.Sublist K ∧ Copy (b.filter f m).1 (b.filter f m).2 K' ∧ (∀ i, i < m.next → (b.filter f m).1.arrs i = m.arrs i) ∧
    (b.filter f m).1.next = m.next + 1 ∧ (b.filter f m).1.rats = m.rats ∧
    (bookOfCells fb r0 K).filterTransaction f = bookOfCells fb r0 K' := by
  rw [hfilter_eq, filterTransaction_eq, h.views]
  set K' := K.filter fun t => keepTxn f (t.map (derefR m.rats)) with hk
  simp only
  obtain ⟨ss, h1, h2, h3⟩ := filterSlices_spec m.next K' { m with arrs := setArr m.arrs m.next K'.flatten, next := m.next + 1 } 0 []
    (by simp [setArr])
  rw [List.nil_append] at h1
  rw [h1]
  refine ⟨K', List.filter_sublist, ⟨?_, by simp [setArr], h2, by simp, ?_⟩, ?_, trivial, trivial, ?_⟩
  · simp only [HBook.posts, setArr, if_true]
    exact List.take_of_length_le le_rfl
  · intro s hs
    rw [(h3 s hs).1]; simp
  · intro i hi
    have : i ≠ m.next := by omega
    simp [setArr, this]
  · have : (K.map (·.map (derefR r0))).filter (keepTxn f) = K'.map (·.map (derefR r0)) := by
      rw [hk, List.filter_map]
      congr 1
      apply List.filter_congr
      intro t ht
      apply keepTxn_congr hf
      rw [List.map_map, List.map_map]
      apply List.map_congr_left
      intro x hx
      have := hm x ((flatten_sublist hK).mem (List.mem_flatten.2 ⟨t, ht, hx⟩))
      simp [noBal, derefR, this]
    unfold bookOfCells
    simp only
    rw [this]

end Verif
