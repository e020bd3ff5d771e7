import Verif.Proofs.Heap
import Verif.Proofs.Sort

namespace Verif
open Spec

/-- The list-level sort that does to the read-off postings what `srt` does to the cells. -/
theorem sort_transfer {srt : List HPost → List HPost} (hs : IsHSort srt) (r : Nat → Rat) (l : List HPost) :
    ∃ srtP, IsSort srtP ∧ srtP (l.map (derefR r)) = (srt l).map (derefR r) := by
  classical
  refine ⟨fun k => if k = l.map (derefR r) then (srt l).map (derefR r) else insSort k, ⟨?_, ?_⟩, by simp⟩
  · intro k
    by_cases h : k = l.map (derefR r)
    · simp only [h, if_true]
      exact (hs.perm l).map _
    · simp only [h, if_false]
      exact insSort_isSort.perm k
  · intro k
    by_cases h : k = l.map (derefR r)
    · simp only [h, if_true]
      rw [List.pairwise_map]
      exact hs.sorted l
    · simp only [h, if_false]
      exact insSort_isSort.sorted k

theorem posts_nil_iff {m : Mem} {b : HBook} (h : b.len ≤ (m.arrs b.arr).length) : b.posts m = [] ↔ b.len = 0 := by
  unfold HBook.posts
  rw [List.take_eq_nil_iff]
  constructor
  · rintro (h0 | h0)
    · exact h0
    · rw [h0] at h; simpa using h
  · exact Or.inl

/-- Compaction in place. -/
theorem hcompact_refines {srt : List HPost → List HPost} (hs : IsHSort srt) (m : Mem) (b : HBook) (fb : Book)
    (hlen : b.len ≤ (m.arrs b.arr).length) (harr : b.arr < m.next) (hsep : Sep (b.posts m))
    (haddr : ∀ x ∈ b.posts m, x.v < m.nextR ∧ x.b < m.nextR) (he : b.len = 0 → b.trans = [])
    (hp : (b.posts m).map (derefR m.rats) = fb.post) (ht : fb.post = [] → fb.trans = []) :
    ∃ srtP, IsSort srtP ∧ ReadsAs (b.compact srt m).1 (b.compact srt m).2 (fb.compact srtP) ∧
      Laid (b.compact srt m).1 (b.compact srt m).2 := by
  by_cases hne : b.posts m = []
  · have hl := (posts_nil_iff hlen).1 hne
    have hfp : fb.post = [] := by rw [← hp, hne]; rfl
    refine ⟨insSort, insSort_isSort, ?_, ?_⟩
    · unfold HBook.compact Book.compact
      rw [if_pos hne, if_pos hfp]
      exact ⟨hp, by rw [he hl, ht hfp]; rfl⟩
    · unfold HBook.compact
      rw [if_pos hne]
      exact ⟨hlen, harr, hsep, haddr, by rw [he hl]; simp, by rw [he hl, hne]; rfl, he⟩
  · obtain ⟨srtP, hsP, e⟩ := sort_transfer hs m.rats (b.posts m)
    have hfp : fb.post ≠ [] := by rw [← hp]; simpa using hne
    obtain ⟨h1, h2, h3, h3', h4, h5, h6, h7, h8, h9, h10, h11⟩ := hcompact_spec hs m b hlen hne hsep
    refine ⟨srtP, hsP, ⟨?_, ?_⟩, ?_⟩
    · rw [h4]
      unfold Book.compact
      rw [if_neg hfp, ← hp, ← e]; rfl
    · rw [h5]
      unfold Book.compact
      rw [if_neg hfp, ← hp, ← e]; rfl
    · have hmem : ∀ x ∈ (b.compact srt m).2.posts (b.compact srt m).1, x ∈ b.posts m := fun x hx =>
        (hs.perm _).mem_iff.1 (h6.mem hx)
      refine ⟨h2, by rw [h1, h3]; exact harr, (hsep.perm (hs.perm _)).sublist h6, ?_, by rw [h1]; exact h11, h10, ?_⟩
      · intro x hx
        rw [h3']; exact haddr x (hmem x hx)
      · intro h0
        have hnil := (posts_nil_iff h2).2 h0
        have hg : groupTxns (setBals (fun _ => 0) (dropZero (mergeAdj ((srt (b.posts m)).map (derefR m.rats))))) = [] := by
          rw [← h4, hnil]; rfl
        rw [hg] at h5
        simpa using h5

/-- A slice inside the part of the array that is rewritten cell by cell. -/
theorem view_mapped (l : List HPost) (φ : HPost → HPost) {n off k : Nat} (hn : n ≤ l.length) (h : off + k ≤ n) :
    ((((l.take n).map φ) ++ l.drop n).drop off).take k = ((l.drop off).take k).map φ := by
  rw [List.drop_append_of_le_length (by simp; omega), List.take_append_of_le_length (by simp; omega), ← List.map_drop, ← List.map_take,
    List.drop_take, List.take_take, Nat.min_eq_left (by omega)]

theorem view_sub_posts {m : Mem} {b : HBook} {s : Slice} (h : s.arr = b.arr) (hl : s.off + s.len ≤ b.len) :
    ∀ x ∈ m.view s, x ∈ b.posts m := by
  intro x hx
  unfold Mem.view at hx
  unfold HBook.posts
  rw [h] at hx
  obtain ⟨i, hi, rfl⟩ := List.getElem_of_mem hx
  rw [List.length_take, List.length_drop] at hi
  rw [List.getElem_take, List.getElem_drop]
  rw [List.mem_take_iff_getElem]
  exact ⟨s.off + i, by omega, rfl⟩

/-- After a cell-by-cell rewrite of the postings. -/
theorem mapped_posts (m : Mem) (b : HBook) (φ : HPost → HPost) (hlen : b.len ≤ (m.arrs b.arr).length) (r : Nat → Rat) (n1 n2 : Nat) :
    b.posts ⟨r, setArr m.arrs b.arr ((b.posts m).map φ ++ (m.arrs b.arr).drop b.len), n1, n2⟩ = (b.posts m).map φ := by
  unfold HBook.posts
  simp only [setArr, if_true]
  apply List.take_left'
  simp [hlen]

theorem mapped_len (m : Mem) (b : HBook) (φ : HPost → HPost) (hlen : b.len ≤ (m.arrs b.arr).length) :
    b.len ≤ (setArr m.arrs b.arr ((b.posts m).map φ ++ (m.arrs b.arr).drop b.len) b.arr).length := by
  simp [setArr, HBook.posts]; omega

theorem mapped_sep {l : List HPost} (h : Sep l) (φ : HPost → HPost) (hφ : ∀ x, (φ x).v = x.v ∧ (φ x).b = x.b) : Sep (l.map φ) := by
  refine ⟨?_, ?_⟩
  · rw [List.pairwise_map]
    refine h.pair.imp ?_
    intro x y hxy
    unfold Apart
    rw [(hφ x).1, (hφ x).2, (hφ y).1, (hφ y).2]
    exact hxy
  · intro x hx
    obtain ⟨y, hy, rfl⟩ := List.mem_map.1 hx
    rw [(hφ y).1, (hφ y).2]
    exact h.self y hy

theorem mapped_addr {l : List HPost} {n : Nat} (h : ∀ x ∈ l, x.v < n ∧ x.b < n) (φ : HPost → HPost)
    (hφ : ∀ x, (φ x).v = x.v ∧ (φ x).b = x.b) : ∀ x ∈ l.map φ, x.v < n ∧ x.b < n := by
  intro x hx
  obtain ⟨y, hy, rfl⟩ := List.mem_map.1 hx
  rw [(hφ y).1, (hφ y).2]
  exact h y hy

/-- A cell-by-cell rewrite that keeps the pointers, followed by compaction. -/
theorem mapped_refines {srt : List HPost → List HPost} (hs : IsHSort srt) {m : Mem} {b : HBook} {fb : Book} (h : Laid m b)
    (hr : ReadsAs m b fb) (φ : HPost → HPost) (ψ : Posting → Posting) (hφ : ∀ x, (φ x).v = x.v ∧ (φ x).b = x.b)
    (hψ : ∀ x, derefR m.rats (φ x) = ψ (derefR m.rats x)) :
    let m1 : Mem := { m with arrs := setArr m.arrs b.arr ((b.posts m).map φ ++ (m.arrs b.arr).drop b.len) }
    ∃ srtP, IsSort srtP ∧ ReadsAs (b.compact srt m1).1 (b.compact srt m1).2 (Book.compact srtP { fb with post := fb.post.map ψ }) ∧
      Laid (b.compact srt m1).1 (b.compact srt m1).2 := by
  intro m1
  have hp : b.posts m1 = (b.posts m).map φ := mapped_posts m b φ h.len m.rats m.next m.nextR
  apply hcompact_refines hs m1 b { fb with post := fb.post.map ψ }
  · exact mapped_len m b φ h.len
  · exact h.arr
  · rw [hp]; exact mapped_sep h.sep φ hφ
  · rw [hp]; exact mapped_addr h.addr φ hφ
  · exact h.empty
  · rw [hp, ← hr.1, List.map_map, List.map_map]
    apply List.map_congr_left
    intro x _
    exact hψ x
  · intro he
    have he' : fb.post = [] := by simpa using he
    rw [← hr.1] at he'
    have : b.posts m = [] := by simpa using he'
    show fb.trans = []
    rw [← hr.2, h.empty ((posts_nil_iff h.len).1 this)]
    rfl

/-- Multiplying amounts through their pointers. -/
theorem mulLoop_spec (c : HPost → Rat) (l : List HPost) : ∀ (r : Nat → Rat), Sep l →
    let r' := l.foldl (fun r x => setRat r x.v (r x.v * c x)) r
    (∀ x ∈ l, r' x.v = r x.v * c x ∧ r' x.b = r x.b) ∧ (∀ p, (∀ x ∈ l, x.v ≠ p) → r' p = r p) := by
  induction l with
  | nil => intro r _; simp
  | cons y l ih =>
    intro r hsep
    have hy := List.pairwise_cons.1 hsep.pair
    obtain ⟨h1, h2⟩ := ih (setRat r y.v (r y.v * c y)) (hsep.sublist (List.sublist_cons_self _ _))
    simp only [List.foldl_cons]
    refine ⟨?_, ?_⟩
    · intro x hx
      rcases List.mem_cons.1 hx with rfl | hx
      · constructor
        · rw [h2 x.v (fun z hz => (hy.1 z hz).1.symm), setRat_self]
        · rw [h2 x.b (fun z hz => (hy.1 z hz).2.2.1.symm), setRat_ne _ (hsep.self x (by simp)).symm]
      · obtain ⟨e1, e2⟩ := h1 x hx
        rw [e1, e2, setRat_ne _ (hy.1 x hx).1.symm, setRat_ne _ (hy.1 x hx).2.1.symm]
        exact ⟨rfl, rfl⟩
    · intro p hp
      rw [h2 p (fun z hz => hp z (by simp [hz])), setRat_ne _ (Ne.symm (hp y (by simp)))]

/-- `MapAmount` in place. -/
theorem mapAmount_refines {m : Mem} {b : HBook} {fb : Book} (h : Laid m b) (hr : ReadsAs m b fb) (g : Int → Str → Rat × Str) :
    ReadsAs (b.mapAmount g m) b (fb.mapAmount g) ∧ Laid (b.mapAmount g m) b := by
  obtain ⟨m1, _⟩ := mulLoop_spec (fun x => (g x.p.date x.p.ccy).1) (b.posts m) m.rats h.sep
  set φ : HPost → HPost := fun x => { x with p := { x.p with ccy := (g x.p.date x.p.ccy).2 } } with hφd
  have hφ : ∀ x, (φ x).v = x.v ∧ (φ x).b = x.b := fun x => ⟨rfl, rfl⟩
  have hp : b.posts (b.mapAmount g m) = (b.posts m).map φ := mapped_posts m b φ h.len _ m.next m.nextR
  have hd : ∀ x ∈ b.posts m, derefR (b.mapAmount g m).rats (φ x) = mapAmountPost g (derefR m.rats x) := by
    intro x hx
    obtain ⟨e1, e2⟩ := m1 x hx
    simp only [derefR, mapAmountPost, HBook.mapAmount, hφd]
    rw [e1, e2]
  have hv : ∀ s ∈ b.trans, (b.mapAmount g m).view s = (m.view s).map φ := by
    intro s hs
    obtain ⟨hs1, hs2⟩ := h.slices s hs
    have := view_mapped (m.arrs b.arr) φ (n := b.len) (off := s.off) (k := s.len) h.len hs2
    simpa [Mem.view, HBook.mapAmount, setArr, hs1, HBook.posts] using this
  refine ⟨⟨?_, ?_⟩, ?_⟩
  · rw [hp, List.map_map]
    show _ = fb.post.map (mapAmountPost g)
    rw [← hr.1, List.map_map]
    exact List.map_congr_left hd
  · show _ = fb.trans.map (·.map (mapAmountPost g))
    rw [← hr.2, List.map_map]
    apply List.map_congr_left
    intro s hs
    rw [hv s hs, List.map_map]
    simp only [Function.comp, List.map_map]
    apply List.map_congr_left
    intro x hx
    obtain ⟨hs1, hs2⟩ := h.slices s hs
    exact hd x (view_sub_posts hs1 hs2 x hx)
  · refine ⟨mapped_len m b φ h.len, h.arr, ?_, ?_, h.slices, ?_, h.empty⟩
    · rw [hp]; exact mapped_sep h.sep φ hφ
    · rw [hp]; exact mapped_addr h.addr φ hφ
    · rw [hp, ← h.index, List.map_flatten, List.map_map]
      congr 1
      exact List.map_congr_left hv

/-- New postings. -/
theorem alloc_spec (l : List Posting) : ∀ (r : Nat → Rat) (n : Nat),
    let s := alloc r n l
    s.2.2.map (derefR s.1) = l ∧ n ≤ s.2.1 ∧ (∀ x ∈ s.2.2, n ≤ x.v ∧ n ≤ x.b ∧ x.v < s.2.1 ∧ x.b < s.2.1) ∧ Sep s.2.2 ∧
    (∀ p, p < n → s.1 p = r p) := by
  induction l with
  | nil => intro r n; exact ⟨rfl, le_rfl, by simp [alloc], ⟨List.Pairwise.nil, by simp [alloc]⟩, fun _ _ => rfl⟩
  | cons q l ih =>
    intro r n
    obtain ⟨h1, h2, h3, h4, h5⟩ := ih (setRat (setRat r n q.val) (n + 1) q.bal) (n + 2)
    simp only [alloc]
    refine ⟨?_, by omega, ?_, ⟨?_, ?_⟩, ?_⟩
    · rw [List.map_cons, h1]
      congr 1
      simp only [derefR]
      rw [h5 n (by omega), h5 (n + 1) (by omega), setRat_self, setRat_ne _ (by omega), setRat_self]
    · intro x hx
      rcases List.mem_cons.1 hx with rfl | hx
      · simp only; omega
      · have := h3 x hx; omega
    · refine List.pairwise_cons.2 ⟨?_, h4.pair⟩
      intro x hx
      have := h3 x hx
      refine ⟨?_, ?_, ?_, ?_⟩ <;> simp only <;> omega
    · intro x hx
      rcases List.mem_cons.1 hx with rfl | hx
      · simp
      · exact h4.self x hx
    · intro p hp
      rw [h5 p (by omega), setRat_ne _ (by omega), setRat_ne _ (by omega)]

/-- Appending new postings. -/
theorem extend_refines {srt : List HPost → List HPost} (hs : IsHSort srt) {m : Mem} {b : HBook} {fb : Book} (h : Laid m b)
    (hr : ReadsAs m b fb) (room : Bool) (gen : Posting → List Posting) :
    ∃ srtP, IsSort srtP ∧ ReadsAs (b.extend srt room gen m).1 (b.extend srt room gen m).2
        (Book.compact srtP { fb with post := fb.post ++ fb.post.flatMap gen }) ∧
      Laid (b.extend srt room gen m).1 (b.extend srt room gen m).2 := by
  unfold HBook.extend
  rw [hr.1]
  obtain ⟨h1, h2, h3, h4, h5⟩ := alloc_spec (fb.post.flatMap gen) m.rats m.nextR
  generalize alloc m.rats m.nextR (fb.post.flatMap gen) = s at h1 h2 h3 h4 h5
  simp only
  have hposts : ∀ r n1 n2, HBook.posts ⟨r, setArr m.arrs (if room then b.arr else m.next)
      (if room then (b.posts m ++ s.2.2) ++ (m.arrs b.arr).drop (b.posts m ++ s.2.2).length else b.posts m ++ s.2.2), n1, n2⟩
      ⟨if room then b.arr else m.next, (b.posts m ++ s.2.2).length, b.trans⟩ = b.posts m ++ s.2.2 := by
    intro r n1 n2
    simp only [HBook.posts, setArr, if_true]
    cases room
    · simp only [Bool.false_eq_true, if_false]
      exact List.take_of_length_le le_rfl
    · simp only [if_true]
      exact List.take_left' rfl
  apply hcompact_refines hs _ _ { fb with post := fb.post ++ fb.post.flatMap gen }
  · simp only [setArr, if_true]
    cases room <;> simp
  · have := h.arr
    cases room <;> simp; omega
  · rw [hposts]
    refine ⟨List.pairwise_append.2 ⟨h.sep.pair, h4.pair, ?_⟩, ?_⟩
    · intro x hx y hy
      have := h.addr x hx
      have := h3 y hy
      refine ⟨?_, ?_, ?_, ?_⟩ <;> omega
    · intro x hx
      rcases List.mem_append.1 hx with hx | hx
      · exact h.sep.self x hx
      · exact h4.self x hx
  · rw [hposts]
    intro x hx
    rcases List.mem_append.1 hx with hx | hx
    · have := h.addr x hx; simp only; omega
    · have := h3 x hx; simp only; omega
  · intro h0
    simp only [List.length_append, Nat.add_eq_zero_iff, List.length_eq_zero_iff] at h0
    exact h.empty ((posts_nil_iff h.len).1 h0.1)
  · rw [hposts, List.map_append, h1, ← hr.1]
    congr 1
    apply List.map_congr_left
    intro x hx
    have := h.addr x hx
    exact derefR_congr (h5 _ this.1) (h5 _ this.2)
  · intro he
    have he' : fb.post = [] := (List.append_eq_nil_iff.1 he).1
    rw [← hr.1] at he'
    have : b.posts m = [] := by simpa using he'
    show fb.trans = []
    rw [← hr.2, h.empty ((posts_nil_iff h.len).1 this)]
    rfl

/-- All postings anew. -/
theorem replace_refines {srt : List HPost → List HPost} (hs : IsHSort srt) {m : Mem} {b : HBook} {fb : Book} (h : Laid m b)
    (hr : ReadsAs m b fb) (gen : Posting → Posting) :
    ∃ srtP, IsSort srtP ∧ ReadsAs (b.replace srt gen m).1 (b.replace srt gen m).2 (Book.compact srtP { fb with post := fb.post.map gen }) ∧
      Laid (b.replace srt gen m).1 (b.replace srt gen m).2 := by
  unfold HBook.replace
  rw [hr.1]
  obtain ⟨h1, h2, h3, h4, h5⟩ := alloc_spec (fb.post.map gen) m.rats m.nextR
  generalize alloc m.rats m.nextR (fb.post.map gen) = s at h1 h2 h3 h4 h5
  simp only
  have hposts : ∀ r n1 n2, HBook.posts ⟨r, setArr m.arrs m.next s.2.2, n1, n2⟩ ⟨m.next, s.2.2.length, b.trans⟩ = s.2.2 := by
    intro r n1 n2
    simp only [HBook.posts, setArr, if_true]
    exact List.take_of_length_le le_rfl
  have hnil : fb.post = [] → fb.trans = [] ∧ b.trans = [] := by
    intro he'
    rw [← hr.1] at he'
    have : b.posts m = [] := by simpa using he'
    have := h.empty ((posts_nil_iff h.len).1 this)
    refine ⟨?_, this⟩
    rw [← hr.2, this]; rfl
  apply hcompact_refines hs _ _ { fb with post := fb.post.map gen }
  · simp [setArr]
  · simp
  · rw [hposts]; exact h4
  · rw [hposts]
    intro x hx
    have := h3 x hx; simp only; omega
  · intro h0
    simp only [List.length_eq_zero_iff] at h0
    rw [h0] at h1
    exact (hnil (by simpa using h1.symm)).2
  · rw [hposts, h1]
  · intro he
    exact (hnil (by simpa using he)).1

/-- The slices `FilterTransaction` makes. -/
theorem filterSlices_spec (arr : Nat) (kept : List (List HPost)) : ∀ (m : Mem) (off : Nat) (acc : List Slice),
    (m.arrs arr).drop off = kept.flatten →
    ∃ ss, (kept.foldl (fun s t => (s.1 + t.length, s.2 ++ [(⟨arr, s.1, t.length⟩ : Slice)])) (off, acc)).2 = acc ++ ss ∧
      ss.map m.view = kept ∧ ∀ s ∈ ss, s.arr = arr ∧ s.off + s.len ≤ off + kept.flatten.length := by
  induction kept with
  | nil => intro m off acc _; exact ⟨[], by simp, rfl, by simp⟩
  | cons t kept ih =>
    intro m off acc hd
    obtain ⟨ss, h1, h2, h3⟩ := ih m (off + t.length) (acc ++ [⟨arr, off, t.length⟩]) (by
      rw [← List.drop_drop, hd, List.flatten_cons]
      exact List.drop_left' rfl)
    refine ⟨⟨arr, off, t.length⟩ :: ss, ?_, ?_, ?_⟩
    · rw [List.foldl_cons]
      simp only
      rw [h1]; simp
    · rw [List.map_cons, h2]
      congr 1
      unfold Mem.view
      simp only
      rw [hd, List.flatten_cons]
      exact List.take_left' rfl
    · intro s hs
      rw [List.flatten_cons, List.length_append]
      rcases List.mem_cons.1 hs with rfl | hs
      · exact ⟨rfl, by simp only; omega⟩
      · have := h3 s hs
        exact ⟨this.1, by omega⟩

/-- The test `FilterTransaction` makes on a transaction. -/
def keepTxn (f : Int → Str → Txn → Bool) : Txn → Bool
  | [] => false
  | p :: ps => f p.date p.payee (p :: ps)

theorem filterTransaction_eq (f : Int → Str → Txn → Bool) (b : Book) :
    b.filterTransaction f = { b with post := (b.trans.filter (keepTxn f)).flatten, trans := b.trans.filter (keepTxn f) } := by
  have e : ∀ P : Txn → Bool, (∀ t, P t = keepTxn f t) → b.trans.filter P = b.trans.filter (keepTxn f) := by
    intro P hP; rw [funext hP]
  unfold Book.filterTransaction
  simp only
  conv_lhs => rw [e _ (fun t => by cases t <;> rfl)]

theorem hfilter_eq (f : Int → Str → Txn → Bool) (m : Mem) (b : HBook) :
    let kept := (b.trans.map m.view).filter fun t => keepTxn f (t.map (derefR m.rats))
    b.filter f m = ({ m with arrs := setArr m.arrs m.next kept.flatten, next := m.next + 1 },
      ⟨m.next, kept.flatten.length, (kept.foldl (fun s t => (s.1 + t.length, s.2 ++ [(⟨m.next, s.1, t.length⟩ : Slice)])) (0, [])).2⟩) := by
  intro kept
  have e : ∀ P : List HPost → Bool, (∀ t, P t = keepTxn f (t.map (derefR m.rats))) → (b.trans.map m.view).filter P = kept := by
    intro P hP; rw [funext hP]
  unfold HBook.filter
  simp only
  conv_lhs => rw [e _ (fun t => by cases t <;> rfl)]

theorem flatten_sublist {α} {l l' : List (List α)} (h : l'.Sublist l) : l'.flatten.Sublist l.flatten := by
  induction h with
  | slnil => exact List.Sublist.refl _
  | cons a _ ih => exact ih.trans (List.sublist_append_right _ _)
  | cons_cons a _ ih => exact List.Sublist.append_left ih _

theorem filter_refines {m : Mem} {b : HBook} {fb : Book} (h : Laid m b) (hr : ReadsAs m b fb) (f : Int → Str → Txn → Bool) :
    ReadsAs (b.filter f m).1 (b.filter f m).2 (fb.filterTransaction f) ∧ Laid (b.filter f m).1 (b.filter f m).2 := by
  rw [hfilter_eq, filterTransaction_eq]
  set kept := (b.trans.map m.view).filter fun t => keepTxn f (t.map (derefR m.rats)) with hk
  simp only
  have hsub : kept.flatten.Sublist (b.posts m) := by
    rw [← h.index]; exact flatten_sublist List.filter_sublist
  have hkm : kept.map (·.map (derefR m.rats)) = fb.trans.filter (keepTxn f) := by
    rw [← hr.2, hk, List.filter_map, List.map_map, List.filter_map]
    rfl
  obtain ⟨ss, h1, h2, h3⟩ := filterSlices_spec m.next kept { m with arrs := setArr m.arrs m.next kept.flatten, next := m.next + 1 } 0 []
    (by simp [setArr])
  rw [List.nil_append] at h1
  rw [h1]
  have hposts : HBook.posts { m with arrs := setArr m.arrs m.next kept.flatten, next := m.next + 1 }
      ⟨m.next, kept.flatten.length, ss⟩ = kept.flatten := by
    simp only [HBook.posts, setArr, if_true]
    exact List.take_of_length_le le_rfl
  refine ⟨⟨?_, ?_⟩, ?_⟩
  · rw [hposts, List.map_flatten, hkm]
  · show (ss.map fun s => (Mem.view _ s).map (derefR m.rats)) = fb.trans.filter (keepTxn f)
    have e := congrArg (List.map (List.map (derefR m.rats))) h2
    rw [List.map_map] at e
    rw [← hkm]
    exact e
  · refine ⟨by simp [setArr], by simp, ?_, ?_, ?_, ?_, ?_⟩
    · rw [hposts]; exact h.sep.sublist hsub
    · rw [hposts]; exact fun x hx => h.addr x (hsub.mem hx)
    · intro s hs
      have := h3 s hs
      simp only; omega
    · rw [hposts]
      simp only
      rw [h2]
    · intro h0
      simp only at h0 ⊢
      have hkn : kept = [] := by
        by_contra hne
        obtain ⟨t, ht⟩ := List.exists_mem_of_ne_nil _ hne
        have ht2 := (List.mem_filter.1 ht).2
        have htn : t = [] := by
          have := List.length_eq_zero_iff.1 h0
          exact List.flatten_eq_nil_iff.1 this t ht
        rw [htn] at ht2
        simp [keepTxn] at ht2
      rw [hkn] at h2
      simpa using h2

/-- One operation. -/
theorem hop_refines {srt : List HPost → List HPost} (hs : IsHSort srt) (today : Int) (o : HOp) {m : Mem} {b : HBook} {fb : Book}
    (h : Laid m b) (hr : ReadsAs m b fb) :
    ∃ srtP, IsSort srtP ∧
      ((o.apply srt today (m, b) = none ∧ o.toOp.apply srtP today fb = none) ∨
       ∃ m' b' fb', o.apply srt today (m, b) = some (m', b') ∧ o.toOp.apply srtP today fb = some fb' ∧ ReadsAs m' b' fb' ∧ Laid m' b') := by
  have hnil : fb.post = [] → fb.trans = [] := by
    intro he'
    rw [← hr.1] at he'
    have : b.posts m = [] := by simpa using he'
    rw [← hr.2, h.empty ((posts_nil_iff h.len).1 this)]
    rfl
  cases o with
  | read =>
    obtain ⟨sp, h1, h2, h3⟩ := hcompact_refines hs m b fb h.len h.arr h.sep h.addr h.empty hr.1 hnil
    exact ⟨sp, h1, Or.inr ⟨_, _, _, rfl, rfl, h2, h3⟩⟩
  | mapTransaction g =>
    obtain ⟨sp, h1, h2, h3⟩ := mapped_refines hs h hr
      (fun x => { x with p := { x.p with date := (g x.p.date x.p.payee).1, payee := (g x.p.date x.p.payee).2 } })
      (fun p => { p with date := (g p.date p.payee).1, payee := (g p.date p.payee).2 }) (fun x => ⟨rfl, rfl⟩) (fun x => rfl)
    exact ⟨sp, h1, Or.inr ⟨_, _, _, rfl, rfl, h2, h3⟩⟩
  | mapAccount g =>
    obtain ⟨sp, h1, h2, h3⟩ := mapped_refines hs h hr (fun x => { x with p := mapAccountPost g x.p }) (mapAccountPost g)
      (fun x => ⟨rfl, rfl⟩) (fun x => rfl)
    exact ⟨sp, h1, Or.inr ⟨_, _, _, rfl, rfl, h2, h3⟩⟩
  | mapAmount g =>
    obtain ⟨h2, h3⟩ := mapAmount_refines h hr g
    exact ⟨insSort, insSort_isSort, Or.inr ⟨_, _, _, rfl, rfl, h2, h3⟩⟩
  | filter f =>
    obtain ⟨h2, h3⟩ := filter_refines h hr f
    exact ⟨insSort, insSort_isSort, Or.inr ⟨_, _, _, rfl, rfl, h2, h3⟩⟩
  | adjustPost room mat rep f =>
    obtain ⟨sp, h1, h2, h3⟩ := extend_refines hs h hr room _
    exact ⟨sp, h1, Or.inr ⟨_, _, _, rfl, rfl, h2, h3⟩⟩
  | depreciate room mat rep period n =>
    obtain ⟨sp, h1, h2, h3⟩ := extend_refines hs h hr room _
    exact ⟨sp, h1, Or.inr ⟨_, _, _, rfl, rfl, h2, h3⟩⟩
  | adjustBy by_ =>
    by_cases hn : by_ = b!"none"
    · refine ⟨insSort, insSort_isSort, Or.inr ⟨m, b, fb, ?_, ?_, hr, h⟩⟩
      · simp only [HOp.apply, HBook.adjustBy, if_pos hn]
      · simp only [HOp.toOp, Op.apply, Book.adjustBy, if_pos hn]
    · cases hd : daysSince (dateRange fb.post).2 (dateRange fb.post).1 with
      | none =>
        refine ⟨insSort, insSort_isSort, Or.inl ⟨?_, ?_⟩⟩
        · simp only [HOp.apply, HBook.adjustBy, if_neg hn, hr.1, hd]
        · simp only [HOp.toOp, Op.apply, Book.adjustBy, if_neg hn, hd]
      | some days =>
        cases hf : adjustFactor by_ days with
        | none =>
          refine ⟨insSort, insSort_isSort, Or.inl ⟨?_, ?_⟩⟩
          · simp only [HOp.apply, HBook.adjustBy, if_neg hn, hr.1, hd, hf]
          · simp only [HOp.toOp, Op.apply, Book.adjustBy, if_neg hn, hd, hf]
        | some q =>
          obtain ⟨sp, h1, h2, h3⟩ := replace_refines hs h hr (·.byFactor q)
          refine ⟨sp, h1, Or.inr ⟨_, _, _, ?_, ?_, h2, h3⟩⟩
          · simp only [HOp.apply, HBook.adjustBy, if_neg hn, hr.1, hd, hf]
          · simp only [HOp.toOp, Op.apply, Book.adjustBy, if_neg hn, hd, hf]

end Verif
