import Verif.Proofs.Heap3
import Verif.Props.Compact

/-! # C80, C73: working in place, and copies that share

C80: the book works on one array of postings and on shared numbers, in place (merging, dropping zeros, mapping, appending).  All the
other theorems are about books as values.  Here: as long as no two postings share a number — which `Build` and every operation
guarantee — the book in memory reads, after every sequence of operations, as the book of values does.

C73: `Duplicate` breaks exactly that condition. -/

namespace Verif
open Spec

/-- C80: every sequence of operations, done in place, gives what the operations give on values. -/
theorem c80_in_place {srt : List HPost → List HPost} (hs : IsHSort srt) (today : Int) (ops : List HOp) :
    ∀ (m : Mem) (b : HBook) (fb : Book), Laid m b → ReadsAs m b fb →
    ∃ res, ListRun today (ops.map HOp.toOp) fb res ∧
      ((hrun srt today ops (m, b) = none ∧ res = none) ∨
       ∃ m' b' fb', hrun srt today ops (m, b) = some (m', b') ∧ res = some fb' ∧ ReadsAs m' b' fb' ∧ Laid m' b') := by
  induction ops with
  | nil => intro m b fb h hr; exact ⟨some fb, .nil fb, Or.inr ⟨m, b, fb, rfl, rfl, hr, h⟩⟩
  | cons o ops ih =>
    intro m b fb h hr
    obtain ⟨sp, hsp, hc⟩ := hop_refines hs today o h hr
    rcases hc with ⟨e1, e2⟩ | ⟨m1, b1, fb1, e1, e2, hr1, h1⟩
    · refine ⟨none, .panic sp hsp _ _ _ e2, Or.inl ⟨?_, rfl⟩⟩
      simp only [hrun, e1]
    · obtain ⟨res, h2, h3⟩ := ih m1 b1 fb1 h1 hr1
      refine ⟨res, .step sp hsp _ _ _ fb1 _ e2 h2, ?_⟩
      simp only [hrun, e1]
      exact h3

/-- C80: and `Transactions()` returns what it returns on values. -/
theorem c80_report {srt : List HPost → List HPost} (hs : IsHSort srt) (m : Mem) (b : HBook) (fb : Book) (h : Laid m b)
    (hr : ReadsAs m b fb) : ∃ srtP, IsSort srtP ∧ (b.transactions srt m).2.2 = fb.transactions srtP := by
  obtain ⟨sp, hsp, hc⟩ := hop_refines hs 0 .read h hr
  rcases hc with ⟨e1, _⟩ | ⟨m1, b1, fb1, e1, e2, hr1, h1⟩
  · simp [HOp.apply] at e1
  · refine ⟨sp, hsp, ?_⟩
    simp only [HOp.apply, HOp.toOp, Op.apply, Option.some.injEq] at e1 e2
    unfold HBook.transactions Book.transactions
    rw [e1, e2]
    exact hr1.2

/-- C80: a book just built is in that state, and reads as the built book of values. -/
theorem c80_build {srt : List HPost → List HPost} (hs : IsHSort srt) (l : List Posting) (fb : Book) (hp : fb.post = l) (ht : fb.trans = []) :
    ∃ srtP, IsSort srtP ∧ ReadsAs (hbuild srt l).1 (hbuild srt l).2 (fb.compact srtP) ∧ Laid (hbuild srt l).1 (hbuild srt l).2 := by
  obtain ⟨h1, h2, h3, h4, h5⟩ := alloc_spec l (fun _ => 0) 0
  unfold hbuild
  generalize alloc (fun _ => 0) 0 l = s at h1 h2 h3 h4 h5
  simp only
  have hl : s.2.2.length = l.length := by rw [← h1]; simp
  have hposts : HBook.posts { rats := s.1, arrs := fun i => if i = 0 then s.2.2 else [], next := 1, nextR := s.2.1 }
      ⟨0, s.2.2.length, List.replicate l.length ⟨0, 0, 0⟩⟩ = s.2.2 := by
    simp only [HBook.posts, if_true]
    exact List.take_of_length_le le_rfl
  apply hcompact_refines hs _ _ fb
  · simp
  · simp
  · rw [hposts]; exact h4
  · rw [hposts]; intro x hx
    have := h3 x hx; simp only; omega
  · intro h0
    simp only at h0
    rw [hl] at h0
    simp [h0]
  · rw [hposts, h1, hp]
  · intro _; exact ht

/-- A way to sort cells (for the examples): insertion sort. -/
def insertCell (x : HPost) : List HPost → List HPost
  | [] => [x]
  | y :: l => if y.p.isLess x.p then y :: insertCell x l else x :: y :: l

/-- A way to sort cells (for the examples). -/
def cellSort (l : List HPost) : List HPost := l.foldr insertCell []

theorem insertCell_perm (x : HPost) (l) : (insertCell x l).Perm (x :: l) := by
  induction l with
  | nil => exact List.Perm.refl _
  | cons y l ih =>
    unfold insertCell
    split
    · exact (ih.cons y).trans (List.Perm.swap x y l)
    · exact List.Perm.refl _

theorem insertCell_map (x : HPost) (l : List HPost) : (insertCell x l).map (·.p) = insertPost x.p (l.map (·.p)) := by
  induction l with
  | nil => rfl
  | cons y l ih =>
    simp only [insertCell, List.map_cons, insertPost]
    split
    · rw [List.map_cons, ih]
    · rfl

theorem cellSort_map (l : List HPost) : (cellSort l).map (·.p) = insSort (l.map (·.p)) := by
  induction l with
  | nil => rfl
  | cons x l ih =>
    show (insertCell x (cellSort l)).map (·.p) = insertPost x.p (insSort (l.map (·.p)))
    rw [insertCell_map, ih]

/-- The contract of the sort of cells can be met. -/
theorem cellSort_isHSort : IsHSort cellSort where
  perm l := by
    induction l with
    | nil => exact List.Perm.refl _
    | cons p l ih => exact (insertCell_perm p _).trans (ih.cons p)
  sorted l := by
    have := insSort_isSort.sorted (l.map (·.p))
    rw [← cellSort_map, List.pairwise_map] at this
    exact this

/-- Three postings of one transaction, as the loader would add them. -/
def heapDemo : List Posting :=
  [⟨20200101, b!"shop", [], b!"A", b!"USD", 10, [], 0, 0, [], []⟩, ⟨20200101, b!"shop", [], b!"B", b!"USD", 20, [], 0, 0, [], []⟩,
   ⟨20200101, b!"shop", [], b!"C", b!"USD", -30, [], 0, 0, [], []⟩]

/-- The book of the examples. -/
def heapBook : Book := ⟨heapDemo, [], [], []⟩

/-- What a list of transactions shows: account and amount. -/
def shownAmts (ts : List Txn) : List (List (Str × Rat)) := ts.map (·.map fun p => (p.acct, p.val))

/-- Nontrivial: mapping the amounts and merging two accounts in place. -/
example : ∃ m b, hrun cellSort 0 [.mapAmount (fun _ c => (2, c)), .mapAccount (fun a => if a = b!"B" then b!"A" else a)] (hbuild cellSort heapDemo) =
    some (m, b) ∧ shownAmts (b.transactions cellSort m).2.2 = [[(b!"A", 60), (b!"C", -60)]] :=
  ⟨_, _, rfl, by decide +kernel⟩

/-- C73 is false: multiplying the amounts of a duplicate changes what the original reports. -/
theorem c73_mapAmount_fails :
    ¬ ∀ (srt : List HPost → List HPost), IsHSort srt → ∀ (m : Mem) (b : HBook), Laid m b → ∀ g : Int → Str → Rat × Str,
      shownAmts (b.transactions srt ((b.duplicate m).2.mapAmount g (b.duplicate m).1)).2.2 = shownAmts (b.transactions srt m).2.2 := by
  intro h
  obtain ⟨_, _, _, hl⟩ := c80_build cellSort_isHSort heapDemo heapBook rfl rfl
  have := h cellSort cellSort_isHSort _ _ hl (fun _ c => (2, c))
  revert this
  decide +kernel

/-- C73 is false: merging two accounts of a duplicate changes what the original reports. -/
theorem c73_mapAccount_fails :
    ¬ ∀ (srt : List HPost → List HPost), IsHSort srt → ∀ (m : Mem) (b : HBook), Laid m b → ∀ g : Str → Str,
      shownAmts (b.transactions srt ((b.duplicate m).2.mapAccount srt g (b.duplicate m).1).1).2.2 = shownAmts (b.transactions srt m).2.2 := by
  intro h
  obtain ⟨_, _, _, hl⟩ := c80_build cellSort_isHSort heapDemo heapBook rfl rfl
  have := h cellSort cellSort_isHSort _ _ hl (fun a => if a = b!"B" then b!"A" else a)
  revert this
  decide +kernel

/-- What one may do with both copies. -/
inductive CopyOp
  | read
  | filter (f : Int → Str → Txn → Bool)

/-- A step on the original (`true`) or on the duplicate (`false`). -/
def copyStep (srt : List HPost → List HPost) (s : Mem × HBook × HBook) : Bool × CopyOp → Mem × HBook × HBook
  | (true, .read) => ((s.2.1.compact srt s.1).1, (s.2.1.compact srt s.1).2, s.2.2)
  | (false, .read) => ((s.2.2.compact srt s.1).1, s.2.1, (s.2.2.compact srt s.1).2)
  | (true, .filter f) => ((s.2.1.filter f s.1).1, (s.2.1.filter f s.1).2, s.2.2)
  | (false, .filter f) => ((s.2.2.filter f s.1).1, s.2.1, (s.2.2.filter f s.1).2)

/-- What the steps on one of the copies do to a book of values of its own. -/
def ownSteps (who : Bool) (fb : Book) : List (Bool × CopyOp) → Book
  | [] => fb
  | (w, .filter f) :: steps => ownSteps who (if w = who then fb.filterTransaction f else fb) steps
  | (_, .read) :: steps => ownSteps who fb steps

/-- C73, what holds: if the book is compacted (`Transactions()` was called) and then duplicated, and both copies are only read and
filtered, in any order and interleaving, by filters that do not look at running balances, then each copy reports exactly what a book
of its own would.  Missing: everything that writes amounts (see the two theorems above). -/
theorem c73_filters_partial {srt : List HPost → List HPost} (hs : IsHSort srt) {srtP : List Posting → List Posting} (hP : IsSort srtP)
    (m : Mem) (b : HBook) (fb : Book) (h : Laid m b) (hr : ReadsAs m b fb) (hc : Canonical fb.trans)
    (hpl : ∀ p ∈ fb.post, p.acctlevel = 0 ∧ p.acctsort = []) (steps : List (Bool × CopyOp))
    (hf : ∀ w f, (w, CopyOp.filter f) ∈ steps → ∀ d p t t', t.map noBal = t'.map noBal → f d p t = f d p t') :
    let s := steps.foldl (copyStep srt) ((b.duplicate m).1, b, (b.duplicate m).2)
    (s.2.1.transactions srt s.1).2.2 = (ownSteps true fb steps).transactions srtP ∧
    (s.2.2.transactions srt s.1).2.2 = (ownSteps false fb steps).transactions srtP := by
  have hview : (b.trans.map m.view).map (·.map (derefR m.rats)) = fb.trans := by
    rw [← hr.2, List.map_map]; rfl
  have h0 : Static m.rats (b.trans.map m.view) := by
    refine ⟨by rw [h.index]; exact h.sep, ?_, by rw [hview]; exact hc⟩
    rw [h.index]
    intro x hx
    exact hpl (derefR m.rats x) (by rw [← hr.1]; exact List.mem_map.2 ⟨x, hx, rfl⟩)
  have hfb : bookOfCells fb m.rats (b.trans.map m.view) = fb := by
    unfold bookOfCells
    rw [hview]
    have : fb.trans.flatten = fb.post := by rw [← hview, ← hr.1, ← h.index, List.map_flatten]
    rw [this]
  have hcopy : Copy m b (b.trans.map m.view) :=
    ⟨h.index.symm, h.len, rfl, h.arr, fun s hs => by rw [(h.slices s hs).1]; exact h.arr⟩
  have hb1 : Copy (b.duplicate m).1 b (b.trans.map m.view) := by
    refine hcopy.mono ?_ (by simp [HBook.duplicate])
    intro i hi
    have : i ≠ m.next := by omega
    simp [HBook.duplicate, setArr, this]
  have hd1 : Copy (b.duplicate m).1 (b.duplicate m).2 (b.trans.map m.view) := by
    have hpl : (b.posts m).length = b.len := by
      unfold HBook.posts; rw [List.length_take]; have := h.len; omega
    refine ⟨?_, ?_, hb1.views, by simp [HBook.duplicate], hb1.slices⟩
    · rw [h.index]
      show ((setArr m.arrs m.next (b.posts m)) m.next).take b.len = b.posts m
      simp only [setArr, if_true]
      exact List.take_of_length_le (by omega)
    · show b.len ≤ ((setArr m.arrs m.next (b.posts m)) m.next).length
      simp [setArr, hpl]
  have main : ∀ (steps : List (Bool × CopyOp)) (m1 : Mem) (b1 b2 : HBook) (K1 K2 : List (List HPost)) (f1 f2 : Book),
      (∀ w f, (w, CopyOp.filter f) ∈ steps → BalFree f) → K1.Sublist (b.trans.map m.view) → K2.Sublist (b.trans.map m.view) →
      Copy m1 b1 K1 → Copy m1 b2 K2 → (∀ x ∈ (b.trans.map m.view).flatten, m1.rats x.v = m.rats x.v) →
      f1 = bookOfCells fb m.rats K1 → f2 = bookOfCells fb m.rats K2 →
      let s := steps.foldl (copyStep srt) (m1, b1, b2)
      (s.2.1.transactions srt s.1).2.2 = (ownSteps true f1 steps).transactions srtP ∧
      (s.2.2.transactions srt s.1).2.2 = (ownSteps false f2 steps).transactions srtP := by
    intro steps
    induction steps with
    | nil =>
      intro m1 b1 b2 K1 K2 f1 f2 _ hK1 hK2 hc1 hc2 hm e1 e2
      simp only [List.foldl_nil, ownSteps]
      rw [e1, e2]
      exact ⟨(read_copy hs h0 hK1 hc1 hm).2.2.2.2 hP fb, (read_copy hs h0 hK2 hc2 hm).2.2.2.2 hP fb⟩
    | cons st steps ih =>
      intro m1 b1 b2 K1 K2 f1 f2 hbf hK1 hK2 hc1 hc2 hm e1 e2
      have hbf' : ∀ w f, (w, CopyOp.filter f) ∈ steps → BalFree f := fun w f hw => hbf w f (List.mem_cons_of_mem _ hw)
      simp only [List.foldl_cons]
      obtain ⟨who, o⟩ := st
      cases o with
      | read =>
        cases who with
        | true =>
          obtain ⟨r1, r2, r3, r4, _⟩ := read_copy hs h0 hK1 hc1 hm
          exact ih _ _ _ K1 K2 f1 f2 hbf' hK1 hK2 r1 (hc2.mono (fun i _ => by rw [r2]) (by rw [r3])) r4 e1 e2
        | false =>
          obtain ⟨r1, r2, r3, r4, _⟩ := read_copy hs h0 hK2 hc2 hm
          exact ih _ _ _ K1 K2 f1 f2 hbf' hK1 hK2 (hc1.mono (fun i _ => by rw [r2]) (by rw [r3])) r1 r4 e1 e2
      | filter f =>
        have hff := hbf who f (by simp)
        cases who with
        | true =>
          obtain ⟨K', q1, q2, q3, q4, q5, q6⟩ := filter_copy hff fb hK1 hc1 hm
          have := ih (b1.filter f m1).1 (b1.filter f m1).2 b2 K' K2 (f1.filterTransaction f) f2 hbf' (q1.trans hK1) hK2 q2
            (hc2.mono q3 (by rw [q4]; omega)) (by rw [q5]; exact hm) (by rw [e1, q6]) e2
          simpa [ownSteps, copyStep] using this
        | false =>
          obtain ⟨K', q1, q2, q3, q4, q5, q6⟩ := filter_copy hff fb hK2 hc2 hm
          have := ih (b2.filter f m1).1 b1 (b2.filter f m1).2 K1 K' f1 (f2.filterTransaction f) hbf' hK1 (q1.trans hK2)
            (hc1.mono q3 (by rw [q4]; omega)) q2 (by rw [q5]; exact hm) e1 (by rw [e2, q6])
          simpa [ownSteps, copyStep] using this
  exact main steps _ _ _ _ _ fb fb hf (List.Sublist.refl _) (List.Sublist.refl _) hb1 hd1 (fun x _ => rfl) hfb.symm hfb.symm

/-- Nontrivial: the hypotheses are met by a built book. -/
example : ∃ fb, Laid (hbuild cellSort heapDemo).1 (hbuild cellSort heapDemo).2 ∧
    ReadsAs (hbuild cellSort heapDemo).1 (hbuild cellSort heapDemo).2 fb ∧ Canonical fb.trans ∧ fb.trans ≠ [] := by
  obtain ⟨sp, h1, h2, h3⟩ := c80_build cellSort_isHSort heapDemo heapBook rfl rfl
  have hwf : (heapBook.compact sp).WF := compact_wf h1 (by
    intro p hp
    simp only [heapBook, heapDemo, List.mem_cons, List.not_mem_nil, or_false] at hp
    rcases hp with rfl | rfl | rfl <;> exact ⟨rfl, rfl⟩) (fun h => rfl)
  refine ⟨heapBook.compact sp, h3, h2, ?_, ?_⟩
  · have : Canonical (groupTxns (compactPost sp heapDemo)) := groupTxns_canonical (compactPost_strict h1 (by
      intro p hp
      simp only [heapDemo, List.mem_cons, List.not_mem_nil, or_false] at hp
      rcases hp with rfl | rfl | rfl <;> exact ⟨rfl, rfl⟩)) (compactPost_nonzero _)
    exact this
  · intro hn
    rw [← h2.2] at hn
    revert hn
    decide +kernel

end Verif
