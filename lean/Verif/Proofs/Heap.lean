import Verif.Spec.Heap
import Verif.Proofs.Group

namespace Verif
open Spec

theorem Spec.Apart.symm {x y : HPost} (h : Apart x y) : Apart y x := ⟨h.1.symm, h.2.2.1.symm, h.2.1.symm, h.2.2.2.symm⟩

theorem Spec.Sep.sublist {l l' : List HPost} (h : Sep l) (hs : l'.Sublist l) : Sep l' :=
  ⟨h.pair.sublist hs, fun x hx => h.self x (hs.mem hx)⟩

theorem Spec.Sep.perm {l l' : List HPost} (h : Sep l) (hp : l'.Perm l) : Sep l' :=
  ⟨(hp.pairwise_iff (fun h => Apart.symm h)).2 h.pair, fun x hx => h.self x (hp.mem_iff.1 hx)⟩

theorem setRat_self (r : Nat → Rat) (a : Nat) (v : Rat) : setRat r a v a = v := by simp [setRat]
theorem setRat_ne (r : Nat → Rat) {a a' : Nat} (h : a' ≠ a) (v : Rat) : setRat r a v a' = r a' := by simp [setRat, h]

theorem derefR_congr {r r' : Nat → Rat} {x : HPost} (hv : r' x.v = r x.v) (hb : r' x.b = r x.b) : derefR r' x = derefR r x := by
  simp [derefR, hv, hb]

theorem sameEntry_deref (r : Nat → Rat) (x y : HPost) : sameEntry (derefR r x) (derefR r y) = sameEntry x.p y.p := rfl

/-- The merge loop. `done` are the finished targets, `y` the current one, `todo` the cells still to be visited. -/
theorem mergeLoop_spec (todo : List HPost) : ∀ (i t : Nat) (r : Nat → Rat) (a : List HPost) (done : List HPost) (y : HPost) (spare : List HPost),
    t < i → a.take (t + 1) = done ++ [y] → done.length = t → a.drop i = todo ++ spare → Sep (done ++ y :: todo) →
    ∃ r' a' t' out, mergeLoop todo.length i t r a = (r', a', t') ∧ a'.take (t' + 1) = out ∧ out.Sublist (done ++ y :: todo) ∧
      t' < i + todo.length ∧ out.length = t' + 1 ∧ a'.drop (i + todo.length) = spare ∧ a'.length = a.length ∧
      out.map (derefR r') = done.map (derefR r) ++ mergeFrom (derefR r y) (todo.map (derefR r)) ∧
      (∀ x ∈ out, r' x.b = r x.b) ∧
      (∀ p, (∀ x ∈ y :: todo, x.v ≠ p) → r' p = r p) := by
  induction todo with
  | nil =>
    intro i t r a done y spare hti htake hdl hdrop hsep
    refine ⟨r, a, t, done ++ [y], rfl, htake, List.Sublist.refl _, by simpa using hti, by simp [hdl], by simpa using hdrop, rfl, ?_, ?_, ?_⟩
    · simp [mergeFrom]
    · intro x _; rfl
    · intro p _; rfl
  | cons x todo ih =>
    intro i t r a done y spare hti htake hdl hdrop hsep
    have hxi : a[i]? = some x := by
      have : (a.drop i)[0]? = some x := by rw [hdrop]; rfl
      simpa using this
    have hil : i < a.length := by
      rw [List.getElem?_eq_some_iff] at hxi
      exact hxi.1
    have hyt : a[t]? = some y := by
      have : (a.take (t + 1))[t]? = some y := by rw [htake]; simp [← hdl]
      rw [List.getElem?_take] at this
      simpa using this
    have hdrop' : a.drop (i + 1) = todo ++ spare := by
      have : (a.drop i).drop 1 = (x :: todo ++ spare).drop 1 := by rw [hdrop]
      simpa [List.drop_drop] using this
    have hlen : (x :: todo).length = todo.length + 1 := rfl
    rw [hlen]
    unfold mergeLoop
    simp only [hxi, hyt]
    have hpair := List.pairwise_append.1 hsep.pair
    have hyx : Apart y x := (List.pairwise_cons.1 hpair.2.1).1 x (by simp)
    by_cases hsame : sameEntry x.p y.p = true
    · rw [if_pos hsame]
      have hsep' : Sep (done ++ y :: todo) :=
        hsep.sublist (List.Sublist.append_left (List.Sublist.cons₂ _ (List.sublist_cons_self _ _)) _)
      obtain ⟨r', a', t', out, h1, h2, h3, h4, h5, h6, h7, h8, h9, h10⟩ :=
        ih (i + 1) t (setRat r y.v (r y.v + r x.v)) a done y spare (by omega) htake hdl hdrop' hsep'
      have hkeep : ∀ z ∈ done ++ todo, derefR (setRat r y.v (r y.v + r x.v)) z = derefR r z := by
        intro z hz
        have hap : Apart y z := by
          rcases List.mem_append.1 hz with hz | hz
          · exact (hpair.2.2 z hz y (by simp)).symm
          · exact (List.pairwise_cons.1 hpair.2.1).1 z (by simp [hz])
        exact derefR_congr (setRat_ne _ hap.1.symm _) (setRat_ne _ hap.2.1.symm _)
      have hy : derefR (setRat r y.v (r y.v + r x.v)) y = { derefR r y with val := (derefR r y).val + (derefR r x).val } := by
        have hb : setRat r y.v (r y.v + r x.v) y.b = r y.b := setRat_ne _ (hsep.self y (by simp)).symm _
        simp [derefR, setRat_self, hb]
      refine ⟨r', a', t', out, h1, h2, ?_, by omega, h5, by rw [← h6]; congr 1; omega, h7, ?_, ?_, ?_⟩
      · exact h3.trans (List.Sublist.append_left (List.Sublist.cons₂ _ (List.sublist_cons_self _ _)) _)
      · rw [h8, hy, List.map_congr_left (fun z hz => hkeep z (by simp [hz])),
          List.map_congr_left (l := todo) (fun z hz => hkeep z (by simp [hz])), List.map_cons]
        conv_rhs => rw [mergeFrom, if_pos (by rw [sameEntry_deref]; exact hsame)]
      · intro z hz
        rw [h9 z hz]
        have hzm := h3.mem hz
        apply setRat_ne
        rcases List.mem_append.1 hzm with hz' | hz'
        · exact (hpair.2.2 z hz' y (by simp)).2.2.1
        · rcases List.mem_cons.1 hz' with rfl | hz'
          · exact (hsep.self z (by simp)).symm
          · exact ((List.pairwise_cons.1 hpair.2.1).1 z (by simp [hz'])).2.1.symm
      · intro p hp
        rw [h10 p (fun z hz => hp z (by
          rcases List.mem_cons.1 hz with rfl | hz
          · simp
          · simp [hz]))]
        exact setRat_ne _ (Ne.symm (hp y (by simp))) _
    · rw [if_neg hsame]
      have htl : t + 1 ≤ i := hti
      generalize ha' : (if t + 1 < i then a.set (t + 1) x else a) = a2
      have hget : a2[t + 1]? = some x := by
        rw [← ha']
        split
        · rw [List.getElem?_set_self (by omega)]
        · rw [show t + 1 = i by omega]; exact hxi
      have htk : a2.take (t + 1) = done ++ [y] := by
        rw [← ha', ← htake]
        split
        · exact List.take_set_of_le le_rfl
        · rfl
      have htake2 : a2.take (t + 1 + 1) = (done ++ [y]) ++ [x] := by
        rw [List.take_add_one, htk, hget]
        rfl
      have hdr : a2.drop (i + 1) = todo ++ spare := by
        rw [← ha', ← hdrop']
        split
        · exact List.drop_set_of_lt (by omega)
        · rfl
      have hl2 : a2.length = a.length := by rw [← ha']; split <;> simp
      have hsep' : Sep ((done ++ [y]) ++ x :: todo) := by simpa using hsep
      obtain ⟨r', a', t', out, h1, h2, h3, h4, h5, h6, h7, h8, h9, h10⟩ :=
        ih (i + 1) (t + 1) r a2 (done ++ [y]) x spare (by omega) htake2 (by simp [hdl]) hdr hsep'
      refine ⟨r', a', t', out, h1, h2, by simpa using h3, by omega, h5, by rw [← h6]; congr 1; omega, by rw [h7, hl2], ?_, h9, ?_⟩
      · rw [h8, List.map_append, List.append_assoc, List.map_cons]
        conv_rhs => rw [List.map_cons, mergeFrom, if_neg (by rw [sameEntry_deref]; exact hsame)]
        rfl
      · intro p hp
        exact h10 p (fun z hz => hp z (by simp at hz ⊢; tauto))

/-- The loop that removes zeros. -/
theorem dropLoop_spec (todo : List HPost) : ∀ (i t : Nat) (r : Nat → Rat) (a : List HPost) (done : List HPost) (spare : List HPost),
    t ≤ i → a.take t = done → done.length = t → a.drop i = todo ++ spare →
    ∃ a' t', dropLoop todo.length i t r a = (a', t') ∧ a'.take t' = done ++ todo.filter (fun x => decide (r x.v ≠ 0)) ∧
      t' ≤ i + todo.length ∧ (done ++ todo.filter (fun x => decide (r x.v ≠ 0))).length = t' ∧
      a'.drop (i + todo.length) = spare ∧ a'.length = a.length := by
  induction todo with
  | nil =>
    intro i t r a done spare hti htake hdl hdrop
    exact ⟨a, t, rfl, by simpa using htake, by simpa using hti, by simp [hdl], by simpa using hdrop, rfl⟩
  | cons x todo ih =>
    intro i t r a done spare hti htake hdl hdrop
    have hxi : a[i]? = some x := by
      have : (a.drop i)[0]? = some x := by rw [hdrop]; rfl
      simpa using this
    have hil : i < a.length := by
      rw [List.getElem?_eq_some_iff] at hxi
      exact hxi.1
    have hdrop' : a.drop (i + 1) = todo ++ spare := by
      have : (a.drop i).drop 1 = (x :: todo ++ spare).drop 1 := by rw [hdrop]
      simpa [List.drop_drop] using this
    have hlen : (x :: todo).length = todo.length + 1 := rfl
    rw [hlen]
    unfold dropLoop
    simp only [hxi]
    by_cases hz : r x.v = 0
    · rw [if_pos hz]
      obtain ⟨a', t', h1, h2, h3, h4, h5, h6⟩ := ih (i + 1) t r a done spare (by omega) htake hdl hdrop'
      exact ⟨a', t', h1, by rw [h2]; simp [hz], by omega, by rw [← h4]; simp [hz], by rw [← h5]; congr 1; omega, h6⟩
    · rw [if_neg hz]
      generalize ha' : (if t < i then a.set t x else a) = a2
      have hget : a2[t]? = some x := by
        rw [← ha']
        split
        · rw [List.getElem?_set_self (by omega)]
        · rw [show t = i by omega]; exact hxi
      have htk : a2.take t = done := by
        rw [← ha', ← htake]
        split
        · exact List.take_set_of_le le_rfl
        · rfl
      have htake2 : a2.take (t + 1) = done ++ [x] := by
        rw [List.take_add_one, htk, hget]
        rfl
      have hdr : a2.drop (i + 1) = todo ++ spare := by
        rw [← ha', ← hdrop']
        split
        · exact List.drop_set_of_lt (by omega)
        · rfl
      have hl2 : a2.length = a.length := by rw [← ha']; split <;> simp
      obtain ⟨a', t', h1, h2, h3, h4, h5, h6⟩ := ih (i + 1) (t + 1) r a2 (done ++ [x]) spare (by omega) htake2 (by simp [hdl]) hdr
      exact ⟨a', t', h1, by rw [h2]; simp [hz], by omega, by rw [← h4]; simp [hz], by rw [← h5]; congr 1; omega, by rw [h6, hl2]⟩

/-- The balance loop. -/
theorem balLoop_spec (l : List HPost) : ∀ (amts : Str × Str → Rat) (r : Nat → Rat), Sep l →
    l.map (derefR (balLoop amts r l)) = setBals amts (l.map (derefR r)) ∧
    (∀ p, (∀ x ∈ l, x.b ≠ p) → balLoop amts r l p = r p) := by
  induction l with
  | nil => intro amts r _; exact ⟨rfl, fun p _ => rfl⟩
  | cons x l ih =>
    intro amts r hsep
    have hx := List.pairwise_cons.1 hsep.pair
    have hsep' : Sep l := hsep.sublist (List.sublist_cons_self _ _)
    unfold balLoop
    simp only
    obtain ⟨h1, h2⟩ := ih (fun k => if k = (x.p.acct, x.p.ccy) then amts (x.p.acct, x.p.ccy) + r x.v else amts k)
      (setRat r x.b (amts (x.p.acct, x.p.ccy) + r x.v)) hsep'
    refine ⟨?_, ?_⟩
    · rw [List.map_cons, h1, List.map_cons, setBals]
      have hkeep : ∀ z ∈ l, derefR (setRat r x.b (amts (x.p.acct, x.p.ccy) + r x.v)) z = derefR r z := fun z hz =>
        derefR_congr (setRat_ne _ (hx.1 z hz).2.2.1.symm _) (setRat_ne _ (hx.1 z hz).2.2.2.symm _)
      congr 1
      · have e1 := h2 x.v (fun z hz => (hx.1 z hz).2.1.symm)
        have e2 := h2 x.b (fun z hz => (hx.1 z hz).2.2.2.symm)
        rw [setRat_self] at e2
        rw [setRat_ne _ (hsep.self x (by simp))] at e1
        simp [derefR, e1, e2]
      · rw [List.map_congr_left hkeep]
        rfl
    · intro p hp
      rw [h2 p (fun z hz => hp z (by simp [hz]))]
      exact setRat_ne _ (Ne.symm (hp x (by simp))) _

/-- The slices of the re-index loop are the groups. -/
theorem reindex_spec (arr : Nat) (rest : List HPost) : ∀ (m : Mem) (first : HPost) (lastIdx i : Nat) (acc : List HPost) (g : HPost → Posting)
    (_ : ∀ x, (g x).date = x.p.date ∧ (g x).payee = x.p.payee) (spare : List HPost),
    (m.arrs arr).drop lastIdx = first :: acc.reverse ++ rest ++ spare → i = lastIdx + 1 + acc.length →
    (reindex arr first lastIdx i rest).map (fun s => (m.view s).map g) = groupFrom (g first) (acc.map g) (rest.map g) := by
  induction rest with
  | nil =>
    intro m first lastIdx i acc g hg spare hd hi
    have : ((m.arrs arr).drop lastIdx).take (i - lastIdx) = first :: acc.reverse := by
      rw [hd, List.append_nil]
      apply List.take_left'
      simp; omega
    simp only [reindex, groupFrom, Mem.view, this, List.map_cons, List.map_nil, List.map_reverse]
  | cons q rest ih =>
    intro m first lastIdx i acc g hg spare hd hi
    unfold reindex
    rw [List.map_cons, groupFrom, (hg q).1, (hg q).2, (hg first).1, (hg first).2]
    by_cases h : q.p.date = first.p.date ∧ q.p.payee = first.p.payee
    · rw [if_pos h, if_pos h]
      exact ih m first lastIdx (i + 1) (q :: acc) g hg spare (by rw [hd]; simp) (by simp; omega)
    · rw [if_neg h, if_neg h, List.map_cons]
      have ht : ((m.arrs arr).drop lastIdx).take (i - lastIdx) = first :: acc.reverse := by
        rw [hd, List.append_assoc]
        apply List.take_left'
        simp; omega
      have hd2 : (m.arrs arr).drop i = q :: ([] : List HPost).reverse ++ rest ++ spare := by
        have : ((m.arrs arr).drop lastIdx).drop (i - lastIdx) = q :: rest ++ spare := by
          rw [hd, List.append_assoc]
          apply List.drop_left'
          simp; omega
        rw [List.drop_drop, show lastIdx + (i - lastIdx) = i by omega] at this
        simpa using this
      have := ih m q i (i + 1) [] g hg spare hd2 (by simp)
      rw [this]
      simp [Mem.view, ht]

/-- The slices of the re-index loop cover the postings, in order. -/
theorem reindex_flatten (arr : Nat) (rest : List HPost) : ∀ (m : Mem) (first : HPost) (lastIdx i : Nat) (acc spare : List HPost),
    (m.arrs arr).drop lastIdx = first :: acc.reverse ++ rest ++ spare → i = lastIdx + 1 + acc.length →
    ((reindex arr first lastIdx i rest).map m.view).flatten = first :: acc.reverse ++ rest := by
  induction rest with
  | nil =>
    intro m first lastIdx i acc spare hd hi
    have : ((m.arrs arr).drop lastIdx).take (i - lastIdx) = first :: acc.reverse := by
      rw [hd, List.append_nil]
      apply List.take_left'
      simp; omega
    simp [reindex, Mem.view, this]
  | cons q rest ih =>
    intro m first lastIdx i acc spare hd hi
    unfold reindex
    split
    · have := ih m first lastIdx (i + 1) (q :: acc) spare (by rw [hd]; simp) (by simp; omega)
      rw [this]; simp
    · have ht : ((m.arrs arr).drop lastIdx).take (i - lastIdx) = first :: acc.reverse := by
        rw [hd, List.append_assoc]
        apply List.take_left'
        simp; omega
      have hd2 : (m.arrs arr).drop i = q :: ([] : List HPost).reverse ++ rest ++ spare := by
        have : ((m.arrs arr).drop lastIdx).drop (i - lastIdx) = q :: rest ++ spare := by
          rw [hd, List.append_assoc]
          apply List.drop_left'
          simp; omega
        rw [List.drop_drop, show lastIdx + (i - lastIdx) = i by omega] at this
        simpa using this
      have := ih m q i (i + 1) [] spare hd2 (by simp)
      rw [List.map_cons, List.flatten_cons, this]
      simp [Mem.view, ht]

theorem reindex_arr (arr : Nat) (rest : List HPost) : ∀ (first : HPost) (lastIdx i : Nat), lastIdx ≤ i →
    ∀ s ∈ reindex arr first lastIdx i rest, s.arr = arr ∧ s.off + s.len ≤ i + rest.length := by
  induction rest with
  | nil => intro first lastIdx i hi s hs; simp [reindex] at hs; rw [hs]; simp; omega
  | cons q rest ih =>
    intro first lastIdx i hi s hs
    unfold reindex at hs
    split at hs
    · have := ih _ _ _ (by omega) s hs
      simp; omega
    · rcases List.mem_cons.1 hs with rfl | hs
      · simp; omega
      · have := ih _ _ _ (by omega) s hs
        simp; omega

/-- The in-place compaction in terms of the list functions. -/
theorem hcompact_spec {srt : List HPost → List HPost} (hs : IsHSort srt) (m : Mem) (b : HBook)
    (hlen : b.len ≤ (m.arrs b.arr).length) (hne : b.posts m ≠ []) (hsep : Sep (b.posts m)) :
    let m' := (b.compact srt m).1
    let b' := (b.compact srt m).2
    let l' := setBals (fun _ => 0) (dropZero (mergeAdj ((srt (b.posts m)).map (derefR m.rats))))
    b'.arr = b.arr ∧ b'.len ≤ (m'.arrs b'.arr).length ∧ m'.next = m.next ∧ m'.nextR = m.nextR ∧
    (b'.posts m').map (derefR m'.rats) = l' ∧
    (b'.trans.map fun s => (m'.view s).map (derefR m'.rats)) = groupTxns l' ∧
    (b'.posts m').Sublist (srt (b.posts m)) ∧
    (∀ i, i ≠ b.arr → m'.arrs i = m.arrs i) ∧
    (∀ p, (∀ x ∈ b.posts m, x.v ≠ p ∧ x.b ≠ p) → m'.rats p = m.rats p) ∧
    (m'.arrs b.arr).drop b.len = (m.arrs b.arr).drop b.len ∧
    (b'.trans.map m'.view).flatten = b'.posts m' ∧ (∀ s ∈ b'.trans, s.arr = b.arr ∧ s.off + s.len ≤ b'.len) := by
  have hposts : b.posts m = (m.arrs b.arr).take b.len := rfl
  generalize hL : srt (b.posts m) = L
  have hLsep : Sep L := by rw [← hL]; exact hsep.perm (hs.perm _)
  have hLmem : ∀ x, x ∈ L ↔ x ∈ b.posts m := by intro x; rw [← hL]; exact (hs.perm _).mem_iff
  have hLlen : L.length = b.len := by
    rw [← hL, (hs.perm _).length_eq, hposts, List.length_take]; omega
  obtain ⟨y, todo, hyt⟩ : ∃ y todo, L = y :: todo := by
    cases hc : L with
    | nil =>
      exfalso
      rw [hc] at hL
      exact hne (List.Perm.nil_eq (hL ▸ hs.perm (b.posts m))).symm
    | cons y todo => exact ⟨y, todo, rfl⟩
  subst hyt
  simp only [List.length_cons] at hLlen
  have hk : b.len - 1 = todo.length := by omega
  unfold HBook.compact
  rw [if_neg hne]
  rw [← hposts, hL, hk]
  obtain ⟨r1, a1, t1, out, g1, g2, g3, g4, g5, g6, g7, g8, g9, g10⟩ :=
    mergeLoop_spec todo 1 0 m.rats (y :: todo ++ (m.arrs b.arr).drop b.len) [] y ((m.arrs b.arr).drop b.len)
      (by omega) (by simp) rfl (by simp) (by simpa using hLsep)
  simp only [List.nil_append, List.map_nil] at g3 g8
  have hdrop1 : a1.drop 0 = out ++ a1.drop (t1 + 1) := by rw [← g2, List.take_append_drop]; rfl
  obtain ⟨a2, n, e1, e2, e3, e4, e5, e6⟩ := dropLoop_spec out 0 0 r1 a1 [] (a1.drop (t1 + 1)) le_rfl (by simp) rfl hdrop1
  rw [g5] at e1 e3
  simp only [List.nil_append] at e2 e4
  have hn2 : n ≤ a2.length := by
    have := congrArg List.length e2
    rw [e4, List.length_take] at this
    omega
  have hsub : (out.filter fun x => decide (r1 x.v ≠ 0)).Sublist (y :: todo) := List.filter_sublist.trans g3
  have hsep2 : Sep (out.filter fun x => decide (r1 x.v ≠ 0)) := hLsep.sublist hsub
  have hdz : (out.filter fun x => decide (r1 x.v ≠ 0)).map (derefR r1) =
      dropZero (mergeAdj ((y :: todo).map (derefR m.rats))) := by
    rw [List.map_cons, mergeAdj, ← g8, dropZero, List.filter_map]
    congr 1
  have hframe : ∀ p, (∀ x ∈ b.posts m, x.v ≠ p ∧ x.b ≠ p) → r1 p = m.rats p := fun p hp =>
    g10 p (fun x hx => (hp x ((hLmem x).1 hx)).1)
  have hspare : a2.drop b.len = (m.arrs b.arr).drop b.len := by
    have e7 : a2.drop (t1 + 1) = a1.drop (t1 + 1) := by simpa [g5] using e5
    have e8 := congrArg (List.drop (b.len - (t1 + 1))) e7
    rw [List.drop_drop, List.drop_drop, show t1 + 1 + (b.len - (t1 + 1)) = 1 + todo.length by omega, g6] at e8
    rw [← e8]; congr 1; omega
  simp only [g1, e1]
  cases hres : a2.take n with
  | nil =>
    simp only
    have hnil : (out.filter fun x => decide (r1 x.v ≠ 0)) = [] := by rw [← e2, hres]
    rw [← hdz, hnil]
    refine ⟨trivial, ?_, trivial, trivial, ?_, rfl, ?_, ?_, hframe, ?_, ?_, ?_⟩
    · simp [setArr, hn2]
    · simp [HBook.posts, setArr, hres, setBals]
    · simp [HBook.posts, setArr, hres]
    · intro i hi; simp [setArr, hi]
    · simpa [setArr] using hspare
    · simp [HBook.posts, setArr, hres]
    · simp
  | cons x xs =>
    simp only
    have hxs : (out.filter fun x => decide (r1 x.v ≠ 0)) = x :: xs := by rw [← e2, hres]
    rw [hxs] at hsep2 hdz hsub
    obtain ⟨b1, b2⟩ := balLoop_spec (x :: xs) (fun _ => 0) r1 hsep2
    rw [← hdz, ← b1]
    have hd : (setArr m.arrs b.arr a2 b.arr).drop 0 = x :: ([] : List HPost).reverse ++ xs ++ a2.drop n := by
      have := List.take_append_drop n a2
      rw [hres] at this
      simpa [setArr] using this.symm
    refine ⟨trivial, ?_, trivial, trivial, ?_, ?_, ?_, ?_, ?_, ?_, ?_, ?_⟩
    · simp [setArr, hn2]
    · simp [HBook.posts, setArr, hres]
    · have := reindex_spec b.arr xs ⟨balLoop (fun _ => 0) r1 (x :: xs), setArr m.arrs b.arr a2, m.next, m.nextR⟩ x 0 1 []
        (derefR (balLoop (fun _ => 0) r1 (x :: xs))) (fun z => ⟨rfl, rfl⟩) (a2.drop n) hd rfl
      rw [this]
      rfl
    · simpa [HBook.posts, setArr, hres] using hsub
    · intro i hi; simp [setArr, hi]
    · intro p hp
      rw [b2 p (fun z hz => (hp z ((hLmem z).1 (hsub.mem hz))).2)]
      exact hframe p hp
    · simpa [setArr] using hspare
    · have := reindex_flatten b.arr xs ⟨balLoop (fun _ => 0) r1 (x :: xs), setArr m.arrs b.arr a2, m.next, m.nextR⟩ x 0 1 []
        (a2.drop n) hd rfl
      rw [this]
      simp [HBook.posts, setArr, hres]
    · have hnl : n = xs.length + 1 := by rw [← e4, hxs]; rfl
      intro s hs
      have := reindex_arr b.arr xs x 0 1 (by omega) s hs
      omega

end Verif
