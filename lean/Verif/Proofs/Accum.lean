import Verif.Spec.Accum
import Verif.Proofs.Import
import Mathlib.Data.List.Dedup

/-! Lemmas on summaries: the missing accounts. -/

namespace Verif
open Spec

theorem pairLe_iff {a b : Str × Str} : pairLe a b = true ↔ toLex a ≤ toLex b := by
  rw [Prod.Lex.le_iff]; simp [pairLe]

theorem insertPair_perm (a : Str × Str) (l : List (Str × Str)) : (insertPair a l).Perm (a :: l) := by
  induction l with
  | nil => exact List.Perm.refl _
  | cons b l ih =>
    unfold insertPair
    split
    · exact List.Perm.refl _
    · exact (ih.cons b).trans (List.Perm.swap _ _ _)

theorem insertPair_sorted (a : Str × Str) (l : List (Str × Str)) (h : l.Pairwise (fun x y => toLex x ≤ toLex y)) :
    (insertPair a l).Pairwise (fun x y => toLex x ≤ toLex y) := by
  induction l with
  | nil => simp [insertPair]
  | cons b l ih =>
    obtain ⟨h1, h2⟩ := List.pairwise_cons.1 h
    unfold insertPair
    split
    · rename_i hab
      rw [pairLe_iff] at hab
      refine List.pairwise_cons.2 ⟨fun x hx => ?_, h⟩
      rcases List.mem_cons.1 hx with e | e
      · rw [e]; exact hab
      · exact le_trans hab (h1 x e)
    · rename_i hab
      rw [pairLe_iff] at hab
      refine List.pairwise_cons.2 ⟨fun x hx => ?_, ih h2⟩
      rcases List.mem_cons.1 ((insertPair_perm a l).mem_iff.1 hx) with e | e
      · rw [e]; exact le_of_lt (not_le.1 hab)
      · exact h1 x e

theorem sortPairs_spec (l : List (Str × Str)) :
    (l.foldr insertPair []).Perm l ∧ (l.foldr insertPair []).Pairwise (fun x y => toLex x ≤ toLex y) := by
  induction l with
  | nil => exact ⟨List.Perm.refl _, List.Pairwise.nil⟩
  | cons a l ih => exact ⟨(insertPair_perm a _).trans (ih.1.cons a), insertPair_sorted a _ ih.2⟩

/-- The account list: exactly the pairs that occur, strictly increasing. -/
theorem acctList_spec (posts : List Posting) :
    (∀ e, e ∈ acctList posts ↔ ∃ p ∈ posts, (p.acct, p.ccy) = e) ∧
    (acctList posts).Pairwise (fun x y => toLex x < toLex y) := by
  obtain ⟨h1, h2⟩ := sortPairs_spec (posts.map fun p => (p.acct, p.ccy)).dedup
  refine ⟨fun e => ?_, ?_⟩
  · unfold acctList
    rw [h1.mem_iff, List.mem_dedup, List.mem_map]
  · have hn : (acctList posts).Nodup := h1.nodup_iff.2 (List.nodup_dedup _)
    exact (h2.and hn).imp fun h => lt_of_le_of_ne h.1 (fun e => h.2 (toLex_inj.1 e))

theorem pairwise_lt_nodup {l : List (Str × Str)} (h : l.Pairwise (fun x y => toLex x < toLex y)) : l.Nodup :=
  h.imp fun h e => by rw [e] at h; exact lt_irrefl _ h

/-- A strictly increasing list contained in a strictly increasing list is a sublist. -/
theorem sublist_of_sorted {l m : List (Str × Str)} (hl : l.Pairwise (fun x y => toLex x < toLex y))
    (hm : m.Pairwise (fun x y => toLex x < toLex y)) (h : ∀ x ∈ l, x ∈ m) : l.Sublist m := by
  induction m generalizing l with
  | nil =>
    cases l with
    | nil => exact List.Sublist.slnil
    | cons a l => exact absurd (h a (by simp)) (by simp)
  | cons b m ih =>
    obtain ⟨m1, m2⟩ := List.pairwise_cons.1 hm
    cases l with
    | nil => exact List.nil_sublist _
    | cons a l =>
      obtain ⟨l1, l2⟩ := List.pairwise_cons.1 hl
      by_cases e : a = b
      · subst e
        refine (ih l2 m2 fun x hx => ?_).cons_cons _
        rcases List.mem_cons.1 (h x (by simp [hx])) with e | e
        · subst e; exact absurd (l1 x hx) (lt_irrefl _)
        · exact e
      · have ha : a ∈ m := by
          rcases List.mem_cons.1 (h a (by simp)) with e' | e'
          · exact absurd e' e
          · exact e'
        refine (ih hl m2 fun x hx => ?_).cons _
        rcases List.mem_cons.1 (h x hx) with e' | e'
        · subst e'
          rcases List.mem_cons.1 hx with e2 | e2
          · exact absurd e2.symm e
          · exact absurd (lt_trans (l1 x e2) (m1 a ha)) (lt_irrefl _)
        · exact e'

/-- The zero postings a transaction lacks. -/
def missing (exp : List (Str × Str)) (h : Posting) (u : Txn) : List Posting :=
  (exp.filter fun e => decide (e ∉ u.map fun p => (p.acct, p.ccy))).map (zeroPost h)

/-- The scan through one transaction. -/
theorem emptyLoop_block (accts : List (Str × Str)) (h : Posting) (rest : List Posting)
    (hrest : ∀ q qs, rest = q :: qs → ¬ (q.date = h.date ∧ q.payee = h.payee)) :
    ∀ (exp : List (Str × Str)) (u : List Posting) (f : Nat), exp.Nodup → (∀ p ∈ u, p.date = h.date ∧ p.payee = h.payee) →
    (u.map fun p => (p.acct, p.ccy)).Sublist exp →
    emptyLoop accts (f + exp.length) h exp (u ++ rest) = (emptyLoop accts f h [] rest).map (missing exp h u ++ ·) := by
  intro exp
  induction exp with
  | nil =>
    intro u f _ _ hsub
    have : u = [] := List.map_eq_nil_iff.1 (List.sublist_nil.1 hsub)
    subst this
    simp [missing]
  | cons e es ih =>
    intro u f hnd hu hsub
    obtain ⟨hn1, hn2⟩ := List.nodup_cons.1 hnd
    have hfuel : f + (e :: es).length = (f + es.length) + 1 := by simp; omega
    rw [hfuel]
    cases u with
    | nil =>
      have ihn := ih [] f hn2 (by simp) (by simp)
      simp only [List.nil_append] at ihn ⊢
      have hmiss : missing (e :: es) h [] = zeroPost h e :: missing es h [] := by simp [missing]
      have comp : ∀ o : Option (List Posting), Option.map (fun x => zeroPost h e :: x) (o.map (missing es h [] ++ ·)) =
          o.map (missing (e :: es) h [] ++ ·) := by
        intro o; cases o <;> simp [hmiss]
      cases rest with
      | nil =>
        conv_lhs => unfold emptyLoop
        simp only
        rw [ihn, comp]
      | cons q qs =>
        have hq := hrest q qs rfl
        conv_lhs => unfold emptyLoop
        simp only
        rw [if_neg (by simp only [decide_eq_true_eq]; exact fun hh => hq hh.1), ihn, comp]
    | cons p u =>
      have hp := hu p (by simp)
      simp only [List.map_cons] at hsub
      by_cases he : e = (p.acct, p.ccy)
      · have hsub' : (u.map fun p => (p.acct, p.ccy)).Sublist es := by
          rw [he] at hsub; exact List.cons_sublist_cons.1 hsub
        have ihn := ih u f hn2 (fun x hx => hu x (by simp [hx])) hsub'
        have hmiss : missing (e :: es) h (p :: u) = missing es h u := by
          unfold missing
          congr 1
          rw [List.filter_cons]
          simp only [List.map_cons, List.mem_cons, he, true_or, not_true, decide_false, Bool.false_eq_true, if_false]
          apply List.filter_congr
          intro x hx
          have : x ≠ (p.acct, p.ccy) := by rintro rfl; exact hn1 (by rw [he]; exact hx)
          simp [this]
        simp only [List.cons_append]
        conv_lhs => unfold emptyLoop
        simp only
        rw [if_pos (by simp only [decide_eq_true_eq]; exact ⟨hp, he⟩), ihn, hmiss]
      · have hsub' : ((p :: u).map fun p => (p.acct, p.ccy)).Sublist es := by
          rcases List.sublist_cons_iff.1 hsub with h | ⟨r, h1, h2⟩
          · exact h
          · simp only [List.cons.injEq] at h1; exact absurd h1.1.symm he
        have ihn := ih (p :: u) f hn2 hu hsub'
        have hnot : e ∉ (p :: u).map fun p => (p.acct, p.ccy) := fun hm => hn1 (hsub'.subset hm)
        have hmiss : missing (e :: es) h (p :: u) = zeroPost h e :: missing es h (p :: u) := by
          unfold missing
          rw [List.filter_cons, if_pos (by simpa using hnot)]; rfl
        simp only [List.cons_append] at ihn ⊢
        conv_lhs => unfold emptyLoop
        simp only
        rw [if_neg (by simp only [decide_eq_true_eq]; exact fun hh => he hh.2), ihn, hmiss]
        cases emptyLoop accts f h [] rest <;> simp

/-- First posting's zero postings. -/
def missingOf (accts : List (Str × Str)) (u : Txn) : List Posting :=
  match u with
  | [] => []
  | h :: _ => missing accts h u

theorem emptyLoop_all (accts : List (Str × Str)) (hn : accts.Nodup) (us : List Txn) :
    ∀ (h : Posting) (t : List Posting) (f : Nat), Ordered ((h :: t) :: us) →
    (∀ u ∈ (h :: t) :: us, (u.map fun p => (p.acct, p.ccy)).Sublist accts) →
    emptyLoop accts (f + 1 + (us.length + 1) * (accts.length + 1)) h accts ((h :: t) ++ us.flatten) =
      some ((((h :: t) :: us).map (missingOf accts)).flatten) := by
  induction us with
  | nil =>
    intro h t f ho hsub
    have := emptyLoop_block accts h [] (by simp) accts (h :: t) (f + 1 + 1) hn
      (fun p hp => (ho.1 (h :: t) (by simp)).2 p hp h (by simp)) (hsub _ (by simp))
    rw [show f + 1 + ((([] : List Txn).length) + 1) * (accts.length + 1) = f + 1 + 1 + accts.length by simp; omega]
    rw [List.flatten_nil, this]
    simp [emptyLoop, missingOf]
  | cons u us ih =>
    intro h t f ho hsub
    obtain ⟨q, qs, rfl⟩ := List.exists_cons_of_ne_nil (ho.1 u (by simp)).1
    have hord := List.pairwise_cons.1 ho.2
    have ho' : Ordered ((q :: qs) :: us) := ⟨fun x hx => ho.1 x (by simp [List.mem_cons] at hx ⊢; tauto), hord.2⟩
    have hne : ¬ (q.date = h.date ∧ q.payee = h.payee) :=
      txnBefore_irrefl (hord.1 (q :: qs) (by simp) h (by simp) q (by simp))
    have := emptyLoop_block accts h (((q :: qs) :: us).flatten) (by
        intro q' qs' e
        simp only [List.flatten_cons, List.cons_append, List.cons.injEq] at e
        rw [← e.1]; exact hne) accts (h :: t) (f + 1 + (us.length + 1) * (accts.length + 1) + 1) hn
      (fun p hp => (ho.1 (h :: t) (by simp)).2 p hp h (by simp)) (hsub _ (by simp))
    rw [show f + 1 + (((q :: qs) :: us).length + 1) * (accts.length + 1) =
        f + 1 + (us.length + 1) * (accts.length + 1) + 1 + accts.length by simp only [List.length_cons]; ring]
    rw [this]
    have hstep : emptyLoop accts (f + 1 + (us.length + 1) * (accts.length + 1) + 1) h [] (((q :: qs) :: us).flatten) =
        emptyLoop accts (f + 1 + (us.length + 1) * (accts.length + 1)) q accts ((q :: qs) ++ us.flatten) := by
      simp only [List.flatten_cons, List.cons_append]
      conv_lhs => unfold emptyLoop
      simp only
      rw [if_neg (by simpa using fun a b => hne ⟨a, b⟩)]
    rw [hstep, ih q qs f ho' (fun u hu => hsub u (by simp only [List.mem_cons] at hu ⊢; tauto))]
    simp [missingOf]

theorem emptyLoop_fuel (accts : List (Str × Str)) : ∀ (f g : Nat) (h : Posting) (exp rest r),
    emptyLoop accts f h exp rest = some r → f ≤ g → emptyLoop accts g h exp rest = some r := by
  intro f
  induction f with
  | zero => intro g h exp rest r hr; simp [emptyLoop] at hr
  | succ f ih =>
    intro g h exp rest r hr hg
    obtain ⟨g, rfl⟩ : ∃ g', g = g' + 1 := ⟨g - 1, by omega⟩
    have hg : f ≤ g := by omega
    unfold emptyLoop at hr ⊢
    simp only at hr ⊢
    split at hr
    · exact hr
    · obtain ⟨x, hx, e⟩ := Option.map_eq_some_iff.1 hr
      rw [ih g _ _ _ _ hx hg]; simpa using e
    · split at hr
      · cases hr
      · rename_i hc; rw [if_neg hc]; exact ih g _ _ _ _ hr hg
    · split at hr
      · rename_i hc; rw [if_pos hc]; exact ih g _ _ _ _ hr hg
      · rename_i hc
        rw [if_neg hc]
        obtain ⟨x, hx, e⟩ := Option.map_eq_some_iff.1 hr
        rw [ih g _ _ _ _ hx hg]; simpa using e


theorem srt_perm_strict {srt} (hs : IsSort srt) {l m : List Posting} (hlm : l.Perm m) (hp : ∀ p ∈ m, Plain p)
    (h : m.Pairwise (fun a b => key a < key b)) : srt l = m := by
  have hpl : ∀ p ∈ l, Plain p := fun p hp' => hp p (hlm.mem_iff.1 hp')
  refine List.Perm.eq_of_pairwise (le := fun a b => key a ≤ key b) ?_ (sorted_keys hs hpl) (h.imp le_of_lt)
    ((hs.perm l).trans hlm)
  intro a b ha hb hab hba
  have hk := le_antisymm hab hba
  have ha' : a ∈ m := hlm.mem_iff.1 ((hs.perm l).mem_iff.1 ha)
  by_contra hne
  have : ∀ (m : List Posting), m.Pairwise (fun a b => key a < key b) → a ∈ m → b ∈ m → key a = key b → a = b := by
    intro m hm
    induction m with
    | nil => intro h; cases h
    | cons x m ih =>
      intro h1 h2 e
      obtain ⟨k1, k2⟩ := List.pairwise_cons.1 hm
      rcases List.mem_cons.1 h1 with e1 | e1 <;> rcases List.mem_cons.1 h2 with e2 | e2
      · rw [e1, e2]
      · exact absurd (k1 b e2) (by rw [← e1, e]; exact lt_irrefl _)
      · exact absurd (k1 a e1) (by rw [← e2, e]; exact lt_irrefl _)
      · exact ih k2 e1 e2 e
  exact hne (this m h ha' hb hk)

/-- Pairs of a transaction. -/
abbrev pairOf (p : Posting) : Str × Str := (p.acct, p.ccy)

theorem entryOf_mem {u : Txn} (hd : (u.map pairOf).Nodup) {p : Posting} (hp : p ∈ u) : entryOf u (pairOf p) = p := by
  have : u.find? (fun q => decide ((q.acct, q.ccy) = pairOf p)) = some p := by
    induction u with
    | nil => cases hp
    | cons q u ih =>
      obtain ⟨h1, h2⟩ := List.nodup_cons.1 hd
      rcases List.mem_cons.1 hp with e | e
      · subst e; simp [pairOf]
      · have hne : (q.acct, q.ccy) ≠ pairOf p := fun e' => h1 (by
          show pairOf q ∈ _
          rw [show pairOf q = pairOf p from e']; exact List.mem_map.2 ⟨p, e, rfl⟩)
        rw [List.find?_cons_of_neg (by simpa using hne)]
        exact ih h2 e
  unfold entryOf
  rw [this]

theorem entryOf_not_mem {h : Posting} {t : List Posting} {e : Str × Str} (hn : e ∉ (h :: t).map pairOf) :
    entryOf (h :: t) e = zeroPost h e := by
  have : (h :: t).find? (fun q => decide ((q.acct, q.ccy) = e)) = none := by
    rw [List.find?_eq_none]
    intro q hq hh
    exact hn (List.mem_map.2 ⟨q, hq, by simpa using hh⟩)
  unfold entryOf
  rw [this]

/-- Date, payee, account and currency of an entry. -/
theorem entryOf_key {u : Txn} (hu : IsGroup u) (e : Str × Str) {p : Posting} (hp : p ∈ u) :
    (entryOf u e).date = p.date ∧ (entryOf u e).payee = p.payee ∧ ((entryOf u e).acct, (entryOf u e).ccy) = e := by
  obtain ⟨h, t, rfl⟩ := List.exists_cons_of_ne_nil hu.1
  have hh := hu.2 h (by simp) p hp
  unfold entryOf
  cases hf : (h :: t).find? (fun q => decide ((q.acct, q.ccy) = e)) with
  | none => exact ⟨hh.1, hh.2, rfl⟩
  | some q =>
    have hq := List.mem_of_find?_eq_some hf
    have := hu.2 q hq p hp
    refine ⟨this.1, this.2, ?_⟩
    simpa using List.find?_some hf

theorem entryOf_plain {u : Txn} (hp : ∀ p ∈ u, Plain p) (e : Str × Str) : Plain (entryOf u e) := by
  unfold entryOf
  split
  · rename_i q hf; exact hp q (List.mem_of_find?_eq_some hf)
  · exact ⟨rfl, rfl⟩
  · exact ⟨rfl, rfl⟩

theorem fill_perm {accts : List (Str × Str)} (hn : accts.Nodup) {u : Txn} (hu : IsGroup u)
    (hsub : (u.map pairOf).Sublist accts) : (u ++ missingOf accts u).Perm (fill accts u) := by
  obtain ⟨h, t, rfl⟩ := List.exists_cons_of_ne_nil hu.1
  have hd : ((h :: t).map pairOf).Nodup := hsub.nodup hn
  have hsplit : accts.Perm (accts.filter (fun e => decide (e ∈ (h :: t).map pairOf)) ++
      accts.filter (fun e => !decide (e ∈ (h :: t).map pairOf))) :=
    (List.filter_append_perm _ _).symm
  have hin : (accts.filter (fun e => decide (e ∈ (h :: t).map pairOf))).Perm ((h :: t).map pairOf) := by
    refine (List.perm_ext_iff_of_nodup (hn.filter _) hd).2 fun e => ?_
    simp only [List.mem_filter, decide_eq_true_eq]
    exact ⟨fun h => h.2, fun h => ⟨hsub.subset h, h⟩⟩
  unfold fill
  refine List.Perm.trans ?_ (hsplit.map (entryOf (h :: t))).symm
  rw [List.map_append]
  refine List.Perm.append ?_ ?_
  · refine List.Perm.trans ?_ (hin.map (entryOf (h :: t))).symm
    rw [List.map_map]
    have : (h :: t).map (entryOf (h :: t) ∘ pairOf) = h :: t := by
      conv_rhs => rw [← List.map_id (h :: t)]
      apply List.map_congr_left
      intro p hp
      exact entryOf_mem hd hp
    rw [this]
  · have : accts.filter (fun e => decide (e ∉ (h :: t).map fun p => (p.acct, p.ccy))) =
        accts.filter (fun e => !decide (e ∈ (h :: t).map pairOf)) := by
      apply List.filter_congr; intro e _; rw [decide_not]
    show (List.map (zeroPost h) (accts.filter fun e => decide (e ∉ (h :: t).map fun p => (p.acct, p.ccy)))).Perm _
    rw [this]
    apply List.Perm.of_eq
    apply List.map_congr_left
    intro e he
    rw [entryOf_not_mem]
    simpa using (List.mem_filter.1 he).2

/-- What `addEmptyAccounts` returns. -/
theorem addEmpty_spec {srt} (hs : IsSort srt) {us : List Txn} (hc : Canonical us) (hp : ∀ p ∈ us.flatten, Plain p)
    (hne : us.flatten ≠ []) :
    addEmptyAccounts srt us.flatten = some ((us.map (fill (acctList us.flatten))).flatten) ∧
    Ordered (us.map (fill (acctList us.flatten))) := by
  obtain ⟨a1, a2⟩ := acctList_spec us.flatten
  have hn := pairwise_lt_nodup a2
  have hgrp : ∀ u ∈ us, IsGroup u := fun u hu => ⟨hc.nonempty u hu, hc.oneTxn u hu⟩
  have hsub : ∀ u ∈ us, (u.map pairOf).Sublist (acctList us.flatten) := by
    intro u hu
    apply sublist_of_sorted _ a2
    · intro e he
      obtain ⟨p, hp, rfl⟩ := List.mem_map.1 he
      exact (a1 _).2 ⟨p, List.mem_flatten.2 ⟨u, hu, hp⟩, rfl⟩
    · rw [List.pairwise_map]
      refine (hc.postOrder u hu).imp ?_
      intro p q h
      rw [Prod.Lex.lt_iff]
      exact h
  have hacc : acctList us.flatten ≠ [] := by
    obtain ⟨p, ps, e⟩ := List.exists_cons_of_ne_nil hne
    intro h0
    have := (a1 (p.acct, p.ccy)).2 ⟨p, by rw [e]; simp, rfl⟩
    rw [h0] at this; cases this
  have hord : Ordered (us.map (fill (acctList us.flatten))) := by
    constructor
    · intro t ht
      obtain ⟨u, hu, rfl⟩ := List.mem_map.1 ht
      obtain ⟨p, ps, e⟩ := List.exists_cons_of_ne_nil (hgrp u hu).1
      have hpu : p ∈ u := by rw [e]; simp
      refine ⟨by simpa [fill] using hacc, ?_⟩
      intro x hx y hy
      obtain ⟨ex, _, rfl⟩ := List.mem_map.1 hx
      obtain ⟨ey, _, rfl⟩ := List.mem_map.1 hy
      have h1 := entryOf_key (hgrp u hu) ex hpu
      have h2 := entryOf_key (hgrp u hu) ey hpu
      exact ⟨by rw [h1.1, h2.1], by rw [h1.2.1, h2.2.1]⟩
    · rw [List.pairwise_map]
      refine List.Pairwise.imp_of_mem ?_ hc.txnOrder
      intro t u ht hu h x hx y hy
      obtain ⟨ex, _, rfl⟩ := List.mem_map.1 hx
      obtain ⟨ey, _, rfl⟩ := List.mem_map.1 hy
      obtain ⟨p, ps, e⟩ := List.exists_cons_of_ne_nil (hgrp t ht).1
      obtain ⟨q, qs, e'⟩ := List.exists_cons_of_ne_nil (hgrp u hu).1
      have hpt : p ∈ t := by rw [e]; simp
      have hqu : q ∈ u := by rw [e']; simp
      have h1 := entryOf_key (hgrp t ht) ex hpt
      have h2 := entryOf_key (hgrp u hu) ey hqu
      have := h p hpt q hqu
      unfold TxnBefore at this ⊢
      rw [h1.1, h2.1, h1.2.1, h2.2.1]; exact this
  refine ⟨?_, hord⟩
  cases us with
  | nil => exact absurd rfl hne
  | cons u us =>
    obtain ⟨h, t, rfl⟩ := List.exists_cons_of_ne_nil (hgrp u (by simp)).1
    have hO : Ordered ((h :: t) :: us) := ⟨hgrp, hc.txnOrder⟩
    have hloop := emptyLoop_all (acctList ((h :: t) :: us).flatten) hn us h t 0 hO hsub
    have hlen : us.length + 1 ≤ ((h :: t) :: us).flatten.length := by
      have : ∀ (ts : List Txn), (∀ u ∈ ts, u ≠ []) → ts.length ≤ ts.flatten.length := by
        intro ts
        induction ts with
        | nil => simp
        | cons u ts ih =>
          intro hts
          have h1 := List.length_pos_iff.2 (hts u (by simp))
          have h2 := ih (fun x hx => hts x (by simp [hx]))
          rw [List.flatten_cons, List.length_append, List.length_cons]; omega
      exact this _ (fun u hu => (hgrp u hu).1)
    have hloop2 := emptyLoop_fuel _ _ (((h :: t) :: us).flatten.length * ((acctList ((h :: t) :: us).flatten).length + 1) + 1) _ _ _ _ hloop
      (by have := Nat.mul_le_mul_right ((acctList ((h :: t) :: us).flatten).length + 1) hlen; omega)
    have hfl : ((h :: t) :: us).flatten = h :: (t ++ us.flatten) := rfl
    have hae : addEmptyAccounts srt ((h :: t) :: us).flatten =
        (emptyLoop (acctList ((h :: t) :: us).flatten)
          (((h :: t) :: us).flatten.length * ((acctList ((h :: t) :: us).flatten).length + 1) + 1) h
          (acctList ((h :: t) :: us).flatten) ((h :: t) ++ us.flatten)).map
          fun app => srt (((h :: t) :: us).flatten ++ app) := rfl
    rw [hae, hloop2]
    simp only [Option.map_some, Option.some.injEq]
    apply srt_perm_strict hs
    · -- permutation
      generalize hA : acctList ((h :: t) :: us).flatten = A at *
      have : ∀ ts : List Txn, (∀ u ∈ ts, u ∈ (h :: t) :: us) →
          (ts.flatten ++ (ts.map (missingOf A)).flatten).Perm (ts.map (fill A)).flatten := by
        intro ts
        induction ts with
        | nil => intro _; exact List.Perm.refl _
        | cons u ts ih =>
          intro hts
          have h1 := fill_perm hn (hgrp u (hts u (by simp))) (hsub u (hts u (by simp)))
          have h2 := ih (fun x hx => hts x (by simp [hx]))
          simp only [List.flatten_cons, List.map_cons]
          refine List.Perm.trans ?_ (h1.append h2)
          rw [List.append_assoc, List.append_assoc]
          refine List.Perm.append_left u ?_
          rw [← List.append_assoc, ← List.append_assoc]
          exact List.Perm.append_right _ List.perm_append_comm
      exact this _ (fun _ h => h)
    · intro p hp'
      obtain ⟨g, hg, hpg⟩ := List.mem_flatten.1 hp'
      obtain ⟨u, hu, rfl⟩ := List.mem_map.1 hg
      obtain ⟨e, _, rfl⟩ := List.mem_map.1 hpg
      exact entryOf_plain (fun q hq => hp q (List.mem_flatten.2 ⟨u, hu, hq⟩)) e
    · rw [List.pairwise_flatten]
      refine ⟨?_, hord.2.imp ?_⟩
      · intro g hg
        obtain ⟨u, hu, rfl⟩ := List.mem_map.1 hg
        obtain ⟨p, ps, e⟩ := List.exists_cons_of_ne_nil (hgrp u hu).1
        have hpu : p ∈ u := by rw [e]; simp
        unfold fill
        rw [List.pairwise_map]
        refine a2.imp ?_
        intro x y hxy
        have h1 := entryOf_key (hgrp u hu) x hpu
        have h2 := entryOf_key (hgrp u hu) y hpu
        rw [key_lt_iff, h1.1, h2.1, h1.2.1, h2.2.1]
        refine Or.inr ⟨rfl, Or.inr ⟨rfl, ?_⟩⟩
        have e1 := h1.2.2; have e2 := h2.2.2
        rw [Prod.Lex.lt_iff, ← e1, ← e2] at hxy
        exact hxy
      · intro g g' h x hx y hy
        have := h x hx y hy
        rw [key_lt_iff]
        rcases this with h | ⟨h1, h2⟩
        · exact Or.inl h
        · exact Or.inr ⟨h1, Or.inl h2⟩

end Verif
