import Verif.Proofs.Order
import Verif.Proofs.Accum3
import Verif.Props.Accum

/-! Lemmas: summaries of books that differ only in notes. -/

namespace Verif
open Spec

/-- A posting without notes and balance. -/
def strip (p : Posting) : Posting := { p with tnote := [], note := [], bal := 0 }

theorem strip_isLess (p q : Posting) : (strip p).isLess (strip q) = p.isLess q := rfl

theorem row_strip {p q : Posting} (h : strip p = strip q) : row p = row q := by
  have := congrArg row h
  exact this

/-- Rows neither of which comes before the other. -/
theorem isLess_tie {p q : Posting} (h1 : p.isLess q = false) (h2 : q.isLess p = false) :
    p.date = q.date ∧ p.payee = q.payee ∧ p.acct = q.acct ∧ p.acctlevel = q.acctlevel ∧ p.ccy = q.ccy := by
  have key : ∀ {α : Type} [LinearOrder α] (a b : α), ¬ a < b → ¬ b < a → a = b := fun a b h h' => le_antisymm (not_lt.1 h') (not_lt.1 h)
  unfold Posting.isLess at h1 h2
  split at h1
  · cases h1
  rename_i a1
  rw [if_neg a1] at h2
  split at h1
  · rename_i a2; rw [if_pos a2] at h2; cases h2
  rename_i a2
  rw [if_neg a2] at h2
  split at h1
  · cases h1
  rename_i b1
  rw [if_neg b1] at h2
  split at h1
  · rename_i b2; rw [if_pos b2] at h2; cases h2
  rename_i b2
  rw [if_neg b2] at h2
  split at h1
  · cases h1
  rename_i c1
  rw [if_neg c1] at h2
  split at h1
  · rename_i c2; rw [if_pos c2] at h2; cases h2
  rename_i c2
  rw [if_neg c2] at h2
  split at h1
  · cases h1
  rename_i d1
  rw [if_neg d1] at h2
  split at h1
  · rename_i d2; rw [if_pos d2] at h2; cases h2
  rename_i d2
  rw [if_neg d2] at h2
  split at h1
  · cases h1
  rename_i e1
  rw [if_neg e1] at h2
  split at h1
  · rename_i e2; rw [if_pos e2] at h2; cases h2
  rename_i e2
  rw [if_neg e2] at h2
  split at h1
  · cases h1
  rename_i f1
  split at h2
  · cases h2
  rename_i f2
  exact ⟨key _ _ a1 a2, key _ _ b1 b2, key _ _ d1 d2, key _ _ e1 e2, key _ _ f1 f2⟩

/-- What distinguishes the rows of a transaction. -/
def lineKey (p : Posting) : Str × Int × Str := (p.acct, p.acctlevel, p.ccy)

theorem sorted_unique {l m : List Posting} (hp : (l.map strip).Perm (m.map strip)) (hn : (l.map lineKey).Nodup)
    (hl : l.Pairwise fun a b => b.isLess a = false) (hm : m.Pairwise fun a b => b.isLess a = false) : l.map strip = m.map strip := by
  have inj : ∀ x ∈ l.map strip, ∀ y ∈ l.map strip, lineKey x = lineKey y → x = y := by
    have hn' : ((l.map strip).map lineKey).Nodup := by rw [List.map_map]; exact hn
    exact fun x hx y hy => List.inj_on_of_nodup_map hn' hx hy
  refine List.Perm.eq_of_pairwise (le := fun a b : Posting => b.isLess a = false) ?_ ?_ ?_ hp
  · intro a b ha hb h1 h2
    have := isLess_tie h2 h1
    refine inj a ha b (hp.mem_iff.2 hb) ?_
    unfold lineKey
    rw [this.2.2.1, this.2.2.2.1, this.2.2.2.2]
  · rw [List.pairwise_map]; exact hl
  · rw [List.pairwise_map]; exact hm

theorem Alike.acctccy {p q : Posting} (h : Alike p q) : (p.acct, p.ccy) = (q.acct, q.ccy) := by
  rw [h.fields.2.2.1, h.fields.2.2.2.1]

theorem map_eq_alike {α : Type} {f : Posting → α} (hf : ∀ p q, Alike p q → f p = f q) {l m : List Posting} (h : List.Forall₂ Alike l m) : l.map f = m.map f := by
  induction h with
  | nil => rfl
  | cons h _ ih => rw [List.map_cons, List.map_cons, hf _ _ h, ih]

theorem acctList_alike {l m : List Posting} (h : List.Forall₂ Alike l m) : acctList l = acctList m := by
  unfold acctList
  rw [map_eq_alike (fun p q h => h.acctccy) h]

theorem entryOf_alike {u v : Txn} (h : List.Forall₂ Alike u v) (e : Str × Str) : Alike (entryOf u e) (entryOf v e) := by
  have hf : (u.find? (fun p => decide ((p.acct, p.ccy) = e)) = none ∧ v.find? (fun p => decide ((p.acct, p.ccy) = e)) = none) ∨
      ∃ p q, u.find? (fun p => decide ((p.acct, p.ccy) = e)) = some p ∧ v.find? (fun p => decide ((p.acct, p.ccy) = e)) = some q ∧ Alike p q := by
    induction h with
    | nil => exact .inl ⟨rfl, rfl⟩
    | @cons p q u v h _ ih =>
      rw [List.find?_cons, List.find?_cons]
      rw [h.acctccy]
      by_cases hc : decide ((q.acct, q.ccy) = e) = true
      · rw [hc]; exact .inr ⟨p, q, rfl, rfl, h⟩
      · simp only [Bool.not_eq_true] at hc; rw [hc]; exact ih
  unfold entryOf
  rcases hf with ⟨h1, h2⟩ | ⟨p, q, h1, h2, h3⟩
  · rw [h1, h2]
    cases h with
    | nil => rfl
    | cons h _ =>
      rw [alike_iff]
      have := h.fields
      simp [zeroPost, this.1, this.2.1]
  · rw [h1, h2]; exact h3

theorem fill_alike (A : List (Str × Str)) {u v : Txn} (h : List.Forall₂ Alike u v) : List.Forall₂ Alike (fill A u) (fill A v) := by
  unfold fill
  induction A with
  | nil => exact .nil
  | cons e A ih => exact .cons (entryOf_alike h e) ih

theorem map_eq_of_forall₂ {α β : Type} {R : α → α → Prop} {f : α → β} (hf : ∀ p q, R p q → f p = f q) {l m : List α} (h : List.Forall₂ R l m) : l.map f = m.map f := by
  induction h with
  | nil => rfl
  | cons h _ ih => rw [List.map_cons, List.map_cons, hf _ _ h, ih]

theorem accumSet_accts {base div : Str} {l m : List Posting} (h : l.map (fun p => (p.acct, p.ccy)) = m.map (fun p => (p.acct, p.ccy))) :
    accumSet base div l = accumSet base div m := by
  unfold accumSet
  have e1 : ∀ l : List Posting, (l.filter fun p => decide (p.ccy ≠ base)).map (·.acct) =
      ((l.map fun p => (p.acct, p.ccy)).filter fun x => decide (x.2 ≠ base)).map (·.1) := by
    intro l; rw [List.filter_map, List.map_map]; rfl
  have e2 : ∀ l : List Posting, List.zipWith (fun p q : Posting => findMaxCommonPrefix p.acct q.acct div) l l.tail =
      List.zipWith (fun x y : Str × Str => findMaxCommonPrefix x.1 y.1 div) (l.map fun p => (p.acct, p.ccy)) (l.map fun p => (p.acct, p.ccy)).tail := by
    intro l; rw [← List.map_tail, List.zipWith_map]
  rw [e1, e2, e1 m, e2 m, h]

theorem convertPost_alike {prices : PriceBook} {base : Str} {p q : Posting} (h : Alike p q) : convertPost prices base p = convertPost prices base q := by
  have e := h.fields
  unfold convertPost
  rw [e.1, e.2.2.1, e.2.2.2.1, e.2.2.2.2.1]

theorem worth_alike {prices : PriceBook} {base : Str} {p q : Posting} (h : Alike p q) : worth prices base p = worth prices base q := by
  have e := h.fields
  unfold worth
  rw [e.1, e.2.2.2.1, e.2.2.2.2.1]

theorem treeTotal_alike {prices : PriceBook} {base div k : Str} {u v : Txn} (h : List.Forall₂ Alike u v) :
    treeTotal prices base div k u = treeTotal prices base div k v := by
  unfold treeTotal
  induction h with
  | nil => rfl
  | @cons p q u v h _ ih =>
    rw [List.filter_cons, List.filter_cons, h.fields.2.2.1]
    split
    · rw [List.map_cons, List.map_cons, List.sum_cons, List.sum_cons, ih, worth_alike h]
    · exact ih

theorem valOf_alike {prices : PriceBook} {base div : Str} {S : List Str} {A : List (Str × Str)} {u v : Txn} (h : List.Forall₂ Alike u v) :
    valOf prices base div S A u = valOf prices base div S A v := by
  unfold valOf
  rw [map_eq_alike (fun p q h => by rw [h.fields.2.2.1, worth_alike h]) (fill_alike A h)]

theorem perm_of_forall₂ {α β γ : Type} {R : α → β → Prop} {f : β → γ} {x : α → γ} (hR : ∀ a b, R a b → f b = x a) {l : List α} {m : List β}
    (h : List.Forall₂ R l m) : m.map f = l.map x := by
  induction h with
  | nil => rfl
  | cons h _ ih => rw [List.map_cons, List.map_cons, ih, hR _ _ h]

theorem leafOf_strip {S div val p q r s} (h : Alike p q) (hr : LeafOf S div val p r) (hs : LeafOf S div val q s) : strip r = strip s := by
  obtain ⟨lt, k, h1, rfl, h2⟩ := hr
  obtain ⟨lt', k', h1', rfl, h2'⟩ := hs
  have e := h.fields
  rw [e.2.2.1] at h1 h2
  rw [h1'] at h1
  cases h1
  rw [h2, h2']
  unfold strip
  simp [e.1, e.2.1, e.2.2.1, e.2.2.2.1, e.2.2.2.2.1]

/-- The subtotal row, written out. -/
def sumRow (prices : PriceBook) (base div : Str) (S : List Str) (val : Str → Option Rat) (u : Txn) (k : Str) : Posting :=
  match u, splitByStrings S k false div with
  | p :: _, some lt => ⟨p.date, p.payee, [], k, base, treeTotal prices base div k u, [], 0, lt.1, lt.2, getSortOrderString val k div⟩
  | _, _ => ⟨0, [], [], [], [], 0, [], 0, 0, [], []⟩

theorem sumOf_strip {prices base div S val} {u : Txn} {k r} (hu : u ≠ []) (h : SumOf prices base div S val u k r) : strip r = sumRow prices base div S val u k := by
  obtain ⟨p, t, rfl⟩ := List.exists_cons_of_ne_nil hu
  obtain ⟨lt, h1, h2, h3, h4, h5, h6, h7, h8⟩ := h
  unfold sumRow strip
  rw [h1]
  have := h7 p (by simp)
  cases r
  simp_all

theorem block_strip {prices base div S A} {u v : Txn} {B C : Txn} (hu : u ≠ []) (h : List.Forall₂ Alike u v) (hB : BlockOf prices base div S A u B)
    (hC : BlockOf prices base div S A v C) : (B.map strip).Perm (C.map strip) := by
  obtain ⟨l, s, S', rfl, hS', f1, f2⟩ := hB.ex
  obtain ⟨l', s', S'', rfl, hS'', g1, g2⟩ := hC.ex
  have hv : v ≠ [] := by rintro rfl; cases h; exact hu rfl
  rw [List.map_append, List.map_append]
  refine List.Perm.append ?_ ?_
  · have : l.map strip = l'.map strip := by
      rw [← valOf_alike h] at g1
      have hf := fill_alike A h
      generalize fill A u = x at hf f1
      generalize fill A v = y at hf g1
      clear hS' hS'' f2 g2 hB hC h hu hv
      induction hf generalizing l l' with
      | nil => cases f1; cases g1; rfl
      | cons h0 _ ih =>
        cases f1 with
        | cons a f1 =>
          cases g1 with
          | cons b g1 => rw [List.map_cons, List.map_cons, leafOf_strip h0 a b, ih _ _ f1 g1]
    rw [this]
  · rw [perm_of_forall₂ (fun k r h => sumOf_strip hu h) f2, perm_of_forall₂ (fun k r h => sumOf_strip hv h) g2]
    have : ∀ k, sumRow prices base div S (valOf prices base div S A u) u k = sumRow prices base div S (valOf prices base div S A v) v k := by
      intro k
      rw [valOf_alike h]
      cases h with
      | nil => rfl
      | cons h0 hs =>
        have ht := treeTotal_alike (prices := prices) (base := base) (div := div) (k := k) (.cons h0 hs)
        cases hsp : splitByStrings S k false div <;> simp [sumRow, hsp, ht, h0.fields.1, h0.fields.2.1]
    rw [List.map_congr_left fun k _ => this k]
    exact (hS'.trans hS''.symm).map _

/-- The rows of one transaction are distinct in account, level and currency. -/
theorem lines_nodup {prices base div S A} {u g : Txn} (hS : S.Nodup) (hA : A.Nodup) (hd : div ≠ []) (hg : IsGroup u)
    (h : ReportOf prices base div S A u g) : (g.map lineKey).Nodup := by
  have hk := report_keys hg h
  obtain ⟨B, hbl, _⟩ := h
  obtain ⟨l, s, S', rfl, hS', f1, f2⟩ := hbl.ex
  obtain ⟨p0, hp0⟩ := List.exists_mem_of_ne_nil u hg.1
  have hok : ∀ e ∈ A, (splitByStrings S e.1 true div).isSome := by
    intro e he
    obtain ⟨r, _, lt, _, hsp, _⟩ := forall₂_mem_left f1 (List.mem_map.2 ⟨e, he, rfl⟩)
    have k1 : (entryOf u e).acct = e.1 := congrArg Prod.fst (entryOf_key hg e hp0).2.2
    rw [← k1, hsp]; rfl
  have hok' : ∀ k ∈ S, (splitByStrings S k false div).isSome := by
    intro k hk
    obtain ⟨r, _, lt, hsp, _⟩ := forall₂_mem_left f2 (hS'.mem_iff.2 hk)
    rw [hsp]; rfl
  have e : g.map lineKey = (g.map rowKey).map (fun k => (k.acct, k.level, k.ccy)) := by rw [List.map_map]; rfl
  rw [e, (hk.map _).nodup_iff, List.map_append, List.map_map, List.map_map]
  have hl : ∀ e, (leafKey S div e).acct = e.1 ∧ (leafKey S div e).ccy = e.2 := by
    intro e; unfold leafKey; split <;> exact ⟨rfl, rfl⟩
  have hk : ∀ k, (sumKey S div base k).acct = k := by
    intro e; unfold sumKey; split <;> rfl
  rw [List.nodup_append]
  refine ⟨?_, ?_, ?_⟩
  · refine hA.map ?_
    intro e e' h
    simp only [Function.comp, Prod.mk.injEq, (hl e).1, (hl e').1, (hl e).2, (hl e').2] at h
    exact Prod.ext h.1 h.2.2
  · refine hS.map ?_
    intro k k' h
    simp only [Function.comp, Prod.mk.injEq, hk] at h
    exact h.1
  · intro x hx y hy hxy
    obtain ⟨e, he, rfl⟩ := List.mem_map.1 hx
    obtain ⟨k, hkS, rfl⟩ := List.mem_map.1 hy
    simp only [Function.comp, Prod.mk.injEq, hk, (hl e).1] at hxy
    obtain ⟨h1, h2, _⟩ := hxy
    obtain ⟨lt, hlt⟩ := Option.isSome_iff_exists.1 (hok e he)
    obtain ⟨lt', hlt'⟩ := Option.isSome_iff_exists.1 (hok' k hkS)
    have v1 := split_level hS hd hlt
    have v2 := split_level hS hd hlt'
    unfold leafKey sumKey at h2
    rw [hlt, hlt'] at h2
    simp only at h2
    rw [h1] at v1
    simp only [hkS, decide_true, Bool.and_true, if_true, Bool.false_and, Bool.false_eq_true, if_false] at v1 v2
    omega

theorem report_strip {prices base div S A} {u v g k : Txn} (hS : S.Nodup) (hA : A.Nodup) (hd : div ≠ []) (hg : IsGroup u) (h : List.Forall₂ Alike u v)
    (hr : ReportOf prices base div S A u g) (hr' : ReportOf prices base div S A v k) : g.map strip = k.map strip := by
  have hn := lines_nodup hS hA hd hg hr
  obtain ⟨B, b1, b2, b3⟩ := hr
  obtain ⟨C, c1, c2, c3⟩ := hr'
  exact sorted_unique (((b2.map strip).trans (block_strip hg.1 h b1 c1)).trans (c2.map strip).symm) hn b3 c3

theorem hideFlip_row {credit : Option (Str → Bool)} {hidden : Str} {g k : Txn} (h : g.map strip = k.map strip) :
    (hideFlip credit hidden g).map row = (hideFlip credit hidden k).map row := by
  have h' : List.Forall₂ (fun p q => strip p = strip q) g k := by
    rw [← List.forall₂_eq_eq_eq, List.forall₂_map_left_iff, List.forall₂_map_right_iff] at h; exact h
  clear h
  unfold hideFlip
  induction h' with
  | nil => rfl
  | @cons p q g k h _ ih =>
    have ha : p.acct = q.acct := (show (strip p).acct = (strip q).acct by rw [h])
    rw [List.filter_cons, List.filter_cons, ha]
    split
    · rw [List.map_cons, List.map_cons, List.map_cons, List.map_cons, ih]
      congr 1
      have := row_strip h
      simp only [row, Row.mk.injEq] at this
      cases credit with
      | none => simpa [row] using this
      | some m => simp only [ha]; split <;> simp [row, this]
    · exact ih

/-- When the block of a filled transaction can be computed. -/
def BlockOk (prices : PriceBook) (base div : Str) (S : List Str) (g : Txn) : Prop :=
  g = [] ∨ ((∀ p ∈ g, (convertPost prices base p).isSome) ∧ (∀ p ∈ g, (splitByStrings S p.acct true div).isSome) ∧
    ∀ k ∈ S, (splitByStrings S k false div).isSome)

theorem mapM_isSome {α β : Type} {f : α → Option β} {l : List α} : (l.mapM f).isSome ↔ ∀ a ∈ l, (f a).isSome := by
  constructor
  · intro h a ha
    obtain ⟨r, hr⟩ := Option.isSome_iff_exists.1 h
    obtain ⟨b, _, hb⟩ := forall₂_mem_left (mapM_forall₂ hr) ha
    rw [hb]; rfl
  · intro h
    obtain ⟨r, hr⟩ := mapM_exists (f := f) (l := l) fun a ha => Option.isSome_iff_exists.1 (h a ha)
    rw [hr]; rfl

theorem blockRows_isSome {prices base div S} {o : List Str → List Str} (ho : ∀ l, (o l).Perm l) (g : Txn) :
    (blockRows prices base div S o g).isSome ↔ BlockOk prices base div S g := by
  cases g with
  | nil => simp [blockRows, BlockOk]
  | cons h t =>
    unfold blockRows BlockOk
    simp only [reduceCtorEq, false_or]
    constructor
    · intro hh
      split at hh
      · cases hh
      rename_i cp hcp
      split at hh
      · rename_i l s h1 h2
        refine ⟨mapM_isSome.1 (by rw [hcp]; rfl), ?_, ?_⟩
        · intro p hp
          have := mapM_isSome.1 (by rw [h1]; rfl) p hp
          unfold leafRow at this
          rw [Option.isSome_map] at this; exact this
        · intro k hk
          have := mapM_isSome.1 (by rw [h2]; rfl) k ((ho S).mem_iff.2 hk)
          unfold summaryRow at this
          rw [Option.isSome_map] at this; exact this
      · cases hh
    · rintro ⟨h1, h2, h3⟩
      obtain ⟨cp, hcp⟩ := Option.isSome_iff_exists.1 (mapM_isSome.2 h1)
      rw [hcp]
      simp only
      have a1 : ((h :: t).mapM (leafRow S div cp)).isSome := mapM_isSome.2 fun p hp => by unfold leafRow; rw [Option.isSome_map]; exact h2 p hp
      have a2 : ((o S).mapM (summaryRow S div base cp h)).isSome := mapM_isSome.2 fun k hk => by
        unfold summaryRow; rw [Option.isSome_map]; exact h3 k ((ho S).mem_iff.1 hk)
      obtain ⟨l, hl⟩ := Option.isSome_iff_exists.1 a1
      obtain ⟨s, hs⟩ := Option.isSome_iff_exists.1 a2
      rw [hl, hs]; rfl

theorem blockOk_alike {prices base div S} {g k : Txn} (h : List.Forall₂ Alike g k) : BlockOk prices base div S g → BlockOk prices base div S k := by
  rintro (rfl | ⟨h1, h2, h3⟩)
  · cases h; exact .inl rfl
  · refine .inr ⟨fun q hq => ?_, fun q hq => ?_, h3⟩
    · obtain ⟨p, hp, ha⟩ := forall₂_mem_right h hq
      rw [← convertPost_alike ha]; exact h1 p hp
    · obtain ⟨p, hp, ha⟩ := forall₂_mem_right h hq
      rw [← ha.fields.2.2.1]; exact h2 p hp

theorem alike_symm {l m : List Posting} (h : List.Forall₂ Alike l m) : List.Forall₂ Alike m l := (forall₂_flip h).imp fun _ _ h => Eq.symm h

theorem SameBook.symm {b b' : Book} (h : SameBook b b') : SameBook b' b :=
  ⟨alike_symm h.post, (forall₂_flip h.trans).imp fun _ _ h => alike_symm h, h.prices.symm⟩

section
variable {srt srt' : List Posting → List Posting} (hs : IsSort srt) (hs' : IsSort srt') {b b' : Book} (hb : b.Good) (hb' : b'.Good) (h : SameBook b b')
include hs hs' hb hb' h

theorem transactions_same : List.Forall₂ (List.Forall₂ Alike) (b.transactions srt) (b'.transactions srt') :=
  (compact_same hs hs' hb.1.plain hb'.1.plain h).trans

theorem acctsOf_same : acctsOf srt b = acctsOf srt' b' := by
  unfold acctsOf reported
  exact acctList_alike (List.rel_flatten (transactions_same hs hs' hb hb' h))

theorem fills_same : List.Forall₂ (List.Forall₂ Alike) ((b.transactions srt).map (fill (acctsOf srt b))) ((b'.transactions srt').map (fill (acctsOf srt' b'))) := by
  rw [← acctsOf_same hs hs' hb hb' h, List.forall₂_map_left_iff, List.forall₂_map_right_iff]
  exact (transactions_same hs hs' hb hb' h).imp fun _ _ h => fill_alike _ h

theorem summaries_same (base div : Str) : summaries srt b base div = summaries srt' b' base div := by
  unfold summaries
  exact accumSet_accts (map_eq_alike (fun p q h => h.acctccy) (List.rel_flatten (fills_same hs hs' hb hb' h)))

theorem blocks_same (base div : Str) {o o' : Int → Str → List Str → List Str} (ho : ∀ d py l, (o d py l).Perm l) (ho' : ∀ d py l, (o' d py l).Perm l)
    (hx : (blocksOf srt b base div o).isSome) : (blocksOf srt' b' base div o').isSome := by
  unfold blocksOf at hx ⊢
  rw [mapM_isSome] at hx ⊢
  intro k hk
  obtain ⟨g, hg, ha⟩ := forall₂_mem_right (fills_same hs hs' hb hb' h) hk
  have := (blockRows_isSome (mapOrder_perm ho g) g).1 (hx g hg)
  rw [h.prices, summaries_same hs hs' hb hb' h] at this
  exact (blockRows_isSome (mapOrder_perm ho' k) k).2 (blockOk_alike ha this)

theorem accumulate_same {base div : Str} (hd : div ≠ []) (credit : Option (Str → Bool)) (hidden : Str) {o o' : Int → Str → List Str → List Str}
    (ho : ∀ d py l, (o d py l).Perm l) (ho' : ∀ d py l, (o' d py l).Perm l) {ts : List Txn}
    (hx : b.accumulate srt base div credit hidden o = some ts) :
    ∃ ts', b'.accumulate srt' base div credit hidden o' = some ts' ∧ SameRows ts ts' := by
  have htx := transactions_same hs hs' hb hb' h
  by_cases hne : b.transactions srt = []
  · have hne' : b'.transactions srt' = [] := (nil_iff_alike htx).1 hne
    have empty : ∀ {srt : List Posting → List Posting} (_ : IsSort srt) {b : Book} (_ : b.Good) (_ : b.transactions srt = [])
        (o : Int → Str → List Str → List Str), b.accumulate srt base div credit hidden o = some [] := by
      intro srt hs b hb hne o
      have hp : (b.compact srt).post = [] := by rw [← transactions_flatten hs hb.1, hne]; rfl
      unfold Book.accumulate
      simp only
      rw [if_pos hp]
      have : (b.compact srt).transactions srt = [] := by
        unfold Book.transactions
        have w1 := compact_wf hs hb.1.plain hb.1.nil_trans
        exact Book.WF.nil_trans (compact_wf hs w1.plain w1.nil_trans) (by rw [compact_post _ (srt_nil hs), hp]; unfold compactPost; rw [srt_nil hs]; rfl)
      rw [this]
    rw [empty hs hb hne] at hx
    cases hx
    exact ⟨[], empty hs' hb' hne' o', rfl⟩
  · have hne' : b'.transactions srt' ≠ [] := fun h0 => hne ((nil_iff_alike htx).2 h0)
    obtain ⟨bs, hbs⟩ := accumulate_some hs hb.1 hb.2 hne base div credit hidden hx
    obtain ⟨bs', hbs'⟩ := Option.isSome_iff_exists.1 (blocks_same hs hs' hb hb' h base div ho ho' (by rw [hbs]; rfl))
    obtain ⟨gs, g1, g2, -, -⟩ := accumulate_blocks hs hb.1 hb.2 hne base div credit hidden ho hbs
    obtain ⟨gs', g1', g2', -, -⟩ := accumulate_blocks hs' hb'.1 hb'.2 hne' base div credit hidden ho' hbs'
    rw [g1] at hx
    cases hx
    refine ⟨_, g1', ?_⟩
    have hgrp : ∀ u ∈ b.transactions srt, IsGroup u := fun u hu => ((book_data hs hb.1 hb.2 hne).2.1 u hu).1
    rw [← acctsOf_same hs hs' hb hb' h, ← summaries_same hs hs' hb hb' h, ← h.prices] at g2'
    have hS := accumSet_nodup base div ((b.transactions srt).map (fill (acctsOf srt b))).flatten
    have hA := (c48_accounts srt b).1
    unfold SameRows
    rw [List.map_map, List.map_map]
    clear g1 g1' hbs hbs'
    change (summaries srt b base div).Nodup at hS
    generalize summaries srt b base div = S at g2 g2' hS
    change (acctsOf srt b).Nodup at hA
    generalize acctsOf srt b = A at g2 g2' hA
    clear hne hne'
    generalize b.transactions srt = us at htx g2 hgrp
    generalize b'.transactions srt' = vs at htx g2'
    clear h hb hb' hs hs'
    induction htx generalizing gs gs' with
    | nil => cases g2; cases g2'; rfl
    | @cons u v us vs h0 _ ih =>
      cases g2 with
      | cons a g2 =>
        cases g2' with
        | cons a' g2' =>
          rw [List.map_cons, List.map_cons, ih _ _ g2 (fun u hu => hgrp u (List.mem_cons_of_mem _ hu)) g2']
          congr 1
          exact hideFlip_row (report_strip hS hA hd (hgrp u (by simp)) h0 a a')

end

end Verif
