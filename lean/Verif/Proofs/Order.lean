import Verif.Spec.Order
import Verif.Proofs.Group
import Verif.Props.Commands
import Mathlib.Data.List.Forall2

/-! Lemmas: operations on books that differ only in notes. -/

namespace Verif
open Spec

/-- Postings that differ at most in notes and names. -/
def Alike (p q : Posting) : Prop := obs p = obs q

theorem Alike.fields {p q : Posting} (h : Alike p q) :
    p.date = q.date ∧ p.payee = q.payee ∧ p.acct = q.acct ∧ p.ccy = q.ccy ∧ p.val = q.val ∧ p.bal = q.bal := by
  unfold Alike obs at h
  simpa using h

theorem alike_iff {p q : Posting} :
    Alike p q ↔ p.date = q.date ∧ p.payee = q.payee ∧ p.acct = q.acct ∧ p.ccy = q.ccy ∧ p.val = q.val ∧ p.bal = q.bal := by
  unfold Alike obs; simp

theorem forall₂_alike {l m : List Posting} : List.Forall₂ Alike l m ↔ l.map obs = m.map obs := by
  rw [← List.forall₂_eq_eq_eq, List.forall₂_map_left_iff, List.forall₂_map_right_iff]; rfl

theorem forall₂_alikes {l m : List Txn} : List.Forall₂ (List.Forall₂ Alike) l m ↔ SameTxns l m := by
  unfold SameTxns
  rw [← List.forall₂_eq_eq_eq, List.forall₂_map_left_iff, List.forall₂_map_right_iff]
  constructor <;> intro h <;> exact h.imp fun _ _ h => by first | exact forall₂_alike.1 h | exact forall₂_alike.2 h

/-- Books that differ at most in notes and names. -/
structure SameBook (b b' : Book) : Prop where
  post : List.Forall₂ Alike b.post b'.post
  trans : List.Forall₂ (List.Forall₂ Alike) b.trans b'.trans
  prices : b.prices = b'.prices

theorem total_alike {P : Posting → Bool} (hP : ∀ p q, Alike p q → P p = P q) {l m : List Posting} (h : List.Forall₂ Alike l m) :
    total P l = total P m := by
  induction h with
  | nil => rfl
  | @cons p q l m h _ ih => rw [total_cons, total_cons, ih, hP p q h, h.fields.2.2.2.2.1]

theorem groupFrom_alike {f f' : Posting} (hf : Alike f f') {acc acc' : List Posting} (ha : List.Forall₂ Alike acc acc') {l m : List Posting}
    (h : List.Forall₂ Alike l m) : List.Forall₂ (List.Forall₂ Alike) (groupFrom f acc l) (groupFrom f' acc' m) := by
  induction h generalizing f f' acc acc' with
  | nil => exact .cons (.cons hf (List.rel_reverse ha)) .nil
  | @cons p q l m h _ ih =>
    unfold groupFrom
    have e1 := h.fields
    have e2 := hf.fields
    rw [e1.1, e1.2.1, e2.1, e2.2.1]
    split
    · exact ih hf (.cons h ha)
    · exact .cons (.cons hf (List.rel_reverse ha)) (ih h .nil)

theorem groupTxns_alike {l m : List Posting} (h : List.Forall₂ Alike l m) : List.Forall₂ (List.Forall₂ Alike) (groupTxns l) (groupTxns m) := by
  cases h with
  | nil => exact .nil
  | cons h hs => exact groupFrom_alike h .nil hs

theorem compactPost_alike {srt srt'} (hs : IsSort srt) (hs' : IsSort srt') {l m : List Posting} (hl : ∀ p ∈ l, Plain p) (hm : ∀ p ∈ m, Plain p)
    (h : List.Forall₂ Alike l m) : List.Forall₂ Alike (compactPost srt l) (compactPost srt' m) := by
  rw [forall₂_alike]
  refine compactPost_unique hs hs' hl hm fun k => total_alike (fun p q h => ?_) h
  have e := h.fields
  have : key p = key q := key_eq_iff.2 ⟨e.1, e.2.1, e.2.2.1, e.2.2.2.1⟩
  rw [this]

theorem nil_iff_alike {α : Type} {R : α → α → Prop} {l m : List α} (h : List.Forall₂ R l m) : l = [] ↔ m = [] := by
  cases h <;> simp

theorem compact_same {srt srt'} (hs : IsSort srt) (hs' : IsSort srt') {b b' : Book} (hl : ∀ p ∈ b.post, Plain p) (hm : ∀ p ∈ b'.post, Plain p)
    (h : SameBook b b') : SameBook (b.compact srt) (b'.compact srt') := by
  have hp := compactPost_alike hs hs' hl hm h.post
  unfold Book.compact
  by_cases h0 : b.post = []
  · rw [if_pos h0, if_pos ((nil_iff_alike h.post).1 h0)]; exact h
  · rw [if_neg h0, if_neg (fun h1 => h0 ((nil_iff_alike h.post).2 h1))]
    exact ⟨hp, groupTxns_alike hp, h.prices⟩

theorem instalments_alike (today : Int) {p q : Posting} (h : Alike p q) (na period : Str) (n : Int) : ∀ (k : Nat) (d : Int),
    List.Forall₂ Alike (instalments today p na period n k d) (instalments today q na period n k d) := by
  have e := h.fields
  intro k
  induction k with
  | zero => intro d; exact .nil
  | succ k ih =>
    intro d
    refine .cons ?_ (.cons ?_ (ih _)) <;>
    · rw [alike_iff]
      simp [Posting.byAcctDateFactor, Posting.dup, e.2.1, e.2.2.1, e.2.2.2.1, e.2.2.2.2.1]

theorem flatMap_alike {f g : Posting → List Posting} (hf : ∀ p q, Alike p q → List.Forall₂ Alike (f p) (g q)) {l m : List Posting}
    (h : List.Forall₂ Alike l m) : List.Forall₂ Alike (l.flatMap f) (m.flatMap g) := by
  induction h with
  | nil => exact .nil
  | cons h _ ih => rw [List.flatMap_cons, List.flatMap_cons]; exact List.rel_append (hf _ _ h) ih

theorem map_alike {f g : Posting → Posting} (hf : ∀ p q, Alike p q → Alike (f p) (g q)) {l m : List Posting}
    (h : List.Forall₂ Alike l m) : List.Forall₂ Alike (l.map f) (m.map g) := by
  induction h with
  | nil => exact .nil
  | cons h _ ih => exact .cons (hf _ _ h) ih

theorem mapAmount_same (g : Int → Str → Rat × Str) {b b' : Book} (h : SameBook b b') : SameBook (b.mapAmount g) (b'.mapAmount g) := by
  have hf : ∀ p q, Alike p q → Alike (mapAmountPost g p) (mapAmountPost g q) := by
    intro p q h
    have e := h.fields
    rw [alike_iff]
    simp [mapAmountPost, e.1, e.2.1, e.2.2.1, e.2.2.2.1, e.2.2.2.2.1, e.2.2.2.2.2]
  refine ⟨map_alike hf h.post, ?_, h.prices⟩
  show List.Forall₂ _ (b.trans.map _) (b'.trans.map _)
  rw [List.forall₂_map_left_iff, List.forall₂_map_right_iff]
  exact h.trans.imp fun _ _ => map_alike hf

theorem filter_same (f : Int → Bool) {b b' : Book} (h : SameBook b b') :
    SameBook (b.filterTransaction fun d _ _ => f d) (b'.filterTransaction fun d _ _ => f d) := by
  have ht : List.Forall₂ (List.Forall₂ Alike)
      (b.trans.filter fun t => match t with | [] => false | p :: _ => f p.date) (b'.trans.filter fun t => match t with | [] => false | p :: _ => f p.date) := by
    have := h.trans
    generalize b.trans = l at this
    generalize b'.trans = m at this
    induction this with
    | nil => exact .nil
    | @cons t u l m htu _ ih =>
      cases htu with
      | nil => simpa using ih
      | @cons p q t u h0 h1 =>
        rw [List.filter_cons, List.filter_cons]
        simp only [h0.fields.1]
        split
        · exact .cons (.cons h0 h1) ih
        · exact ih
  exact ⟨List.rel_flatten ht, ht, h.prices⟩

theorem plain_map_acct {g : Str → Str} {l : List Posting} (h : ∀ p ∈ l, Plain p) : ∀ p ∈ l.map (mapAccountPost g), Plain p := by
  intro p hp
  obtain ⟨q, hq, rfl⟩ := List.mem_map.1 hp
  exact ⟨rfl, (h q hq).2⟩

theorem plainDup {p : Posting} (h : Plain p) (a : Str) (d : Int) (f : Rat) : Plain (p.byAcctDateFactor a d f) := ⟨rfl, h.2⟩

theorem plainInstalments (today : Int) {p : Posting} (h : Plain p) (na period : Str) (n : Int) : ∀ (k : Nat) (d : Int),
    ∀ q ∈ instalments today p na period n k d, Plain q := by
  intro k
  induction k with
  | zero => intro d q hq; cases hq
  | succ k ih =>
    intro d q hq
    rcases List.mem_cons.1 hq with rfl | hq
    · exact plainDup h _ _ _
    · rcases List.mem_cons.1 hq with rfl | hq
      · exact plainDup h _ _ _
      · exact ih _ q hq

theorem plain_append {f : Posting → List Posting} (hf : ∀ p, Plain p → ∀ q ∈ f p, Plain q) {l : List Posting} (h : ∀ p ∈ l, Plain p) :
    ∀ p ∈ l ++ l.flatMap f, Plain p := by
  intro p hp
  rcases List.mem_append.1 hp with hp | hp
  · exact h p hp
  · obtain ⟨q, hq, hpq⟩ := List.mem_flatMap.1 hp
    exact hf q (h q hq) p hpq

theorem splitBy_same {srt srt'} (hs : IsSort srt) (hs' : IsSort srt') (today : Int) (t : Str) {b b' : Book} (hb : b.Good) (hb' : b'.Good)
    (h : SameBook b b') : SameBook (b.splitBy srt today t) (b'.splitBy srt' today t) := by
  have hpl : ∀ {l : List Posting} {g : Int → Str → Int × Str}, (∀ p ∈ l, Plain p) →
      ∀ p ∈ l.map (fun p => { p with date := (g p.date p.payee).1, payee := (g p.date p.payee).2 } : Posting → Posting), Plain p := by
    intro l g hl p hp
    obtain ⟨q, hq, rfl⟩ := List.mem_map.1 hp
    exact hl q hq
  refine compact_same hs hs' (hpl (g := fun d _ => (floorBy today d t, [])) hb.1.plain) (hpl (g := fun d _ => (floorBy today d t, [])) hb'.1.plain) ⟨map_alike (fun p q h => ?_) h.post, h.trans, h.prices⟩
  have e := h.fields
  rw [alike_iff]
  simp [e.1, e.2.2.1, e.2.2.2.1, e.2.2.2.2.1, e.2.2.2.2.2]

/-- Every operation keeps the books alike. -/
theorem prim_same {e : OpEnv} {srt' : List Posting → List Posting} (hs : IsSort e.srt) (hs' : IsSort srt') (p : Prim) {b b' : Book} (hb : b.Good) (hb' : b'.Good)
    (h : SameBook b b') :
    (p.apply e b = none ∧ p.apply (e.sorting srt') b' = none) ∨
    ∃ c c', p.apply e b = some c ∧ p.apply (e.sorting srt') b' = some c' ∧ SameBook c c' := by
  cases p with
  | mapccy s r =>
    simp only [Prim.apply, OpEnv.sorting]
    by_cases hv : e.valid s = true
    · refine .inr ⟨_, _, if_pos hv, if_pos hv, ?_⟩
      have hm := mapAmount_same (regexCCYMap (e.mat s) (e.rep s r)) h
      exact ⟨hm.post, hm.trans, by rw [h.prices]⟩
    · exact .inl ⟨if_neg hv, if_neg hv⟩
  | map s r alt =>
    simp only [Prim.apply, OpEnv.sorting]
    by_cases hv : e.valid s = true
    · refine .inr ⟨_, _, if_pos hv, if_pos hv, ?_⟩
      refine compact_same hs hs' (plain_map_acct hb.1.plain) (plain_map_acct hb'.1.plain) ⟨map_alike (fun p q h => ?_) h.post, h.trans, h.prices⟩
      have e := h.fields
      rw [alike_iff]
      simp [mapAccountPost, e.1, e.2.1, e.2.2.1, e.2.2.2.1, e.2.2.2.2.1, e.2.2.2.2.2]
    · exact .inl ⟨if_neg hv, if_neg hv⟩
  | move s a f =>
    simp only [Prim.apply, OpEnv.sorting]
    by_cases hv : e.valid s = true
    · refine .inr ⟨_, _, if_pos hv, if_pos hv, ?_⟩
      have hpl : ∀ p, Plain p → ∀ q ∈ (if e.mat s p.acct then [p.byFactor (-f), p.byAcctFactor (e.rep s a p.acct) f] else []), Plain q := by
        intro p hp q hq
        split at hq
        · simp only [List.mem_cons, List.not_mem_nil, or_false] at hq
          rcases hq with rfl | rfl <;> exact plainDup hp _ _ _
        · cases hq
      refine compact_same hs hs' (plain_append hpl hb.1.plain) (plain_append hpl hb'.1.plain) ⟨List.rel_append h.post (flatMap_alike (fun p q h => ?_) h.post), h.trans, h.prices⟩
      have e := h.fields
      rw [e.2.2.1]
      split
      · refine .cons ?_ (.cons ?_ .nil) <;>
        · rw [alike_iff]
          simp [Posting.byFactor, Posting.byAcctFactor, Posting.byAcctDateFactor, Posting.dup, e.1, e.2.1, e.2.2.1, e.2.2.2.1, e.2.2.2.2.1]
      · exact .nil
    · exact .inl ⟨if_neg hv, if_neg hv⟩
  | asof d =>
    refine .inr ⟨_, _, rfl, rfl, ?_⟩
    unfold Book.filterByDateAsof
    split
    · exact h
    · exact filter_same (fun x => decide (x < d)) h
  | since d =>
    refine .inr ⟨_, _, rfl, rfl, ?_⟩
    unfold Book.filterByDateSince
    split
    · exact h
    · exact filter_same (fun x => decide (x ≥ d)) h
  | combine t => exact .inr ⟨_, _, rfl, rfl, splitBy_same hs hs' e.today t hb hb' h⟩
  | depreciate s a n =>
    simp only [Prim.apply, OpEnv.sorting]
    by_cases hv : e.valid s = true
    · refine .inr ⟨_, _, if_pos hv, if_pos hv, ?_⟩
      have hpl : ∀ p, Plain p → ∀ q ∈ depreciatePost e.today (e.mat s) (e.rep s a) b!"monthly" n p, Plain q := by
        intro p hp q hq
        unfold depreciatePost at hq
        split at hq
        · rcases List.mem_cons.1 hq with rfl | hq
          · exact plainDup hp _ _ _
          · rcases List.mem_cons.1 hq with rfl | hq
            · exact plainDup hp _ _ _
            · exact plainInstalments _ hp _ _ _ _ _ q hq
        · cases hq
      refine compact_same hs hs' (plain_append hpl hb.1.plain) (plain_append hpl hb'.1.plain) ⟨List.rel_append h.post (flatMap_alike (fun p q h => ?_) h.post), h.trans, h.prices⟩
      have e1 := h.fields
      unfold depreciatePost
      rw [e1.2.2.1, e1.1]
      split
      · refine .cons ?_ (.cons ?_ (instalments_alike _ h _ _ _ _ _)) <;>
        · rw [alike_iff]
          simp [Posting.byFactor, Posting.byAcctFactor, Posting.byAcctDateFactor, Posting.dup, e1.1, e1.2.1, e1.2.2.1, e1.2.2.2.1, e1.2.2.2.2.1]
      · exact .nil
    · exact .inl ⟨if_neg hv, if_neg hv⟩

/-- How two lists of operations end. -/
inductive OpsLike : OpEnd → OpEnd → Prop
  | ok {b b'} : b.Good → b'.Good → SameBook b b' → OpsLike (.ok b) (.ok b')
  | err {b b' t} : OpsLike (.err b t) (.err b' t)
  | panic : OpsLike .panic .panic
  | diverge : OpsLike .diverge .diverge

theorem OpsLike.wrap {x y : OpEnd} (h : OpsLike x y) (op : Str) : OpsLike (x.wrap op) (y.wrap op) := by
  cases h with
  | ok h1 h2 h3 => exact .ok h1 h2 h3
  | err => exact .err
  | panic => exact .panic
  | diverge => exact .diverge

theorem runAll_like {f g : Str → Book → OpEnd} (hf : ∀ o b b', Book.Good b → Book.Good b' → SameBook b b' → OpsLike (f o b) (g o b')) :
    ∀ (os : List Str) (b b' : Book), b.Good → b'.Good → SameBook b b' → OpsLike (runAll f os b) (runAll g os b') := by
  intro os
  induction os with
  | nil => intro b b' h h' hs; exact .ok h h' hs
  | cons o os ih =>
    intro b b' h h' hs
    have := hf o b b' h h' hs
    simp only [runAll]
    generalize f o b = x at this
    generalize g o b' = y at this
    cases this with
    | ok h1 h2 h3 => exact ih _ _ h1 h2 h3
    | err => exact .err
    | panic => exact .panic
    | diverge => exact .diverge

theorem bookOp_like {e : OpEnv} {srt' : List Posting → List Posting} (hs : IsSort e.srt) (hs' : IsSort srt') (mac : Str → Option (List Str)) :
    ∀ (n : Nat) (op : Str) (b b' : Book), b.Good → b'.Good → SameBook b b' → OpsLike (bookOp e mac n op b) (bookOp (e.sorting srt') mac n op b') := by
  intro n
  induction n with
  | zero => intro op b b' _ _ _; exact .diverge
  | succ n ih =>
    intro op b b' h h' hsame
    simp only [bookOp]
    cases mac op with
    | some ms => exact (runAll_like ih ms b b' h h' hsame).wrap op
    | none =>
      simp only [primOp]
      have hp : parsePrim (e.sorting srt') op = parsePrim e op := rfl
      rw [hp]
      cases parsePrim e op with
      | none => exact .err
      | some p =>
        simp only
        rcases prim_same hs hs' p h h' hsame with ⟨h1, h2⟩ | ⟨c, c', h1, h2, h3⟩
        · rw [h1, h2]; exact .panic
        · rw [h1, h2]
          exact .ok (good_prim hs h h1) (good_prim (e := e.sorting srt') hs' h' h2) h3

theorem bookOps_like {e : OpEnv} {srt' : List Posting → List Posting} (hs : IsSort e.srt) (hs' : IsSort srt') (mac : Str → Option (List Str)) (n : Nat)
    (ops : List Str) {b b' : Book} (h : b.Good) (h' : b'.Good) (hsame : SameBook b b') :
    OpsLike (bookOps e mac n ops b) (bookOps (e.sorting srt') mac n ops b') :=
  runAll_like (fun o b b' h h' hsame => (bookOp_like hs hs' mac n o b b' h h' hsame).wrap o) ops b b' h h' hsame

end Verif
