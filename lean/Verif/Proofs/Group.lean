import Verif.Proofs.Book
import Verif.Proofs.Sort
import Verif.Spec.Book

/-! Lemmas: grouping is determined by the postings; reported totals. -/

namespace Verif
open Spec

theorem txnBefore_irrefl {p q : Posting} (h : TxnBefore p q) : ¬ (q.date = p.date ∧ q.payee = p.payee) := by
  rintro ⟨a, b⟩
  unfold TxnBefore at h
  rw [a, b] at h
  rcases h with h | ⟨_, h⟩
  · exact lt_irrefl _ h
  · exact lt_irrefl _ h

theorem groupFrom_append (f : Posting) (t rest acc : List Posting)
    (h : ∀ p ∈ t, p.date = f.date ∧ p.payee = f.payee) :
    groupFrom f acc (t ++ rest) = groupFrom f (t.reverse ++ acc) rest := by
  induction t generalizing acc with
  | nil => rfl
  | cons p t ih =>
    have := h p (by simp)
    simp only [List.cons_append, groupFrom, this, and_self, if_true]
    rw [ih _ (fun q hq => h q (by simp [hq]))]
    simp

/-- A well grouped list of transactions is recovered from its postings. -/
theorem groupTxns_of_groups {ts : List Txn} (h1 : ∀ t ∈ ts, IsGroup t)
    (h2 : ts.Pairwise (fun t u => ∀ p ∈ t, ∀ q ∈ u, TxnBefore p q)) : groupTxns ts.flatten = ts := by
  induction ts with
  | nil => rfl
  | cons t ts ih =>
    obtain ⟨p, t', rfl⟩ := List.exists_cons_of_ne_nil (h1 t (by simp)).1
    obtain ⟨h3, h4⟩ := List.pairwise_cons.1 h2
    have ih' := ih (fun u hu => h1 u (by simp [hu])) h4
    have hg := (h1 (p :: t') (by simp)).2
    show groupFrom p [] (t' ++ ts.flatten) = _
    rw [groupFrom_append p t' _ [] (fun q hq => hg q (by simp [hq]) p (by simp))]
    cases ts with
    | nil => simp [groupFrom]
    | cons u us =>
      obtain ⟨q, u', rfl⟩ := List.exists_cons_of_ne_nil (h1 u (by simp)).1
      have hb := txnBefore_irrefl (h3 (q :: u') (by simp) p (by simp) q (by simp))
      simp only [List.flatten_cons, List.cons_append, groupFrom, hb, if_false]
      simp only [List.append_nil, List.reverse_reverse, List.cons.injEq, true_and]
      exact ih'

theorem Book.WF.trans_eq {b : Book} (h : b.WF) : b.trans = groupTxns b.post := by
  rw [← h.index, groupTxns_of_groups h.groups h.order]


section
variable {srt : List Posting → List Posting} (hs : IsSort srt)
include hs

theorem reported_eq {b : Book} (h : b.WF) : reported srt b = compactPost srt b.post := by
  unfold reported
  rw [transactions_flatten hs h, compact_post b (srt_nil hs)]

theorem transactions_eq {b : Book} (h : b.WF) : b.transactions srt = groupTxns (compactPost srt b.post) := by
  have := (compact_wf hs h.plain h.nil_trans).trans_eq
  rw [compact_post b (srt_nil hs)] at this
  exact this

theorem total_reported {P : Posting → Bool} (hP : KeyFun P) {b : Book} (h : b.WF) :
    total P (reported srt b) = total P b.post := by
  rw [reported_eq hs h, total_compactPost hs hP]

theorem wsum_reported {w : Posting → Rat} (hw : KeyFun w) {b : Book} (h : b.WF) :
    wsum w (reported srt b) = wsum w b.post := by
  rw [reported_eq hs h, wsum_compactPost hs hw]

/-- Sorting a list that is already strictly sorted does nothing. -/
theorem srt_of_strict {l : List Posting} (hp : ∀ p ∈ l, Plain p)
    (h : l.Pairwise (fun a b => key a < key b)) : srt l = l := by
  refine List.Perm.eq_of_pairwise (le := fun a b => key a ≤ key b) ?_ (sorted_keys hs hp) (h.imp le_of_lt) (hs.perm l)
  intro a b ha hb hab hba
  have e := le_antisymm hab hba
  have ha' : a ∈ l := (hs.perm l).mem_iff.1 ha
  by_contra hne
  rcases List.pairwise_iff_getElem.1 h with h'
  obtain ⟨i, hi, ei⟩ := List.getElem_of_mem ha'
  obtain ⟨j, hj, ej⟩ := List.getElem_of_mem hb
  rcases Nat.lt_trichotomy i j with hij | hij | hij
  · have := h' i j hi hj hij; rw [ei, ej, e] at this; exact lt_irrefl _ this
  · subst hij; exact hne (by rw [← ei, ej])
  · have := h' j i hj hi hij; rw [ei, ej, e] at this; exact lt_irrefl _ this

end

theorem mergeAdj_of_strict {l : List Posting} (h : l.Pairwise (fun a b => key a < key b)) : mergeAdj l = l := by
  cases l with
  | nil => rfl
  | cons p l =>
    show mergeFrom p l = p :: l
    induction l generalizing p with
    | nil => rfl
    | cons q l ih =>
      have hpq : key p < key q := (List.pairwise_cons.1 h).1 q (by simp)
      have : sameEntry q p = false := by
        by_contra hc
        have := sameEntry_iff.1 (by simpa using hc)
        rw [this] at hpq; exact lt_irrefl _ hpq
      simp only [mergeFrom, this]
      rw [ih q (List.pairwise_cons.1 h).2]
      simp

theorem dropZero_of_nonzero {l : List Posting} (h : ∀ p ∈ l, p.val ≠ 0) : dropZero l = l := by
  unfold dropZero
  rw [List.filter_eq_self]
  intro p hp; simpa using h p hp

theorem setBals_setBals (amts) (l : List Posting) : setBals amts (setBals amts l) = setBals amts l := by
  induction l generalizing amts with
  | nil => rfl
  | cons p l ih => simp only [setBals, ih]

theorem setBals_noBal (amts) (l : List Posting) : (setBals amts l).map noBal = l.map noBal :=
  setBals_map noBal (fun _ _ => rfl) amts l

/-- Compaction of a canonical list only sets balances. -/
theorem compactPost_of_canonical {srt} (hs : IsSort srt) {l : List Posting} (hp : ∀ p ∈ l, Plain p)
    (h : l.Pairwise (fun a b => key a < key b)) (hz : ∀ p ∈ l, p.val ≠ 0) :
    compactPost srt l = setBals (fun _ => 0) l := by
  unfold compactPost
  rw [srt_of_strict hs hp h, mergeAdj_of_strict h, dropZero_of_nonzero hz]

theorem canonical_flatten_strict {ts : List Txn} (h : Canonical ts) :
    ts.flatten.Pairwise (fun a b => key a < key b) := by
  rw [List.pairwise_flatten]
  refine ⟨?_, h.txnOrder.imp ?_⟩
  · intro t ht
    refine (List.Pairwise.imp_of_mem ?_ (h.postOrder t ht))
    intro p q hp hq hpq
    obtain ⟨e1, e2⟩ := h.oneTxn t ht p hp q hq
    rw [key_lt_iff]
    exact Or.inr ⟨e1, Or.inr ⟨e2, hpq⟩⟩
  · intro t u htu p hp q hq
    rw [key_lt_iff]
    rcases htu p hp q hq with h | ⟨h1, h2⟩
    · exact Or.inl h
    · exact Or.inr ⟨h1, Or.inl h2⟩

theorem canonical_flatten_nonzero {ts : List Txn} (h : Canonical ts) : ∀ p ∈ ts.flatten, p.val ≠ 0 := by
  intro p hp
  obtain ⟨t, ht, hpt⟩ := List.mem_flatten.1 hp
  exact h.nonzero t ht p hpt

theorem Spec.Canonical.sublist {ts us : List Txn} (h : Canonical ts) (hsub : us.Sublist ts) : Canonical us where
  nonempty t ht := h.nonempty t (hsub.subset ht)
  oneTxn t ht := h.oneTxn t (hsub.subset ht)
  txnOrder := h.txnOrder.sublist hsub
  postOrder t ht := h.postOrder t (hsub.subset ht)
  nonzero t ht := h.nonzero t (hsub.subset ht)

/-- Reading a canonical book only recomputes balances. -/
theorem transactions_of_canonical {srt} (hs : IsSort srt) {b : Book} (h : b.WF) (hc : Canonical b.trans) :
    (b.transactions srt).map (·.map noBal) = b.trans.map (·.map noBal) := by
  rw [transactions_eq hs h, compactPost_of_canonical hs h.plain (by rw [← h.index]; exact canonical_flatten_strict hc)
    (by rw [← h.index]; exact canonical_flatten_nonzero hc)]
  conv => rhs; rw [h.trans_eq]
  apply groupTxns_map
  · intro p q e
    have := congrArg (fun p => (p.date, p.payee)) e
    simpa [noBal] using this
  · exact setBals_noBal _ _

end Verif
