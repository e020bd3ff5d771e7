import Verif.Proofs.Compact

/-! A concrete sort meeting the contract `IsSort` (insertion sort), used to show that the
hypotheses of the theorems are satisfiable. -/

namespace Verif

/-- All six compared fields, in lexicographic order. -/
def fullKey (p : Posting) : Int ×ₗ Str ×ₗ Str ×ₗ Str ×ₗ Int ×ₗ Str :=
  toLex (p.date, toLex (p.payee, toLex (p.acctsort, toLex (p.acct, toLex (p.acctlevel, p.ccy)))))

theorem isLess_fullKey (p q : Posting) : p.isLess q = true ↔ fullKey p < fullKey q := by
  unfold Posting.isLess fullKey
  simp only [Prod.Lex.toLex_lt_toLex]
  have sn : ∀ {a b : Str}, ¬ a < b → ¬ b < a → a = b := fun h1 h2 => le_antisymm (not_lt.1 h2) (not_lt.1 h1)
  have iN : ∀ {a b : Int}, ¬ a < b → ¬ b < a → a = b := fun h1 h2 => by omega
  split
  · rename_i h; simp [h]
  · rename_i h
    split
    · rename_i h'; simp [h, (ne_of_lt h').symm]
    · rename_i h'
      have e := iN h h'
      simp only [e, lt_irrefl, true_and, false_or]
      split
      · rename_i h; simp [h]
      · rename_i h
        split
        · rename_i h'; simp [h, (ne_of_lt h').symm]
        · rename_i h'
          have e := sn h h'
          simp only [e, lt_irrefl, true_and, false_or]
          split
          · rename_i h; simp [h]
          · rename_i h
            split
            · rename_i h'; simp [h, (ne_of_lt h').symm]
            · rename_i h'
              have e := sn h h'
              simp only [e, lt_irrefl, true_and, false_or]
              split
              · rename_i h; simp [h]
              · rename_i h
                split
                · rename_i h'; simp [h, (ne_of_lt h').symm]
                · rename_i h'
                  have e := sn h h'
                  simp only [e, lt_irrefl, true_and, false_or]
                  split
                  · rename_i h; simp [h]
                  · rename_i h
                    split
                    · rename_i h'; simp [h, (ne_of_lt h').symm]
                    · rename_i h'
                      have e := iN h h'
                      simp only [e, lt_irrefl, true_and, false_or]
                      simp

/-- Insert before the first element that is not less. -/
def insertPost (p : Posting) : List Posting → List Posting
  | [] => [p]
  | q :: l => if q.isLess p then q :: insertPost p l else p :: q :: l

/-- Insertion sort. -/
def insSort (l : List Posting) : List Posting := l.foldr insertPost []

theorem insertPost_perm (p l) : (insertPost p l).Perm (p :: l) := by
  induction l with
  | nil => exact List.Perm.refl _
  | cons q l ih =>
    unfold insertPost
    split
    · exact (ih.cons q).trans (List.Perm.swap p q l)
    · exact List.Perm.refl _

theorem insertPost_sorted (p l) (h : List.Pairwise (fun a b => Posting.isLess b a = false) l) :
    (insertPost p l).Pairwise (fun a b => Posting.isLess b a = false) := by
  have hle : ∀ a b : Posting, Posting.isLess b a = false ↔ fullKey a ≤ fullKey b := by
    intro a b
    rw [← not_lt, ← isLess_fullKey]; simp
  induction l with
  | nil => simp [insertPost]
  | cons q l ih =>
    obtain ⟨h1, h2⟩ := List.pairwise_cons.1 h
    unfold insertPost
    split
    · rename_i hq
      refine List.pairwise_cons.2 ⟨?_, ih h2⟩
      intro r hr
      rcases List.mem_cons.1 ((insertPost_perm p l).mem_iff.1 hr) with e | e
      · rw [e, hle]; exact le_of_lt ((isLess_fullKey _ _).1 hq)
      · exact h1 r e
    · rename_i hq
      refine List.pairwise_cons.2 ⟨?_, h⟩
      intro r hr
      have hq' : Posting.isLess q p = false := by simpa using hq
      rcases List.mem_cons.1 hr with e | e
      · rw [e]; exact hq'
      · rw [hle] at *
        exact le_trans hq' ((hle _ _).1 (h1 r e))

/-- The contract of `sort.Slice` is satisfiable. -/
theorem insSort_isSort : IsSort insSort where
  perm l := by
    induction l with
    | nil => exact List.Perm.refl _
    | cons p l ih => exact (insertPost_perm p _).trans (ih.cons p)
  sorted l := by
    induction l with
    | nil => exact List.Pairwise.nil
    | cons p l ih => exact insertPost_sorted p _ ih

end Verif
