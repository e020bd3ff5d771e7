import Verif.Model.PriceMap
import Verif.Proofs.Price
import Verif.Spec.Price
import Mathlib.Data.List.Dedup

/-! # C33: renaming currencies in the price map -/

namespace Verif
open Spec

theorem find_mem {m : PriceBook} {k pl} (h : m.find k = some pl) : k ∈ m.map (·.1) := by
  induction m with
  | nil => cases h
  | cons kv m ih =>
    obtain ⟨k0, v0⟩ := kv
    simp only [PriceBook.find] at h
    split at h
    · rename_i e; subst e; simp
    · simp only [List.map_cons, List.mem_cons]; exact Or.inr (ih h)

theorem find_del (m : PriceBook) (k k' : Str × Str) : (m.del k).find k' = if k = k' then none else m.find k' := by
  induction m with
  | nil => simp [PriceBook.del, PriceBook.find]
  | cons kv m ih =>
    obtain ⟨k0, v0⟩ := kv
    unfold PriceBook.del at ih ⊢
    rw [List.filter_cons]
    by_cases h : k0 = k
    · rw [if_neg (by simpa using h), ih]
      simp only [PriceBook.find]
      by_cases h' : k = k'
      · simp [h']
      · have h2 : ¬ k0 = k' := by rw [h]; exact h'
        simp [h', h2]
    · rw [if_pos (by simpa using h)]
      simp only [PriceBook.find, ih]
      by_cases h' : k0 = k'
      · have h2 : ¬ k = k' := by intro e; exact h (h'.trans e.symm)
        simp [h', h2]
      · simp [h']

/-- The state of the loop when nothing is lost. -/
structure LoopInv (ρ : Str × Str → Str × Str) (m0 : PriceBook) (todo fresh : List (Str × Str)) (m : PriceBook) : Prop where
  nodup : todo.Nodup
  sub : ∀ k ∈ todo, ∃ pl, m0.find k = some pl
  fresh : ∀ k ∈ fresh, ρ k = k
  find : ∀ x pl, m.find x = some pl ↔
    (x ∈ todo ∧ m0.find x = some pl) ∨ (∃ k, k ∉ todo ∧ m0.find k = some pl ∧ ρ k = x)

theorem run_result {ρ : Str × Str → Str × Str} {m0 : PriceBook}
    (hi : ∀ k pl k' pl', m0.find k = some pl → m0.find k' = some pl' → ρ k = ρ k' → k = k')
    (hid : ∀ k pl, m0.find k = some pl → ρ (ρ k) = ρ k)
    {todo fresh m m'} (hrun : RangeRun ρ todo fresh m m') (inv : LoopInv ρ m0 todo fresh m) :
    ∀ x pl, m'.find x = some pl ↔ ∃ k, m0.find k = some pl ∧ ρ k = x := by
  induction hrun with
  | done fresh m =>
    intro x pl
    rw [inv.find]
    constructor
    · rintro (⟨h, _⟩ | ⟨k, _, h1, h2⟩)
      · cases h
      · exact ⟨k, h1, h2⟩
    · rintro ⟨k, h1, h2⟩
      exact Or.inr ⟨k, List.not_mem_nil, h1, h2⟩
  | gone k todo fresh m m' hk hf _ _ =>
    exfalso
    obtain ⟨pl, hpl⟩ := inv.sub k hk
    have := (inv.find k pl).2 (Or.inl ⟨hk, hpl⟩)
    rw [hf] at this; cases this
  | visit k pl todo fresh m m' hk hf _ ih =>
    apply ih
    have hm : ∀ x, x ∈ todo.erase k ↔ x ∈ todo ∧ x ≠ k := by
      intro x; rw [inv.nodup.mem_erase_iff]; exact And.comm
    have h0 : m0.find k = some pl := by
      rcases (inv.find k pl).1 hf with ⟨_, h⟩ | ⟨k1, hk1, h1, h2⟩
      · exact h
      · exfalso
        obtain ⟨pl', hpl'⟩ := inv.sub k hk
        have e := hid k1 pl h1
        rw [h2] at e
        have := hi k pl' k1 pl hpl' h1 (by rw [e, h2])
        subst this; exact hk1 hk
    refine ⟨inv.nodup.erase k, fun x hx => inv.sub x ((hm x).1 hx).1, ?_, ?_⟩
    · intro x hx
      unfold freshAfter at hx
      split at hx
      · exact inv.fresh x hx
      · split at hx
        · rcases List.mem_cons.1 hx with e | e
          · rw [e]; exact hid k pl h0
          · exact inv.fresh x e
        · exact inv.fresh x hx
    · intro x v
      unfold renameBody
      by_cases hρ : ρ k = k
      · rw [if_pos hρ, inv.find]
        constructor
        · rintro (⟨h1, h2⟩ | ⟨k1, h1, h2, h3⟩)
          · by_cases hx : x = k
            · subst hx
              exact Or.inr ⟨x, fun h => ((hm x).1 h).2 rfl, h2, hρ⟩
            · exact Or.inl ⟨(hm x).2 ⟨h1, hx⟩, h2⟩
          · exact Or.inr ⟨k1, fun h => h1 ((hm k1).1 h).1, h2, h3⟩
        · rintro (⟨h1, h2⟩ | ⟨k1, h1, h2, h3⟩)
          · exact Or.inl ⟨((hm x).1 h1).1, h2⟩
          · by_cases hx : k1 = k
            · subst hx
              rw [hρ] at h3; subst h3
              exact Or.inl ⟨hk, h2⟩
            · exact Or.inr ⟨k1, fun h => h1 ((hm k1).2 ⟨h, hx⟩), h2, h3⟩
      · rw [if_neg hρ, find_del, find_set]
        by_cases hx : k = x
        · subst hx
          rw [if_pos rfl]
          constructor
          · intro h; cases h
          · rintro (⟨h1, _⟩ | ⟨k1, h1, h2, h3⟩)
            · exact absurd rfl ((hm k).1 h1).2
            · exfalso
              have e := hid k1 v h2
              rw [h3] at e
              exact hρ e
        · rw [if_neg hx]
          by_cases hx2 : ρ k = x
          · rw [if_pos hx2]
            constructor
            · intro h; cases h
              exact Or.inr ⟨k, fun h => ((hm k).1 h).2 rfl, h0, hx2⟩
            · rintro (⟨h1, h2⟩ | ⟨k1, h1, h2, h3⟩)
              · exfalso
                have e := hid k pl h0
                rw [hx2] at e
                exact hx ((hi x v k pl h2 h0 (by rw [e, hx2])).symm)
              · have := hi k1 v k pl h2 h0 (by rw [h3, hx2])
                subst this
                rw [← h0, h2]
          · rw [if_neg hx2, inv.find]
            constructor
            · rintro (⟨h1, h2⟩ | ⟨k1, h1, h2, h3⟩)
              · exact Or.inl ⟨(hm x).2 ⟨h1, fun e => hx e.symm⟩, h2⟩
              · exact Or.inr ⟨k1, fun h => h1 ((hm k1).1 h).1, h2, h3⟩
            · rintro (⟨h1, h2⟩ | ⟨k1, h1, h2, h3⟩)
              · exact Or.inl ⟨((hm x).1 h1).1, h2⟩
              · refine Or.inr ⟨k1, fun h => h1 ((hm k1).2 ⟨h, ?_⟩), h2, h3⟩
                rintro rfl; exact hx2 h3
  | extra k pl todo fresh m m' hk hf _ ih =>
    have hρ := inv.fresh k hk
    apply ih
    unfold freshAfter renameBody
    rw [if_pos hρ, if_pos hρ]
    exact ⟨inv.nodup, inv.sub, fun x hx => inv.fresh x (List.mem_of_mem_erase hx), inv.find⟩

/-- C33, the part that holds: if the renaming maps distinct recorded pairs to distinct pairs and
renaming a renamed currency changes nothing, then however the map is iterated the resulting
price table is exactly the old one under the new names.  Missing: renamings with collisions or
that rename again what they produced, for which the claim is false (below). -/
theorem c33_rename_partial (mat : Str → Bool) (rep : Str → Str) (m m' : PriceBook)
    (hinj : ∀ u c pl u' c' pl', m.find (u, c) = some pl → m.find (u', c') = some pl' →
      newName mat rep u = newName mat rep u' → newName mat rep c = newName mat rep c' → u = u' ∧ c = c')
    (hid : ∀ u c pl, m.find (u, c) = some pl →
      newName mat rep (newName mat rep u) = newName mat rep u ∧ newName mat rep (newName mat rep c) = newName mat rep c)
    (hrun : RegexCCYPrices mat rep m m') (u c : Str) (pl : PriceList) :
    m'.find (u, c) = some pl ↔ ∃ u0 c0, m.find (u0, c0) = some pl ∧ newName mat rep u0 = u ∧ newName mat rep c0 = c := by
  have hr : ∀ k, renamePair mat rep k = (newName mat rep k.1, newName mat rep k.2) := fun _ => rfl
  suffices h : ∀ x, m'.find x = some pl ↔ ∃ k, m.find k = some pl ∧ renamePair mat rep k = x by
    rw [h]
    simp only [hr, Prod.exists, Prod.mk.injEq]
  intro x
  have hinj' : ∀ k pl k' pl', m.find k = some pl → m.find k' = some pl' →
      renamePair mat rep k = renamePair mat rep k' → k = k' := by
    rintro ⟨u, c⟩ pl ⟨u', c'⟩ pl' h1 h2 h3
    simp only [hr, Prod.mk.injEq] at h3 ⊢
    exact hinj _ _ _ _ _ _ h1 h2 h3.1 h3.2
  have hid' : ∀ k pl, m.find k = some pl → renamePair mat rep (renamePair mat rep k) = renamePair mat rep k := by
    rintro ⟨u, c⟩ pl h1
    simp only [hr, Prod.mk.injEq]
    exact hid _ _ _ h1
  apply run_result hinj' hid' hrun
  have key : ∀ k ∈ (m.map (·.1)), ∃ pl, m.find k = some pl := by
    intro k hk
    clear hrun hinj hid hinj' hid'
    induction m with
    | nil => simp at hk
    | cons kv m ih =>
      obtain ⟨k0, v0⟩ := kv
      simp only [PriceBook.find]
      split
      · exact ⟨_, rfl⟩
      · rename_i h
        simp only [List.map_cons, List.mem_cons] at hk
        rcases hk with e | e
        · exact absurd e.symm h
        · exact ih e
  refine ⟨List.nodup_dedup _, fun k hk => key k (List.mem_dedup.1 hk), fun k hk => by simp at hk, ?_⟩
  intro y v
  constructor
  · intro h; exact Or.inl ⟨List.mem_dedup.2 (find_mem h), h⟩
  · rintro (⟨_, h⟩ | ⟨k, h1, h2, _⟩)
    · exact h
    · exact absurd (List.mem_dedup.2 (find_mem h2)) h1

/-- Two price lists, for (A, C) and (B, C). -/
def collidePrices : PriceBook := [((b!"A", b!"C"), [⟨20200101, 1⟩]), ((b!"B", b!"C"), [⟨20200101, 2⟩])]

/-- C33 is false when two pairs get the same name: with B renamed to A, one list overwrites the
other — which one depends on the iteration order. -/
theorem c33_collision_fails : ∃ m', RegexCCYPrices (fun c => decide (c = b!"B")) (fun _ => b!"A") collidePrices m' ∧
    m'.find (b!"A", b!"C") = some [⟨20200101, 2⟩] ∧ ¬ ∃ x, m'.find x = some [⟨20200101, 1⟩] := by
  refine ⟨[((b!"A", b!"C"), [⟨20200101, 2⟩])], ?_, by decide +kernel, ?_⟩
  · have e : (collidePrices.map (·.1)).dedup = [(b!"A", b!"C"), (b!"B", b!"C")] := by decide +kernel
    unfold RegexCCYPrices
    rw [e]
    refine .visit (b!"A", b!"C") [⟨20200101, 1⟩] _ _ _ _ (by decide) (by decide +kernel) ?_
    refine .visit (b!"B", b!"C") [⟨20200101, 2⟩] _ _ _ _ (by decide +kernel) (by decide +kernel) ?_
    exact .done _ _
  · rintro ⟨x, hx⟩
    simp only [PriceBook.find] at hx
    split at hx
    · simp at hx
    · cases hx

/-- A price list for (A, C). -/
def againPrices : PriceBook := [((b!"A", b!"C"), [⟨20200101, 1⟩])]

/-- The renaming of `s/A/AA/` on the currencies involved. -/
def doubleA (c : Str) : Str := if c = b!"A" then b!"AA" else if c = b!"AA" then b!"AAAA" else c

/-- C33 is false when a renamed currency matches again: the result depends on whether Go's
loop happens to produce the entry it created. -/
theorem c33_order_fails : ∃ m1 m2, RegexCCYPrices (fun c => decide (c ≠ b!"C")) doubleA againPrices m1 ∧
    RegexCCYPrices (fun c => decide (c ≠ b!"C")) doubleA againPrices m2 ∧
    m1.find (b!"AA", b!"C") = some [⟨20200101, 1⟩] ∧ m2.find (b!"AA", b!"C") = none := by
  refine ⟨[((b!"AA", b!"C"), [⟨20200101, 1⟩])], [((b!"AAAA", b!"C"), [⟨20200101, 1⟩])], ?_, ?_,
    by decide +kernel, by decide +kernel⟩
  · unfold RegexCCYPrices
    refine .visit (b!"A", b!"C") [⟨20200101, 1⟩] _ _ _ _ (by decide +kernel) (by decide +kernel) ?_
    exact .done _ _
  · unfold RegexCCYPrices
    refine .visit (b!"A", b!"C") [⟨20200101, 1⟩] _ _ _ _ (by decide +kernel) (by decide +kernel) ?_
    refine .extra (b!"AA", b!"C") [⟨20200101, 1⟩] _ _ _ _ (by decide +kernel) (by decide +kernel) ?_
    exact .done _ _

/-- Renaming A to Z: the hypotheses of the partial theorem are met, and there is a run. -/
example : (∀ u c pl u' c' pl', collidePrices.find (u, c) = some pl → collidePrices.find (u', c') = some pl' →
      newName (fun c => decide (c = b!"A")) (fun _ => b!"Z") u = newName (fun c => decide (c = b!"A")) (fun _ => b!"Z") u' →
      newName (fun c => decide (c = b!"A")) (fun _ => b!"Z") c = newName (fun c => decide (c = b!"A")) (fun _ => b!"Z") c' → u = u' ∧ c = c') ∧
    (∀ u c pl, collidePrices.find (u, c) = some pl → ∀ x, x = u ∨ x = c →
      newName (fun c => decide (c = b!"A")) (fun _ => b!"Z") (newName (fun c => decide (c = b!"A")) (fun _ => b!"Z") x) =
        newName (fun c => decide (c = b!"A")) (fun _ => b!"Z") x) ∧
    ∃ m', RegexCCYPrices (fun c => decide (c = b!"A")) (fun _ => b!"Z") collidePrices m' ∧
    m'.find (b!"Z", b!"C") = some [⟨20200101, 1⟩] ∧ m'.find (b!"B", b!"C") = some [⟨20200101, 2⟩] := by
  have hk : ∀ u c pl, collidePrices.find (u, c) = some pl → (u = b!"A" ∨ u = b!"B") ∧ c = b!"C" := by
    intro u c pl h
    have := find_mem h
    simp [collidePrices] at this
    rcases this with ⟨rfl, rfl⟩ | ⟨rfl, rfl⟩ <;> simp
  refine ⟨?_, ?_, [((b!"B", b!"C"), [⟨20200101, 2⟩]), ((b!"Z", b!"C"), [⟨20200101, 1⟩])], ?_, by decide +kernel, by decide +kernel⟩
  · intro u c pl u' c' pl' h1 h2 h3 _
    obtain ⟨e1, rfl⟩ := hk _ _ _ h1
    obtain ⟨e2, rfl⟩ := hk _ _ _ h2
    refine ⟨?_, rfl⟩
    rcases e1 with rfl | rfl <;> rcases e2 with rfl | rfl <;> first | rfl | (exact absurd h3 (by decide))
  · intro u c pl h x hx
    obtain ⟨e1, rfl⟩ := hk _ _ _ h
    rcases hx with rfl | rfl
    · rcases e1 with rfl | rfl <;> decide
    · decide
  unfold RegexCCYPrices
  refine .visit (b!"A", b!"C") [⟨20200101, 1⟩] _ _ _ _ (by decide +kernel) (by decide +kernel) ?_
  refine .visit (b!"B", b!"C") [⟨20200101, 2⟩] _ _ _ _ (by decide +kernel) (by decide +kernel) ?_
  exact .done _ _

end Verif
