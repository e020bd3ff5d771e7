import Verif.Proofs.Import
import Mathlib.Data.List.Induction

/-! Lemmas on reclassification. -/

namespace Verif
open Spec

/-- Invariant of the mapping payee → account → count. -/
def MapInv (refacct : Str) (ts : List Txn) (m : List (Str × List (Str × Nat))) : Prop :=
  (∀ py ds, (py, ds) ∈ m → ds ≠ [] ∧ ∀ a n, (a, n) ∈ ds → 1 ≤ n ∧
      ∃ t ∈ ts, CounterIn refacct a t ∧ ∃ p ps, t = p :: ps ∧ p.payee = py) ∧
  (∀ t ∈ ts, ∀ a, CounterIn refacct a t → ∀ p ps, t = p :: ps → ∃ ds n, (p.payee, ds) ∈ m ∧ (a, n) ∈ ds)

theorem counterOf_some {ra : Str} {t : Txn} {i : Nat} {c : Str} (h : counterOf ra t = some (i, c)) :
    ∃ x y, t = [x, y] ∧ ((x.acct = ra ∧ i = 1 ∧ c = y.acct) ∨ (x.acct ≠ ra ∧ y.acct = ra ∧ i = 0 ∧ c = x.acct)) := by
  unfold counterOf at h
  split at h
  · rename_i p q
    split at h
    · rename_i h1; cases h; exact ⟨p, q, rfl, Or.inl ⟨h1, rfl, rfl⟩⟩
    · rename_i h1
      split at h
      · rename_i h2; cases h; exact ⟨p, q, rfl, Or.inr ⟨h1, h2, rfl, rfl⟩⟩
      · cases h
  · cases h

theorem counterIn_iff {ra a : Str} {t : Txn} : CounterIn ra a t ↔ ∃ i, counterOf ra t = some (i, a) := by
  constructor
  · rintro ⟨x, y, rfl, ⟨h1, h2⟩ | ⟨h1, h2, h3⟩⟩
    · exact ⟨1, by simp [counterOf, h1, h2]⟩
    · exact ⟨0, by subst h3; simp [counterOf, h1, h2]⟩
  · rintro ⟨i, h⟩
    obtain ⟨x, y, e, h | h⟩ := counterOf_some h
    · exact ⟨x, y, e, Or.inl ⟨h.1, h.2.2.symm⟩⟩
    · exact ⟨x, y, e, Or.inr ⟨h.1, h.2.1, h.2.2.2.symm⟩⟩

theorem countAdd_mem {ds : List (Str × Nat)} {c : Str} {a : Str} {n : Nat} (h : (a, n) ∈ countAdd ds c) :
    (a, n) ∈ ds ∨ (a = c ∧ 1 ≤ n) := by
  induction ds with
  | nil => simp [countAdd] at h; exact Or.inr ⟨h.1, by omega⟩
  | cons kv ds ih =>
    obtain ⟨k, v⟩ := kv
    unfold countAdd at h
    split at h
    · rename_i hk
      rcases List.mem_cons.1 h with e | e
      · cases e; exact Or.inr ⟨hk, by omega⟩
      · exact Or.inl (List.mem_cons_of_mem _ e)
    · rcases List.mem_cons.1 h with e | e
      · rw [e]; exact Or.inl (by simp)
      · rcases ih e with h | h
        · exact Or.inl (List.mem_cons_of_mem _ h)
        · exact Or.inr h

theorem countAdd_ne_nil (ds : List (Str × Nat)) (c : Str) : countAdd ds c ≠ [] := by
  cases ds with
  | nil => simp [countAdd]
  | cons kv ds => obtain ⟨k, v⟩ := kv; unfold countAdd; split <;> simp

theorem countAdd_has (ds : List (Str × Nat)) (c : Str) : ∃ n, (c, n) ∈ countAdd ds c := by
  induction ds with
  | nil => exact ⟨1, by simp [countAdd]⟩
  | cons kv ds ih =>
    obtain ⟨k, v⟩ := kv
    unfold countAdd; split
    · rename_i h; exact ⟨v + 1, by simp [h]⟩
    · obtain ⟨n, h⟩ := ih; exact ⟨n, List.mem_cons_of_mem _ h⟩

theorem countAdd_keeps {ds : List (Str × Nat)} {a : Str} {n : Nat} (c : Str) (h : (a, n) ∈ ds) :
    ∃ n', (a, n') ∈ countAdd ds c := by
  induction ds with
  | nil => cases h
  | cons kv ds ih =>
    obtain ⟨k, v⟩ := kv
    unfold countAdd; split
    · rcases List.mem_cons.1 h with e | e
      · cases e; exact ⟨n + 1, by simp⟩
      · exact ⟨n, List.mem_cons_of_mem _ e⟩
    · rcases List.mem_cons.1 h with e | e
      · cases e; exact ⟨n, by simp⟩
      · obtain ⟨n', h'⟩ := ih e; exact ⟨n', List.mem_cons_of_mem _ h'⟩

theorem payeeAdd_mem {m : List (Str × List (Str × Nat))} {q c py : Str} {ds : List (Str × Nat)}
    (h : (py, ds) ∈ payeeAdd m q c) :
    (py, ds) ∈ m ∨ (py = q ∧ ((∃ ds0, (q, ds0) ∈ m ∧ ds = countAdd ds0 c) ∨ ds = [(c, 1)])) := by
  induction m with
  | nil => simp [payeeAdd] at h; exact Or.inr ⟨h.1, Or.inr h.2⟩
  | cons kv m ih =>
    obtain ⟨k, v⟩ := kv
    unfold payeeAdd at h
    split at h
    · rename_i hk
      rcases List.mem_cons.1 h with e | e
      · cases e; exact Or.inr ⟨hk, Or.inl ⟨v, by simp [hk], rfl⟩⟩
      · exact Or.inl (List.mem_cons_of_mem _ e)
    · rcases List.mem_cons.1 h with e | e
      · rw [e]; exact Or.inl (by simp)
      · rcases ih e with h | ⟨h1, ⟨ds0, h2, h3⟩ | h2⟩
        · exact Or.inl (List.mem_cons_of_mem _ h)
        · exact Or.inr ⟨h1, Or.inl ⟨ds0, List.mem_cons_of_mem _ h2, h3⟩⟩
        · exact Or.inr ⟨h1, Or.inr h2⟩

theorem payeeAdd_has (m : List (Str × List (Str × Nat))) (q c : Str) :
    ∃ ds n, (q, ds) ∈ payeeAdd m q c ∧ (c, n) ∈ ds := by
  induction m with
  | nil => exact ⟨[(c, 1)], 1, by simp [payeeAdd], by simp⟩
  | cons kv m ih =>
    obtain ⟨k, v⟩ := kv
    unfold payeeAdd; split
    · rename_i h
      obtain ⟨n, hn⟩ := countAdd_has v c
      exact ⟨_, n, by rw [h]; exact List.mem_cons_self, hn⟩
    · obtain ⟨ds, n, h1, h2⟩ := ih
      exact ⟨ds, n, List.mem_cons_of_mem _ h1, h2⟩

theorem payeeAdd_keeps {m : List (Str × List (Str × Nat))} {py a : Str} {ds : List (Str × Nat)} {n : Nat} (q c : Str)
    (h : (py, ds) ∈ m) (ha : (a, n) ∈ ds) : ∃ ds' n', (py, ds') ∈ payeeAdd m q c ∧ (a, n') ∈ ds' := by
  induction m with
  | nil => cases h
  | cons kv m ih =>
    obtain ⟨k, v⟩ := kv
    unfold payeeAdd; split
    · rcases List.mem_cons.1 h with e | e
      · cases e
        obtain ⟨n', hn⟩ := countAdd_keeps c ha
        exact ⟨_, n', List.mem_cons_self, hn⟩
      · exact ⟨ds, n, List.mem_cons_of_mem _ e, ha⟩
    · rcases List.mem_cons.1 h with e | e
      · cases e; exact ⟨ds, n, by simp, ha⟩
      · obtain ⟨ds', n', h1, h2⟩ := ih e
        exact ⟨ds', n', List.mem_cons_of_mem _ h1, h2⟩

theorem payeeMappingAll_inv (ra : Str) (ts : List Txn) : MapInv ra ts (payeeMappingAll ra ts) := by
  induction ts using List.reverseRecOn with
  | nil => exact ⟨by simp [payeeMappingAll], by simp⟩
  | append_singleton ts t ih =>
    obtain ⟨ih1, ih2⟩ := ih
    have hstep : payeeMappingAll ra (ts ++ [t]) =
        match t, counterOf ra t with
        | p :: _, some (_, c) => payeeAdd (payeeMappingAll ra ts) p.payee c
        | _, _ => payeeMappingAll ra ts := by
      unfold payeeMappingAll; rw [List.foldl_append]; rfl
    rw [hstep]
    split
    · rename_i p ps i c hc
      constructor
      · intro py ds hds
        rcases payeeAdd_mem hds with h | ⟨h1, h2⟩
        · obtain ⟨k1, k2⟩ := ih1 py ds h
          refine ⟨k1, fun a n han => ?_⟩
          obtain ⟨k3, u, hu, k4⟩ := k2 a n han
          exact ⟨k3, u, List.mem_append_left _ hu, k4⟩
        · have hnew : ∃ t ∈ ts ++ [p :: ps], CounterIn ra c t ∧ ∃ x xs, t = x :: xs ∧ x.payee = py :=
            ⟨p :: ps, by simp, counterIn_iff.2 ⟨i, hc⟩, p, ps, rfl, h1.symm⟩
          rcases h2 with ⟨ds0, h3, h4⟩ | h3
          · obtain ⟨k1, k2⟩ := ih1 p.payee ds0 h3
            subst h4
            refine ⟨countAdd_ne_nil _ _, fun a n han => ?_⟩
            rcases countAdd_mem han with h | ⟨h, hn⟩
            · obtain ⟨k3, u, hu, k4⟩ := k2 a n h
              rw [h1]; exact ⟨k3, u, List.mem_append_left _ hu, k4⟩
            · rw [h]; exact ⟨hn, hnew⟩
          · subst h3
            refine ⟨by simp, fun a n han => ?_⟩
            simp only [List.mem_singleton, Prod.mk.injEq] at han
            rw [han.1, han.2]; exact ⟨le_refl 1, hnew⟩
      · intro u hu a ha x xs e
        rcases List.mem_append.1 hu with hu | hu
        · obtain ⟨ds, n, h1, h2⟩ := ih2 u hu a ha x xs e
          exact payeeAdd_keeps _ _ h1 h2
        · simp only [List.mem_singleton] at hu
          subst hu
          cases e
          obtain ⟨j, hj⟩ := counterIn_iff.1 ha
          rw [hc] at hj; cases hj
          exact payeeAdd_has _ _ _
    · rename_i hno
      constructor
      · intro py ds hds
        obtain ⟨k1, k2⟩ := ih1 py ds hds
        refine ⟨k1, fun a n han => ?_⟩
        obtain ⟨k3, u, hu, k4⟩ := k2 a n han
        exact ⟨k3, u, List.mem_append_left _ hu, k4⟩
      · intro u hu a ha x xs e
        rcases List.mem_append.1 hu with hu | hu
        · exact ih2 u hu a ha x xs e
        · simp only [List.mem_singleton] at hu
          subst hu
          obtain ⟨j, hj⟩ := counterIn_iff.1 ha
          exact absurd hj (hno x xs j a e)

theorem chooseLoop_mem (c : Str) (l : List (Str × Nat)) (h : ∀ a n, (a, n) ∈ l → 1 ≤ n) :
    (l = [] ∧ chooseLoop 0 c l = c) ∨ ∃ n, (chooseLoop 0 c l, n) ∈ l := by
  induction l generalizing c with
  | nil => exact Or.inl ⟨rfl, rfl⟩
  | cons kv l ih =>
    obtain ⟨k, v⟩ := kv
    right
    have hv := h k v (by simp)
    unfold chooseLoop
    rw [if_pos (by omega)]
    rcases ih k (fun a n hh => h a n (List.mem_cons_of_mem _ hh)) with ⟨rfl, h2⟩ | ⟨n, h2⟩
    · exact ⟨v, by rw [h2]; simp⟩
    · exact ⟨n, List.mem_cons_of_mem _ h2⟩

theorem bestLoop_spec (dist : Str → Str → Rat) (py : Str) (l : List (Str × Str)) : ∀ (m : Rat) (c : Str),
    m ≤ (bestLoop dist py m c l).1 ∧ (∀ p c', (p, c') ∈ l → dist py p ≤ (bestLoop dist py m c l).1) ∧
    (bestLoop dist py m c l = (m, c) ∨
      ∃ p c', (p, c') ∈ l ∧ m < dist py p ∧ bestLoop dist py m c l = (dist py p, c')) := by
  induction l with
  | nil => intro m c; exact ⟨le_refl _, by simp, Or.inl rfl⟩
  | cons kv l ih =>
    obtain ⟨k, v⟩ := kv
    intro m c
    unfold bestLoop
    split
    · rename_i hgt
      obtain ⟨h1, h2, h3⟩ := ih (dist py k) v
      refine ⟨le_trans (le_of_lt hgt) h1, ?_, Or.inr ?_⟩
      · intro p c' hm
        rcases List.mem_cons.1 hm with e | e
        · cases e; exact h1
        · exact h2 p c' e
      · rcases h3 with h3 | ⟨p, c', hm, hlt, h3⟩
        · exact ⟨k, v, by simp, hgt, h3⟩
        · exact ⟨p, c', List.mem_cons_of_mem _ hm, lt_trans hgt hlt, h3⟩
    · rename_i hng
      obtain ⟨h1, h2, h3⟩ := ih m c
      refine ⟨h1, ?_, ?_⟩
      · intro p c' hm
        rcases List.mem_cons.1 hm with e | e
        · cases e; exact le_trans (not_lt.1 hng) h1
        · exact h2 p c' e
      · rcases h3 with h3 | ⟨p, c', hm, hlt, h3⟩
        · exact Or.inl h3
        · exact Or.inr ⟨p, c', List.mem_cons_of_mem _ hm, hlt, h3⟩

/-- Everything in the final mapping was used in the reference book, and every payee used is there. -/
theorem payeeMapping_spec {o1 : List (Str × Nat) → List (Str × Nat)} (ho1 : ∀ l, (o1 l).Perm l) (ra : Str)
    {ts : List Txn} (hg : ∀ t ∈ ts, ∀ p ∈ t, ∀ q ∈ t, p.date = q.date ∧ p.payee = q.payee) :
    (∀ py c, (py, c) ∈ payeeMapping o1 (payeeMappingAll ra ts) → UsedWith ra ts py c) ∧
    (∀ py a, UsedWith ra ts py a → ∃ c, (py, c) ∈ payeeMapping o1 (payeeMappingAll ra ts)) := by
  obtain ⟨h1, h2⟩ := payeeMappingAll_inv ra ts
  constructor
  · intro py c h
    obtain ⟨kv, hkv, e⟩ := List.mem_map.1 h
    obtain ⟨k, ds⟩ := kv
    simp only [Prod.mk.injEq] at e
    obtain ⟨rfl, rfl⟩ := e
    obtain ⟨k1, k2⟩ := h1 k ds hkv
    rcases chooseLoop_mem [] (o1 ds) (fun a n hh => (k2 a n ((ho1 ds).mem_iff.1 hh)).1) with ⟨h3, _⟩ | ⟨n, h3⟩
    · have := (ho1 ds); rw [h3] at this; exact absurd this.symm.eq_nil k1
    · obtain ⟨_, t, ht, hc, p, ps, e, hpy⟩ := k2 _ n ((ho1 ds).mem_iff.1 h3)
      refine ⟨t, ht, hc, fun q hq => ?_⟩
      rw [← hpy]; exact (hg t ht q hq p (by rw [e]; simp)).2
  · rintro py a ⟨t, ht, hc, hpy⟩
    obtain ⟨x, y, e, _⟩ := id hc
    obtain ⟨ds, n, h3, _⟩ := h2 t ht a hc x [y] e
    rw [hpy x (by rw [e]; simp)] at h3
    exact ⟨_, List.mem_map.2 ⟨(py, ds), h3, rfl⟩⟩

end Verif
