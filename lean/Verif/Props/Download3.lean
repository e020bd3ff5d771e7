import Verif.Props.Download2

namespace Verif
open Spec

/-! # C102: a Monzo download that succeeds is complete -/

theorem page_complete {l : List MonzoTxn} (hs : l.Pairwise fun x y => time x ≤ time y) {since : Option Int} {id : Str} {tm : Int}
    (h0 : 0 ≤ tm) {t : MonzoTxn} (ht : t ∈ l) (hid : t.id = id) (htm : time t = tm) (hn : notBefore since t = true) :
    (∃ t' ∈ (l.filter (notBefore since)).take 100, t'.id = id) ∨
      (¬ ((l.filter (notBefore since)).take 100).length < 100 ∧
        sinceOf (maxTime 0 ((l.filter (notBefore since)).take 100)) * 1000000000 ≤ tm) := by
  have hL : t ∈ l.filter (notBefore since) := List.mem_filter.2 ⟨ht, hn⟩
  have hsL : (l.filter (notBefore since)).Pairwise fun x y => time x ≤ time y := hs.filter _
  generalize l.filter (notBefore since) = L at hL hsL ⊢
  rcases List.mem_append.1 (by rw [List.take_append_drop]; exact hL : t ∈ L.take 100 ++ L.drop 100) with h | h
  · exact .inl ⟨t, h, hid⟩
  · right
    constructor
    · intro hlt
      have := List.length_pos_of_mem h
      rw [List.length_drop] at this
      rw [List.length_take] at hlt
      omega
    · rw [← List.take_append_drop 100 L, List.pairwise_append] at hsL
      have hcut := Int.ediv_mul_le (maxTime 0 (L.take 100) - 60 * 1000000000) (b := 1000000000) (by norm_num)
      unfold sinceOf
      rcases maxTime_mem (L.take 100) 0 with h' | ⟨x, hx, h'⟩
      · omega
      · have := hsL.2.2 x hx t h
        omega

theorem getAll_complete {b : Bank} (hb : b.Ok) {ago : Nat → Int} {acct id : Str} {tm : Int} (h0 : 0 ≤ tm)
    (hhas : b.has acct id tm) (hago : b.limit = none ∨ ∀ n, ago n * 1000000000 ≤ tm) (fuel : Nat) :
    ∀ (since : Option Int) (n : Nat) (log : List MonzoTxn) (m : SMap MonzoTxn) (n' : Nat) (log' : List MonzoTxn) (m' : SMap MonzoTxn),
      getAll b.answers ago acct fuel since n log m = .done (n', log', m') →
      ((∃ t ∈ log, t.id = id) ∨ ∀ s, since = some s → s * 1000000000 ≤ tm) → ∃ t ∈ log', t.id = id := by
  induction fuel with
  | zero => intro since n log m n' log' m' h; simp [getAll] at h
  | succ fuel ih =>
    intro since n log m n' log' m' h hinv
    -- one round: the page asked for with `since'` in request `k`
    have round : ∀ (since' : Option Int) (k n1 : Nat), b.allows since' →
        ((∃ t ∈ log, t.id = id) ∨ ∀ s, since' = some s → s * 1000000000 ≤ tm) →
        (match (MonzoReply.ok (((b.holds k acct).filter (notBefore since')).take 100)) with
          | .forbidden => DL.failed
          | .failed => .failed
          | .ok ts =>
            if ts = [] then .done (n1, log, m)
            else
              match storeAll m 0 ts with
              | none => .failed
              | some (m, created) =>
                if ts.length < monzoLimit then .done (n1, log ++ ts, m)
                else getAll b.answers ago acct fuel (some (sinceOf created)) n1 (log ++ ts) m) = .done (n', log', m') →
        ∃ t ∈ log', t.id = id := by
      intro since' k n1 _ hinv hr
      have hp : ∀ t ∈ ((b.holds k acct).filter (notBefore since')).take 100, t.created ≠ none :=
        fun t ht => hb.parses k acct t (List.mem_of_mem_filter (List.mem_of_mem_take ht))
      obtain ⟨t, ht, hid, htm⟩ := hhas k
      have hpage : (∃ t ∈ log, t.id = id) ∨ (∃ t' ∈ ((b.holds k acct).filter (notBefore since')).take 100, t'.id = id) ∨
          (¬ (((b.holds k acct).filter (notBefore since')).take 100).length < 100 ∧
            sinceOf (maxTime 0 (((b.holds k acct).filter (notBefore since')).take 100)) * 1000000000 ≤ tm) := by
        rcases hinv with h | h
        · exact .inl h
        · refine .inr (page_complete (hb.order k acct) h0 ht hid htm ?_)
          cases since' with
          | none => rfl
          | some s => simpa [notBefore, htm] using h s rfl
      generalize ((b.holds k acct).filter (notBefore since')).take 100 = ts at hr hp hpage
      simp only at hr
      split at hr
      · rename_i he
        subst he
        simp only [DL.done.injEq, Prod.mk.injEq] at hr
        obtain ⟨_, rfl, _⟩ := hr
        rcases hpage with h | ⟨_, h, _⟩ | ⟨h, _⟩
        · exact h
        · simp at h
        · simp at h
      · rw [storeAll_some ts hp m 0] at hr
        simp only at hr
        split at hr
        · rename_i hlt
          simp only [DL.done.injEq, Prod.mk.injEq] at hr
          obtain ⟨_, rfl, _⟩ := hr
          rcases hpage with ⟨t, h, e⟩ | ⟨t, h, e⟩ | ⟨h, _⟩
          · exact ⟨t, List.mem_append_left _ h, e⟩
          · exact ⟨t, List.mem_append_right _ h, e⟩
          · exact absurd hlt h
        · refine ih _ _ _ _ _ _ _ hr ?_
          rcases hpage with ⟨t, h, e⟩ | ⟨t, h, e⟩ | ⟨_, h⟩
          · exact .inl ⟨t, List.mem_append_left _ h, e⟩
          · exact .inl ⟨t, List.mem_append_right _ h, e⟩
          · exact .inr (fun s hs => by cases hs; exact h)
    by_cases ha : b.allows since
    · have e : b.answers n acct since = .ok (((b.holds n acct).filter (notBefore since)).take 100) := if_pos ha
      rw [getAll] at h
      · rw [e] at h
        exact round since n (n + 1) ha hinv h
      · intro _ hf
        rw [e] at hf
        cases hf
    · have e : b.answers n acct since = .forbidden := if_neg ha
      cases since with
      | some s =>
        unfold getAll at h
        simp only [e] at h
        cases h
      | none =>
        unfold getAll at h
        simp only [e] at h
        have hl : b.limit ≠ none := by
          intro hl
          apply ha
          intro l hl'
          rw [hl] at hl'
          cases hl'
        by_cases ha2 : b.allows (some (ago n))
        · have e2 : b.answers (n + 1) acct (some (ago n)) = .ok (((b.holds (n + 1) acct).filter (notBefore (some (ago n)))).take 100) := if_pos ha2
          rw [e2] at h
          refine round (some (ago n)) (n + 1) (n + 2) ha2 ?_ h
          exact .inr (fun s hs => by cases hs; exact (hago.resolve_left hl) n)
        · have e2 : b.answers (n + 1) acct (some (ago n)) = .forbidden := if_neg ha2
          rw [e2] at h
          simp at h

theorem monzoAccounts_complete {b : Bank} (hb : b.Ok) {ago : Nat → Int} {acct id : Str} {tm : Int} (h0 : 0 ≤ tm)
    (hhas : b.has acct id tm) (hago : b.limit = none ∨ ∀ n, ago n * 1000000000 ≤ tm) (fuel : Nat) :
    ∀ (as : List Str) (n : Nat) (log : List MonzoTxn) (m : SMap MonzoTxn) (log' : List MonzoTxn) (m' : SMap MonzoTxn),
      monzoAccounts b.answers ago fuel as n log m = .done (log', m') →
      ((∃ t ∈ log, t.id = id) ∨ acct ∈ as) → ∃ t ∈ log', t.id = id := by
  intro as
  induction as with
  | nil =>
    intro n log m log' m' h hin
    simp only [monzoAccounts, DL.done.injEq, Prod.mk.injEq] at h
    obtain ⟨rfl, _⟩ := h
    simpa using hin
  | cons a as ih =>
    intro n log m log' m' h hin
    unfold monzoAccounts at h
    split at h
    · rename_i n1 log1 m1 h1
      refine ih _ _ _ _ _ h ?_
      obtain ⟨s1, hl1, -⟩ := getAll_store _ _ _ _ _ _ _ _ _ _ _ h1
      rcases hin with ⟨t, ht, e⟩ | hin
      · exact .inl ⟨t, by rw [hl1]; exact List.mem_append_left _ ht, e⟩
      · rcases List.mem_cons.1 hin with rfl | hin
        · exact .inl (getAll_complete hb h0 hhas hago fuel none n log m n1 log1 m1 h1 (.inr (by simp)))
        · exact .inr hin
    · simp at h
    · simp at h

/-- Everything a bank delivers is the bank's. -/
theorem getAll_theirs (b : Bank) (ago : Nat → Int) (acct : Str) (fuel : Nat) :
    ∀ (since : Option Int) (n : Nat) (log : List MonzoTxn) (m : SMap MonzoTxn) (n' : Nat) (log' : List MonzoTxn) (m' : SMap MonzoTxn),
      getAll b.answers ago acct fuel since n log m = .done (n', log', m') →
      (∀ t ∈ log, ∃ k a, t ∈ b.holds k a) → ∀ t ∈ log', ∃ k a, t ∈ b.holds k a := by
  induction fuel with
  | zero => intro since n log m n' log' m' h; simp [getAll] at h
  | succ fuel ih =>
    intro since n log m n' log' m' h hlog
    have ans : ∀ k s ts, b.answers k acct s = .ok ts → ∀ t ∈ ts, ∃ k a, t ∈ b.holds k a := by
      intro k s ts hk t ht
      unfold Bank.answers at hk
      split at hk
      · cases hk
        exact ⟨k, acct, List.mem_of_mem_filter (List.mem_of_mem_take ht)⟩
      · cases hk
    have app : ∀ k s ts, b.answers k acct s = .ok ts → ∀ t ∈ log ++ ts, ∃ k a, t ∈ b.holds k a := by
      intro k s ts hk t ht
      rcases List.mem_append.1 ht with ht | ht
      · exact hlog t ht
      · exact ans k s ts hk t ht
    unfold getAll at h
    simp only at h
    split at h
    · simp at h
    · simp at h
    · rename_i ts hr
      have happ : ∀ t ∈ log ++ ts, ∃ k a, t ∈ b.holds k a := by
        split at hr
        · exact app _ _ _ hr
        · exact app _ _ _ hr
      split at h
      · simp only [DL.done.injEq, Prod.mk.injEq] at h
        obtain ⟨_, rfl, _⟩ := h
        exact hlog
      · split at h
        · simp at h
        · split at h
          · simp only [DL.done.injEq, Prod.mk.injEq] at h
            obtain ⟨_, rfl, _⟩ := h
            exact happ
          · exact ih _ _ _ _ _ _ _ h happ

theorem monzoAccounts_theirs (b : Bank) (ago : Nat → Int) (fuel : Nat) :
    ∀ (as : List Str) (n : Nat) (log : List MonzoTxn) (m : SMap MonzoTxn) (log' : List MonzoTxn) (m' : SMap MonzoTxn),
      monzoAccounts b.answers ago fuel as n log m = .done (log', m') →
      (∀ t ∈ log, ∃ k a, t ∈ b.holds k a) → ∀ t ∈ log', ∃ k a, t ∈ b.holds k a := by
  intro as
  induction as with
  | nil =>
    intro n log m log' m' h hlog
    simp only [monzoAccounts, DL.done.injEq, Prod.mk.injEq] at h
    obtain ⟨rfl, _⟩ := h
    exact hlog
  | cons a as ih =>
    intro n log m log' m' h hlog
    unfold monzoAccounts at h
    split at h
    · rename_i h1
      exact ih _ _ _ _ _ h (getAll_theirs b ago a fuel _ _ _ _ _ _ _ h1 hlog)
    · simp at h
    · simp at h

theorem smap_keys_put {α : Type} (m : SMap α) (k x : Str) (v : α) : x ∈ (m.put k v).map (·.1) ↔ x = k ∨ x ∈ m.map (·.1) := by
  induction m with
  | nil => simp [SMap.put]
  | cons y m ih =>
    obtain ⟨k', v'⟩ := y
    unfold SMap.put
    split
    · rename_i h
      subst h
      simp
    · simp only [List.map_cons, List.mem_cons, ih]
      tauto

theorem smap_keys_foldl {β : Type} (f : β → Str × Str) (l : List β) : ∀ (m : SMap Str) (x : Str),
    x ∈ (l.foldl (fun m a => m.put (f a).1 (f a).2) m).map (·.1) ↔ (∃ a ∈ l, (f a).1 = x) ∨ x ∈ m.map (·.1) := by
  induction l with
  | nil => simp
  | cons a l ih =>
    intro m x
    simp only [List.foldl_cons, ih, smap_keys_put, List.mem_cons, exists_eq_or_imp]
    constructor
    · rintro (h | rfl | h)
      · exact .inl (.inr h)
      · exact .inl (.inl rfl)
      · exact .inr h
    · rintro ((h | h) | h)
      · exact .inr (.inl h.symm)
      · exact .inl h
      · exact .inr (.inr h)

/-- C102: when a Monzo sync succeeds, every transaction that the bank held from the start on, in an account it lists or
that is in the state file, is stored, as some reply gave it — all of them, or, if the bank no longer gives all of them,
those of the last 89 days.  New transactions may come in and old ones be changed between the requests. -/
theorem c102_complete {b : Bank} (hb : b.Ok) {whoami : Bool} {accounts : List (Str × Str)} {ord : List Str → List Str}
    (hord : ∀ l, (ord l).Perm l) {ago : Nat → Int} {fuel : Nat} {d d' : MonzoData} {delivered : List MonzoTxn}
    (h : monzoSync whoami (some accounts) ord b.answers ago fuel d = .done (delivered, d'))
    {acct id : Str} {tm : Int} (hacct : (∃ a ∈ accounts, a.1 = acct) ∨ ∃ a ∈ d.accts, a.1 = acct) (h0 : 0 ≤ tm)
    (hhas : b.has acct id tm) (hago : b.limit = none ∨ ∀ n, ago n * 1000000000 ≤ tm) :
    ∃ n a, ∃ t ∈ b.holds n a, t.id = id ∧ d'.trans.get id = some t := by
  have hids := (c68_monzo_ids whoami accounts ord b.answers ago fuel d d' delivered h).2
  unfold monzoSync at h
  split at h
  · simp at h
  · simp only at h
    split at h
    · rename_i log m h1
      simp only [DL.done.injEq, Prod.mk.injEq] at h
      obtain ⟨rfl, rfl⟩ := h
      obtain ⟨t, ht, e⟩ := monzoAccounts_complete hb h0 hhas hago fuel _ _ _ _ _ _ h1 (.inr (by
        rw [(hord _).mem_iff]
        have := (smap_keys_foldl (fun a : Str × Str => a) accounts d.accts acct).2 (by
          rcases hacct with hacct | ⟨a, ha, e⟩
          · exact .inl hacct
          · exact .inr (List.mem_map.2 ⟨a, ha, e⟩))
        exact this))
      obtain ⟨t', ht', e', hg⟩ := hids t ht
      obtain ⟨k, a, hk⟩ := monzoAccounts_theirs b ago fuel _ _ _ _ _ _ h1 (by simp) t' ht'
      exact ⟨k, a, t', hk, by rw [e', e], by rw [← e]; exact hg⟩
    · simp at h
    · simp at h

/-- A bank with 150 transactions in the account `a`, to which one more comes in with every request. -/
def demoBank : Bank := ⟨fun n a => if a = b!"a" then demoItems (150 + n) 10 else [], some 1000⟩

theorem demoItems_sorted (n : Nat) (gap : Int) (hg : 0 ≤ gap) : (demoItems n gap).Pairwise fun a b => time a ≤ time b := by
  unfold demoItems
  rw [List.pairwise_map]
  apply List.Pairwise.imp _ (List.pairwise_lt_range)
  intro a b hab
  simp only [time, Option.getD_some]
  have : (a : Int) ≤ b := by exact_mod_cast hab.le
  nlinarith

/-- Such a bank, a transaction of it, and a sync that succeeds: all hypotheses of `c102_complete` are met. -/
example : demoBank.Ok ∧ demoBank.has b!"a" [120] (1200 * 1000000000) ∧
    ∃ log d', monzoSync true (some [(b!"a", [])]) id demoBank.answers (fun _ => 1000) 3 ⟨[], []⟩ = .done (log, d') := by
  have hans : ∀ n s, (1000 : Int) ≤ s → demoBank.answers n b!"a" (some s) = .ok (((demoItems (150 + n) 10).filter (notBefore (some s))).take 100) := by
    intro n s hs
    have : demoBank.allows (some s) := fun l hl => ⟨s, rfl, by cases hl; exact hs⟩
    exact if_pos this
  have hno : ∀ n, demoBank.answers n b!"a" none = .forbidden := by
    intro n
    have : ¬ demoBank.allows none := fun h => by
      obtain ⟨_, h, _⟩ := h 1000 rfl
      cases h
    exact if_neg this
  refine ⟨⟨?_, ?_⟩, ?_, ?_⟩
  · intro n a t ht
    simp only [demoBank] at ht
    split at ht
    · simp only [demoItems, List.mem_map] at ht
      obtain ⟨i, -, rfl⟩ := ht
      simp
    · simp at ht
  · intro n a
    simp only [demoBank]
    split
    · exact demoItems_sorted _ _ (by norm_num)
    · simp
  · intro n
    refine ⟨⟨[120], some (((120 : Nat) : Int) * 10 * 1000000000), []⟩, ?_, rfl, by simp [time]⟩
    simp only [demoBank, if_true, demoItems, List.mem_map, List.mem_range]
    exact ⟨120, by omega, rfl⟩
  · have e := hans 1 1000 (le_refl _)
    have hp : ∀ t ∈ ((demoItems (150 + 1) 10).filter (notBefore (some 1000))).take 100, t.created ≠ none := by decide +kernel
    suffices h : ∃ r, monzoSync true (some [(b!"a", [])]) id demoBank.answers (fun _ => 1000) 3 ⟨[], []⟩ = .done r by
      obtain ⟨⟨log, d'⟩, h⟩ := h
      exact ⟨log, d', h⟩
    generalize hx : monzoSync true (some [(b!"a", [])]) id demoBank.answers (fun _ => 1000) 3 ⟨[], []⟩ = x
    simp only [monzoSync, Bool.true_eq_false, if_false, List.foldl_cons, List.foldl_nil, SMap.put, List.map_cons, List.map_nil, id, monzoAccounts] at hx
    unfold getAll at hx
    simp only [hno, Nat.zero_add, e] at hx
    rw [if_neg (by decide +kernel), storeAll_some _ hp] at hx
    simp only at hx
    rw [if_pos (by decide +kernel)] at hx
    exact ⟨_, hx.symm⟩

end Verif
