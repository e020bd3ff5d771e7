import Verif.Props.Download
import Mathlib.Data.List.Chain
import Mathlib.Tactic.Positivity

namespace Verif
open Spec

/-! # C69: downloading ends -/

/-- The latest time among `ts` and `c`. -/
def maxTime (c : Int) (ts : List MonzoTxn) : Int := ts.foldl (fun c t => if c < time t then time t else c) c

theorem maxTime_ge (ts : List MonzoTxn) : ∀ c, c ≤ maxTime c ts ∧ ∀ t ∈ ts, time t ≤ maxTime c ts := by
  induction ts with
  | nil => intro c; simp [maxTime]
  | cons x ts ih =>
    intro c
    obtain ⟨h1, h2⟩ := ih (if c < time x then time x else c)
    have e : maxTime c (x :: ts) = maxTime (if c < time x then time x else c) ts := rfl
    have hc : c ≤ (if c < time x then time x else c) ∧ time x ≤ (if c < time x then time x else c) := by
      split <;> constructor <;> omega
    rw [e]
    constructor
    · exact hc.1.trans h1
    · intro t ht
      rcases List.mem_cons.1 ht with rfl | ht
      · exact hc.2.trans h1
      · exact h2 t ht

theorem maxTime_mem (ts : List MonzoTxn) : ∀ c, maxTime c ts = c ∨ ∃ t ∈ ts, maxTime c ts = time t := by
  induction ts with
  | nil => intro c; left; rfl
  | cons x ts ih =>
    intro c
    have e : maxTime c (x :: ts) = maxTime (if c < time x then time x else c) ts := rfl
    rw [e]
    rcases ih (if c < time x then time x else c) with h | ⟨t, ht, h⟩
    · rw [h]
      split
      · exact Or.inr ⟨x, by simp, rfl⟩
      · exact Or.inl rfl
    · exact Or.inr ⟨t, by simp [ht], h⟩

theorem storeAll_some (ts : List MonzoTxn) (hp : ∀ t ∈ ts, t.created ≠ none) : ∀ (m : SMap MonzoTxn) (c : Int),
    storeAll m c ts = some (ts.foldl (fun m t => m.put t.id t) m, maxTime c ts) := by
  induction ts with
  | nil => intro m c; rfl
  | cons t ts ih =>
    intro m c
    unfold storeAll
    cases hc : t.created with
    | none => exact absurd hc (hp t (by simp))
    | some c' =>
      simp only
      rw [ih (fun t ht => hp t (by simp [ht]))]
      have : time t = c' := by simp [time, hc]
      simp [maxTime, this]

/-- What one round of the download does with a well-behaved server. -/
theorem getAll_round (items : List MonzoTxn) (hp : ∀ t ∈ items, t.created ≠ none) (ago : Nat → Int) (acct : Str) (fuel : Nat)
    (since : Option Int) (n : Nat) (log : List MonzoTxn) (m : SMap MonzoTxn) :
    getAll (serve items) ago acct (fuel + 1) since n log m =
      if ((items.filter (notBefore since)).take 100).length < 100 then
        .done (n + 1, log ++ (items.filter (notBefore since)).take 100,
          ((items.filter (notBefore since)).take 100).foldl (fun m t => m.put t.id t) m)
      else getAll (serve items) ago acct fuel (some (sinceOf (maxTime 0 ((items.filter (notBefore since)).take 100)))) (n + 1)
        (log ++ (items.filter (notBefore since)).take 100)
        (((items.filter (notBefore since)).take 100).foldl (fun m t => m.put t.id t) m) := by
  have hp' : ∀ t ∈ (items.filter (notBefore since)).take 100, t.created ≠ none :=
    fun t ht => hp t (List.mem_of_mem_filter (List.mem_of_mem_take ht))
  rw [getAll]
  · have e : serve items n acct since = MonzoReply.ok ((items.filter (notBefore since)).take 100) := rfl
    simp only [e]
    generalize hT : (items.filter (notBefore since)).take 100 = ts at *
    by_cases h0 : ts = []
    · subst h0; simp
    · rw [if_neg h0, storeAll_some ts hp' m 0]
      rfl
  · intro _ h; simp [serve] at h

/-- With fewer than a hundred transactions in any 61 seconds, the download ends, and it has asked for everything. -/
theorem getAll_ends (items : List MonzoTxn) (hp : ∀ t ∈ items, t.created ≠ none) (h0 : ∀ t ∈ items, 0 ≤ time t)
    (hs : items.Pairwise fun a b => time a ≤ time b) (hw : ∀ s : Int, (inWindow items s).length < 100)
    (ago : Nat → Int) (acct : Str) (top : Int) (htop : ∀ t ∈ items, time t < top * 1000000000) (k : Nat) :
    ∀ (s : Int) (n : Nat) (log : List MonzoTxn) (m : SMap MonzoTxn), top - s ≤ k →
      (∀ t ∈ items, time t < s * 1000000000 → t ∈ log) →
      ∃ n' log' m', getAll (serve items) ago acct (k + 1) (some s) n log m = .done (n', log', m') ∧ ∀ t ∈ items, t ∈ log' := by
  induction k with
  | zero =>
    intro s n log m hk hlog
    have hempty : items.filter (notBefore (some s)) = [] := by
      rw [List.filter_eq_nil_iff]
      intro t ht
      have := htop t ht
      have : ¬ (s * 1000000000 ≤ time t) := by
        have : top * 1000000000 ≤ s * 1000000000 := by omega
        omega
      simp [notBefore, this]
    rw [getAll_round items hp, hempty]
    refine ⟨_, _, _, rfl, fun t ht => ?_⟩
    simp only [List.take_nil, List.append_nil]
    have h1 := htop t ht
    exact hlog t ht (by omega)
  | succ k ih =>
    intro s n log m hk hlog
    rw [getAll_round items hp]
    generalize hL : items.filter (notBefore (some s)) = L
    have hmemL : ∀ t, t ∈ L ↔ t ∈ items ∧ s * 1000000000 ≤ time t := by
      intro t; rw [← hL]; simp [notBefore]
    by_cases hlen : (L.take 100).length < 100
    · rw [if_pos hlen]
      refine ⟨_, _, _, rfl, fun t ht => ?_⟩
      have hLt : L.take 100 = L := by
        rw [List.length_take] at hlen
        exact List.take_of_length_le (by omega)
      rw [hLt]
      by_cases hts : time t < s * 1000000000
      · exact List.mem_append_left _ (hlog t ht hts)
      · exact List.mem_append_right _ ((hmemL t).2 ⟨ht, by omega⟩)
    · rw [if_neg hlen]
      have hl100 : (L.take 100).length = 100 := by
        have : (L.take 100).length ≤ 100 := List.length_take_le _ _
        omega
      -- the latest transaction of the reply is more than a minute later
      have hM : (s + 61) * 1000000000 ≤ maxTime 0 (L.take 100) := by
        by_contra hlt
        have hsub : (L.take 100).Sublist (inWindow items s) := by
          have e : (L.take 100).filter (fun t => decide (s * 1000000000 ≤ time t ∧ time t < (s + 61) * 1000000000)) = L.take 100 := by
            rw [List.filter_eq_self]
            intro t ht
            have h1 := (hmemL t).1 (List.mem_of_mem_take ht)
            have h2 := (maxTime_ge (L.take 100) 0).2 t ht
            simp only [decide_eq_true_eq]
            exact ⟨h1.2, by omega⟩
          rw [← e]
          apply List.Sublist.filter
          exact (List.take_sublist _ _).trans (by rw [← hL]; exact List.filter_sublist)
        have := hsub.length_le
        have := hw s
        omega
      have hsM : s + 1 ≤ sinceOf (maxTime 0 (L.take 100)) := by
        unfold sinceOf
        rw [Int.le_ediv_iff_mul_le (by norm_num)]
        linarith
      refine ih _ _ _ _ (by omega) ?_
      intro t ht htt
      by_cases hts : time t < s * 1000000000
      · exact List.mem_append_left _ (hlog t ht hts)
      · refine List.mem_append_right _ ?_
        have htL : t ∈ L := (hmemL t).2 ⟨ht, by omega⟩
        -- otherwise it would come after all transactions of the reply
        rcases List.mem_append.1 (by rw [List.take_append_drop]; exact htL : t ∈ L.take 100 ++ L.drop 100) with h | h
        · exact h
        · exfalso
          have hsL : L.Pairwise fun a b => time a ≤ time b := by rw [← hL]; exact hs.filter _
          rw [← List.take_append_drop 100 L, List.pairwise_append] at hsL
          have hcut : sinceOf (maxTime 0 (L.take 100)) * 1000000000 ≤ maxTime 0 (L.take 100) - 60 * 1000000000 :=
            Int.ediv_mul_le _ (by norm_num)
          rcases maxTime_mem (L.take 100) 0 with h' | ⟨x, hx, h'⟩
          · have := h0 t ht; omega
          · have := hsL.2.2 x hx t h
            omega

theorem eq_of_nodup_map (l : List MonzoTxn) (h : (l.map (·.id)).Nodup) {a b : MonzoTxn} (ha : a ∈ l) (hb : b ∈ l)
    (hab : a.id = b.id) : a = b := by
  induction l with
  | nil => simp at ha
  | cons x l ih =>
    rw [List.map_cons, List.nodup_cons] at h
    rcases List.mem_cons.1 ha with h1 | h1 <;> rcases List.mem_cons.1 hb with h2 | h2
    · rw [h1, h2]
    · exact absurd (List.mem_map.2 ⟨b, h2, by rw [← hab, h1]⟩) h.1
    · exact absurd (List.mem_map.2 ⟨a, h1, by rw [hab, h2]⟩) h.1
    · exact ih h.2 h1 h2

/-- C69, the part that holds: with a server that holds finitely many transactions, fewer than a hundred of them within any 61 seconds, the
download ends after finitely many rounds, and every transaction of the server is stored.
Missing: servers with a hundred or more transactions within a minute. -/
theorem c69_terminates_partial (items : List MonzoTxn) (hp : ∀ t ∈ items, t.created ≠ none) (h0 : ∀ t ∈ items, 0 ≤ time t)
    (hs : items.Pairwise fun a b => time a ≤ time b) (hw : ∀ s : Int, (inWindow items s).length < 100)
    (hid : (items.map (·.id)).Nodup) (ago : Nat → Int) (acct : Str) (n : Nat) (m : SMap MonzoTxn) :
    ∃ fuel n' log' m', getAll (serve items) ago acct fuel none n [] m = .done (n', log', m') ∧
      ∀ t ∈ items, m'.get t.id = some t := by
  -- every download that delivers only transactions of the server stores them
  have hstore : ∀ fuel n' log' m', getAll (serve items) ago acct fuel none n [] m = .done (n', log', m') →
      (∀ t ∈ log', t ∈ items) → (∀ t ∈ items, t ∈ log') → ∀ t ∈ items, m'.get t.id = some t := by
    intro fuel n' log' m' h hsub hall t ht
    obtain ⟨sent, hl, hg⟩ := getAll_store _ _ _ _ _ _ _ _ _ _ _ h
    simp only [List.nil_append] at hl
    subst hl
    rw [hg]
    cases hf : lastSuch (fun x => decide (x.id = t.id)) log' with
    | none =>
      have := List.find?_eq_none.1 hf t (by simpa using hall t ht)
      simp at this
    | some w =>
      have h1 : w ∈ log' := by simpa using List.mem_of_find?_eq_some hf
      have h2 : w.id = t.id := by simpa using List.find?_some hf
      rw [eq_of_nodup_map items hid (hsub w h1) ht h2]
      rfl
  -- only transactions of the server are delivered
  have hsubset : ∀ fuel since n log m n' log' m', getAll (serve items) ago acct fuel since n log m = .done (n', log', m') →
      (∀ t ∈ log, t ∈ items) → ∀ t ∈ log', t ∈ items := by
    intro fuel
    induction fuel with
    | zero => intro since n log m n' log' m' h; simp [getAll] at h
    | succ fuel ih =>
      intro since n log m n' log' m' h hlog
      rw [getAll_round items hp] at h
      have hnew : ∀ t ∈ log ++ (items.filter (notBefore since)).take 100, t ∈ items := by
        intro t ht
        rcases List.mem_append.1 ht with ht | ht
        · exact hlog t ht
        · exact List.mem_of_mem_filter (List.mem_of_mem_take ht)
      split at h
      · simp only [DL.done.injEq, Prod.mk.injEq] at h
        obtain ⟨_, rfl, _⟩ := h
        exact hnew
      · exact ih _ _ _ _ _ _ _ h hnew
  obtain ⟨top, htop⟩ : ∃ top : Int, ∀ t ∈ items, time t < top * 1000000000 := by
    refine ⟨maxTime 0 items + 1, fun t ht => ?_⟩
    have h1 := (maxTime_ge items 0).2 t ht
    have h2 := (maxTime_ge items 0).1
    omega
  have hfull : items.filter (notBefore none) = items := by simp [notBefore]
  by_cases hlen : (items.take 100).length < 100
  · have hr : getAll (serve items) ago acct 1 none n [] m = _ := getAll_round items hp ago acct 0 none n [] m
    rw [hfull, if_pos hlen] at hr
    refine ⟨1, _, _, _, hr, hstore _ _ _ _ hr ?_ ?_⟩
    · intro t ht
      exact List.mem_of_mem_take (by simpa using ht)
    · intro t ht
      rw [List.length_take] at hlen
      rw [List.nil_append, List.take_of_length_le (by omega)]
      exact ht
  · have hsM := Int.ediv_mul_le (maxTime 0 (items.take 100) - 60 * 1000000000) (b := 1000000000) (by norm_num)
    obtain ⟨n', log', m', hd, hall⟩ := getAll_ends items hp h0 hs hw ago acct top htop
      (top - sinceOf (maxTime 0 (items.take 100))).toNat (sinceOf (maxTime 0 (items.take 100))) (n + 1) ([] ++ items.take 100)
      ((items.take 100).foldl (fun m t => m.put t.id t) m) (by omega) (by
        intro t ht htt
        rw [List.nil_append]
        rcases List.mem_append.1 (by rw [List.take_append_drop]; exact ht : t ∈ items.take 100 ++ items.drop 100) with h | h
        · exact h
        · exfalso
          have hsL := hs
          rw [← List.take_append_drop 100 items, List.pairwise_append] at hsL
          unfold sinceOf at htt
          rcases maxTime_mem (items.take 100) 0 with h' | ⟨x, hx, h'⟩
          · have := h0 t ht; omega
          · have := hsL.2.2 x hx t h
            omega)
    have hr := getAll_round items hp ago acct ((top - sinceOf (maxTime 0 (items.take 100))).toNat + 1) none n [] m
    rw [hfull, if_neg hlen] at hr
    rw [← hr] at hd
    exact ⟨_, n', log', m', hd, hstore _ _ _ _ hd (hsubset _ _ _ _ _ _ _ _ hd (by simp)) hall⟩

def DL.check {α : Type} (d : DL α) (p : α → Bool) : Bool :=
  match d with
  | .done a => p a
  | _ => false

/-- `n` transactions, one every `gap` seconds. -/
def demoItems (n : Nat) (gap : Int) : List MonzoTxn := (List.range n).map fun i => ⟨[i], some (i * gap * 1000000000), []⟩

/-- Non-vacuity: 250 transactions, ten seconds apart: three requests fetch them all. -/
example : ∃ n' log' m', getAll (serve (demoItems 250 10)) (fun _ => 0) b!"a" 5 none 0 [] [] = .done (n', log', m') ∧
    n' = 3 ∧ m'.length = 250 := by
  refine ⟨3, ?_⟩
  have : (getAll (serve (demoItems 250 10)) (fun _ => 0) b!"a" 5 none 0 [] []).check
      (fun r => decide (r.1 = 3 ∧ r.2.2.length = 250)) = true := by decide +kernel
  cases h : getAll (serve (demoItems 250 10)) (fun _ => 0) b!"a" 5 none 0 [] [] with
  | done r =>
    rw [h] at this
    simp only [DL.check, decide_eq_true_eq] at this
    obtain ⟨n', log', m'⟩ := r
    obtain ⟨h1, h2⟩ := this
    simp only at h1 h2
    subst h1
    exact ⟨log', m', rfl, rfl, h2⟩
  | failed => rw [h] at this; simp [DL.check] at this
  | running => rw [h] at this; simp [DL.check] at this

theorem demoItems_spaced (n : Nat) : (demoItems n 1000).Pairwise fun a b => time a + 1000 * 1000000000 ≤ time b := by
  unfold demoItems
  rw [List.pairwise_map]
  apply List.Pairwise.imp _ (List.pairwise_lt_range)
  intro a b hab
  simp only [time, Option.getD_some]
  have : (a : Int) + 1 ≤ b := by exact_mod_cast hab
  linarith

/-- Non-vacuity of the hypotheses: 250 transactions, a thousand seconds apart. -/
example : (∀ t ∈ demoItems 250 1000, t.created ≠ none) ∧ (∀ t ∈ demoItems 250 1000, 0 ≤ time t) ∧
    ((demoItems 250 1000).Pairwise fun a b => time a ≤ time b) ∧ (∀ s : Int, (inWindow (demoItems 250 1000) s).length < 100) ∧
    ((demoItems 250 1000).map (·.id)).Nodup := by
  refine ⟨?_, ?_, ?_, ?_, by decide +kernel⟩
  · intro t ht
    simp only [demoItems, List.mem_map] at ht
    obtain ⟨i, -, rfl⟩ := ht
    simp
  · intro t ht
    simp only [demoItems, List.mem_map] at ht
    obtain ⟨i, -, rfl⟩ := ht
    simp only [time, Option.getD_some]
    positivity
  · exact (demoItems_spaced 250).imp (fun h => by omega)
  · intro s
    have hp : (inWindow (demoItems 250 1000) s).Pairwise fun a b => time a + 1000 * 1000000000 ≤ time b :=
      (demoItems_spaced 250).filter _
    have hm : ∀ t ∈ inWindow (demoItems 250 1000) s, s * 1000000000 ≤ time t ∧ time t < (s + 61) * 1000000000 := by
      intro t ht
      simpa using (List.mem_filter.1 ht).2
    revert hp hm
    generalize inWindow (demoItems 250 1000) s = w
    intro hp hm
    match w with
    | [] => decide
    | [_] => simp
    | a :: b :: w =>
      have h1 := (List.pairwise_cons.1 hp).1 b (by simp)
      have h2 := hm a (by simp)
      have h3 := hm b (by simp)
      omega

/-- C69 is false of the code: a hundred transactions within one minute make it ask the same question for ever. -/
theorem c69_burst_fails :
    ∃ items : List MonzoTxn, (∀ t ∈ items, t.created ≠ none ∧ 0 ≤ time t) ∧ (items.Pairwise fun a b => time a ≤ time b) ∧
      (items.map (·.id)).Nodup ∧
      ∀ (ago : Nat → Int) (acct : Str) (n : Nat) (log : List MonzoTxn) (m : SMap MonzoTxn) (fuel : Nat),
        getAll (serve items) ago acct fuel none n log m = .running := by
  refine ⟨demoItems 100 0, ?_, ?_, ?_, ?_⟩
  · intro t ht
    simp only [demoItems, List.mem_map] at ht
    obtain ⟨i, -, rfl⟩ := ht
    simp [time]
  · have : ∀ t ∈ demoItems 100 0, time t = 0 := by
      intro t ht
      simp only [demoItems, List.mem_map] at ht
      obtain ⟨i, -, rfl⟩ := ht
      simp [time]
    exact List.pairwise_of_forall_mem_list (fun a ha b hb => by rw [this a ha, this b hb])
  · decide +kernel
  · intro ago acct n log m fuel
    have hall : ∀ t ∈ demoItems 100 0, time t = 0 ∧ t.created ≠ none := by
      intro t ht
      simp only [demoItems, List.mem_map] at ht
      obtain ⟨i, -, rfl⟩ := ht
      simp [time]
    have key : ∀ fuel since n log m, (since = none ∨ since = some (-60)) →
        getAll (serve (demoItems 100 0)) ago acct fuel since n log m = .running := by
      intro fuel
      induction fuel with
      | zero => intro since n log m _; rfl
      | succ fuel ih =>
        intro since n log m hsince
        have hf : (demoItems 100 0).filter (notBefore since) = demoItems 100 0 := by
          rw [List.filter_eq_self]
          intro t ht
          rcases hsince with rfl | rfl
          · rfl
          · simp [notBefore, (hall t ht).1]
        have ht : (demoItems 100 0).take 100 = demoItems 100 0 := List.take_of_length_le (by simp [demoItems])
        have hM : maxTime 0 (demoItems 100 0) = 0 := by
          rcases maxTime_mem (demoItems 100 0) 0 with h | ⟨x, hx, h⟩
          · exact h
          · rw [h, (hall x hx).1]
        rw [getAll_round _ (fun t ht => (hall t ht).2), hf, ht, if_neg (by simp [demoItems]), hM]
        exact ih _ _ _ _ (Or.inr (by decide))
    exact key fuel none n log m (Or.inl rfl)

/-! # C70: throttling -/

theorem history_gaps {min last start : Int} {rs : List Req} (h : History min last start rs) :
    (∀ r, rs.head? = some r → last + min ≤ r.slot) ∧
      rs.IsChain fun a b => a.slot + min ≤ b.slot ∧ a.sent + min - (a.sent - a.slot) ≤ b.sent := by
  induction h with
  | nil => exact ⟨by simp, List.IsChain.nil⟩
  | cons last start r rs h1 h2 h3 h4 ih =>
    refine ⟨?_, ?_⟩
    · intro x hx
      simp only [List.head?_cons, Option.some.injEq] at hx
      subst hx
      rw [h2]
      unfold throttle
      simp only
      split <;> omega
    · rw [List.isChain_cons]
      refine ⟨fun b hb => ?_, ih.2⟩
      have := ih.1 b hb
      cases h4 with
      | nil => simp at hb
      | cons _ _ b' rs' g1 g2 g3 g4 =>
        simp only [List.head?_cons, Option.mem_def, Option.some.injEq] at hb
        subst hb
        exact ⟨this, by omega⟩

/-- C70, the part that holds: the slots are at least the minimum delay apart, and so are the requests when they go out in their slots; in general a request that goes out late
shortens the distance to the next one by no more than its own delay.
Missing: that a late request pushes the next one back. -/
theorem c70_throttled_partial {min last start : Int} {rs : List Req} (h : History min last start rs) :
    (rs.IsChain fun a b => a.slot + min ≤ b.slot ∧ a.sent + min - (a.sent - a.slot) ≤ b.sent) ∧
    ((∀ r ∈ rs, r.sent = r.slot) → rs.IsChain fun a b => a.sent + min ≤ b.sent) ∧
    (∀ late, (∀ r ∈ rs, r.sent ≤ r.slot + late) → rs.IsChain fun a b => a.sent + (min - late) ≤ b.sent) := by
  have hg := (history_gaps h).2
  have aux : ∀ (P : Req → Prop) (R : Req → Req → Prop), (∀ a b, P a → (a.slot + min ≤ b.slot ∧ a.sent + min - (a.sent - a.slot) ≤ b.sent) → R a b) →
      (∀ r ∈ rs, P r) → rs.IsChain R := by
    intro P R hR hP
    clear h
    induction rs with
    | nil => exact List.IsChain.nil
    | cons r rs ih =>
      rw [List.isChain_cons] at hg ⊢
      exact ⟨fun b hb => hR r b (hP r (by simp)) (hg.1 b hb), ih hg.2 (fun r hr => hP r (by simp [hr]))⟩
  refine ⟨hg, ?_, ?_⟩
  · exact aux (fun r => r.sent = r.slot) _ (fun a b ha h => by omega)
  · intro late
    exact aux (fun r => r.sent ≤ r.slot + late) _ (fun a b ha h => by omega)

/-- Two requests, the second called ten milliseconds after the first. -/
example : History 100 0 0 [⟨1000, 1000, 1000⟩, ⟨1010, 1100, 1100⟩] :=
  .cons _ _ _ _ (by decide) rfl (by decide) (.cons _ _ _ _ (by decide) rfl (by decide) (.nil _ _))

/-- C70 is false of the code when a request goes out late: the next slot is counted from the time it should have gone
out. -/
theorem c70_late_request_fails :
    ¬ ∀ (min last start : Int) (rs : List Req), 0 ≤ min → History min last start rs →
      rs.IsChain fun a b => a.sent + min ≤ b.sent := by
  intro h
  have := h 100 0 0 [⟨1000, 1000, 1000⟩, ⟨1001, 1100, 1150⟩, ⟨1160, 1200, 1200⟩] (by decide)
    (.cons _ _ _ _ (by decide) rfl (by decide) (.cons _ _ _ _ (by decide) rfl (by decide)
      (.cons _ _ _ _ (by decide) rfl (by decide) (.nil _ _))))
  simp [List.isChain_cons] at this

end Verif
