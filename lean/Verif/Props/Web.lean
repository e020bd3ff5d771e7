import Verif.Spec.Web
import Mathlib.Data.List.Induction

/-! # C81: web requests do not influence each other -/

namespace Verif
open Spec

theorem assigns_eq (s : Settings) (l : List (Str × Str)) : s.assigns l = withFlags s l := by
  funext k
  unfold Settings.assigns withFlags lastSet
  induction l using List.reverseRecOn with
  | nil => rfl
  | append_singleton l kv ih =>
    rw [List.foldl_append, List.foldl_cons, List.foldl_nil, List.reverse_append, List.reverse_singleton, List.singleton_append,
      List.find?_cons]
    unfold Settings.assign
    by_cases h : k = kv.1
    · simp [h]
    · rw [if_neg h]
      simp only [decide_eq_true_eq, Ne.symm h, decide_false]
      exact ih

theorem withFlags_append (s : Settings) (l m : List (Str × Str)) : withFlags (withFlags s l) m = withFlags s (l ++ m) := by
  rw [← assigns_eq, ← assigns_eq, ← assigns_eq]
  unfold Settings.assigns
  rw [List.foldl_append]

/-- Requests served one at a time, starting from settings changed by the flags `pre`. -/
theorem serial (c : WebCmds) (reqs : Nat → List Str) (base : Settings) (l : List Nat) : ∀ (w : Web) (pre : List (Str × Str)), l.Nodup →
    w.settings = withFlags base pre → (∀ i ∈ l, w.phase i = .fresh) → 
    (∀ (k : Nat) (h : k < l.length), (w.sched c reqs (oneByOne l)).resp l[k] =
      w.resp l[k] ++ answer c base (pre ++ (l.take k).flatMap fun j => (c.parse (reqs j)).1) (reqs l[k])) ∧
    ∀ j, j ∉ l → (w.sched c reqs (oneByOne l)).resp j = w.resp j := by
  induction l with
  | nil => intro w pre _ _ _; exact ⟨fun k h => absurd h (by simp), fun _ _ => rfl⟩
  | cons i l ih =>
    intro w pre hnd hset hph
    rw [List.nodup_cons] at hnd
    have hi : w.phase i = .fresh := hph i (by simp)
    have hfour : ∃ w', w.sched c reqs [i, i, i, i] = w' ∧ w'.settings = withFlags base (pre ++ (c.parse (reqs i)).1) ∧
        (∀ j, j ≠ i → w'.phase j = w.phase j) ∧ w'.resp i = w.resp i ++ answer c base pre (reqs i) ∧ ∀ j, j ≠ i → w'.resp j = w.resp j := by
      have hset' : w.settings.assigns (c.parse (reqs i)).1 = withFlags base (pre ++ (c.parse (reqs i)).1) := by
        rw [assigns_eq, hset, withFlags_append]
      have e1 : w.step c reqs i = { w with output := i, phase := setAt w.phase i .opened } := by
        unfold Web.step; rw [hi]
      have e2 : (w.step c reqs i).step c reqs i = { w with settings := w.settings.assigns (c.parse (reqs i)).1, output := i, phase := setAt (setAt w.phase i .opened) i (.parsed (c.parse (reqs i)).2) } := by
        rw [e1]; unfold Web.step; simp [setAt]
      refine ⟨_, rfl, ?_⟩
      unfold Web.sched
      simp only [List.foldl_cons, List.foldl_nil]
      rw [e2]
      cases hp : (c.parse (reqs i)).2 with
      | none =>
        have e3 : ∀ w : Web, w.phase i = .parsed none → w.step c reqs i =
            { w with phase := setAt w.phase i .done, resp := setAt w.resp i (w.resp i ++ c.error (reqs i)) } := by
          intro w h; unfold Web.step; rw [h]
        have e4 : ∀ w : Web, w.phase i = .done → w.step c reqs i = w := by
          intro w h; unfold Web.step; rw [h]
        have e5 : ∀ w : Web, w.phase i = .parsed none → (w.step c reqs i).step c reqs i =
            { w with phase := setAt w.phase i .done, resp := setAt w.resp i (w.resp i ++ c.error (reqs i)) } := by
          intro w h; rw [e3 w h, e4 _ (by simp [setAt])]
        rw [e5]
        rotate_left
        · simp [setAt]
        refine ⟨hset', ?_, ?_, ?_⟩
        · intro j hj; simp [setAt, hj]
        · simp [setAt, answer, hp]
        · intro j hj; simp [setAt, hj]
      | some a =>
        have e3 : ∀ w : Web, w.phase i = .parsed (some a) → w.step c reqs i =
            { w with phase := setAt w.phase i (.loaded (c.run w.settings a)) } := by
          intro w h; unfold Web.step; rw [h]
        have e4 : ∀ (w : Web) (t : Str), w.phase i = .loaded t → w.step c reqs i =
            { w with phase := setAt w.phase i .done, resp := setAt w.resp w.output (w.resp w.output ++ t) } := by
          intro w t h; unfold Web.step; rw [h]
        have e5 : ∀ w : Web, w.phase i = .parsed (some a) → (w.step c reqs i).step c reqs i =
            { w with phase := setAt (setAt w.phase i (.loaded (c.run w.settings a))) i .done, resp := setAt w.resp w.output (w.resp w.output ++ c.run w.settings a) } := by
          intro w h; rw [e3 w h, e4 _ (c.run w.settings a) (by simp [setAt])]
        rw [e5]
        rotate_left
        · simp [setAt]
        refine ⟨hset', ?_, ?_, ?_⟩
        · intro j hj; simp [setAt, hj]
        · simp [setAt, answer, hp, hset']
        · intro j hj; simp [setAt, hj]
    obtain ⟨w', hw', s1, s2, s3, s4⟩ := hfour
    have hsplit : w.sched c reqs (oneByOne (i :: l)) = w'.sched c reqs (oneByOne l) := by
      rw [← hw']
      unfold Web.sched oneByOne
      rw [List.flatMap_cons, List.foldl_append]
    have hfresh : ∀ j ∈ l, w'.phase j = .fresh := by
      intro j hj
      have hne : j ≠ i := fun e => hnd.1 (e ▸ hj)
      rw [s2 j hne]
      exact hph j (by simp [hj])
    obtain ⟨g1, g2⟩ := ih w' (pre ++ (c.parse (reqs i)).1) hnd.2 s1 hfresh
    rw [hsplit]
    constructor
    · intro k hk
      cases k with
      | zero =>
        simp only [List.getElem_cons_zero, List.take_zero, List.flatMap_nil, List.append_nil]
        rw [g2 i hnd.1, s3]
      | succ k =>
        simp only [List.getElem_cons_succ, List.take_succ_cons, List.flatMap_cons]
        rw [g1 k (by simpa using hk), s4 _ (fun e => hnd.1 (e ▸ List.getElem_mem _)), List.append_assoc]
    · intro j hj
      rw [List.mem_cons, not_or] at hj
      rw [g2 j hj.2, s4 j hj.1]

/-- C81: exactly what happens when requests are served one after the other: each is answered as the command line program would be if
all flags of the earlier requests had been given, too. -/
theorem c81_one_by_one (c : WebCmds) (base : Settings) (reqs : Nat → List Str) (n k : Nat) (hk : k < n) :
    ((Web.start base).sched c reqs (oneByOne (List.range n))).resp k =
      answer c base ((List.range k).flatMap fun j => (c.parse (reqs j)).1) (reqs k) := by
  have := (serial c reqs base (List.range n) (Web.start base) [] List.nodup_range
    (by funext x; simp [Web.start, withFlags, lastSet]) (fun _ _ => rfl)).1 k (by simpa using hk)
  rw [List.getElem_range] at this
  rw [this, List.take_range, Nat.min_eq_left (Nat.le_of_lt hk)]
  rfl

private theorem lastSet_append (l m : List (Str × Str)) (k : Str) : lastSet (l ++ m) k = (lastSet m k).or (lastSet l k) := by
  unfold lastSet
  rw [List.reverse_append, List.find?_append]
  cases List.find? (fun kv => decide (kv.1 = k)) m.reverse <;> rfl

private theorem lastSet_none {l : List (Str × Str)} {k : Str} (h : ∀ kv ∈ l, kv.1 ≠ k) : lastSet l k = none := by
  unfold lastSet
  rw [Option.map_eq_none_iff, List.find?_eq_none]
  intro x hx
  simpa using h x (List.mem_reverse.1 hx)

private theorem lastSet_some {l : List (Str × Str)} {k : Str} (h : ∃ kv ∈ l, kv.1 = k) : ∃ v, lastSet l k = some v := by
  obtain ⟨kv, h1, h2⟩ := h
  unfold lastSet
  have : (l.reverse.find? fun kv => decide (kv.1 = k)).isSome := List.find?_isSome.2 ⟨kv, List.mem_reverse.2 h1, by simpa using h2⟩
  obtain ⟨x, hx⟩ := Option.isSome_iff_exists.1 this
  rw [hx]
  exact ⟨_, rfl⟩

/-- C81, what holds: if requests do not overlap and a request gives every flag that an earlier one gave (for instance if nobody gives
flags), it is answered as by the command line program.  Missing: any other request, and overlapping requests. -/
theorem c81_isolated_partial (c : WebCmds) (base : Settings) (reqs : Nat → List Str) (n k : Nat) (hk : k < n)
    (hflags : ∀ j < k, ∀ kv ∈ (c.parse (reqs j)).1, ∃ kv' ∈ (c.parse (reqs k)).1, kv'.1 = kv.1) :
    ((Web.start base).sched c reqs (oneByOne (List.range n))).resp k = alone c base (reqs k) := by
  rw [c81_one_by_one c base reqs n k hk]
  have : withFlags base (((List.range k).flatMap fun j => (c.parse (reqs j)).1) ++ (c.parse (reqs k)).1) =
      withFlags base ([] ++ (c.parse (reqs k)).1) := by
    funext x
    unfold withFlags
    rw [lastSet_append, List.nil_append]
    by_cases h : ∃ kv ∈ (c.parse (reqs k)).1, kv.1 = x
    · obtain ⟨v, hv⟩ := lastSet_some h
      rw [hv]; rfl
    · have h1 : lastSet (c.parse (reqs k)).1 x = none := lastSet_none fun kv hkv e => h ⟨kv, hkv, e⟩
      rw [h1, lastSet_none]
      · rfl
      · intro kv hkv e
        rw [List.mem_flatMap] at hkv
        obtain ⟨j, hj, hm⟩ := hkv
        obtain ⟨kv', h2, h3⟩ := hflags j (List.mem_range.1 hj) kv hm
        exact h ⟨kv', h2, h3.trans e⟩
  unfold alone answer
  rw [this]

/-- The texts computed by the goroutines. -/
private def TextsOk (c : WebCmds) (base : Settings) (reqs : Nat → List Str) (w : Web) : Prop :=
  w.settings = base ∧ ∀ i, (∀ a, w.phase i = .parsed a → a = (c.parse (reqs i)).2) ∧ ∀ t, w.phase i = .loaded t → t = alone c base (reqs i)

/-- C81, what holds for overlapping requests: if no request gives flags then, whatever the schedule, what each of them prints is what the
command line program would print.  Missing: that it goes to the right response. -/
theorem c81_overlap_text_partial (c : WebCmds) (base : Settings) (reqs : Nat → List Str) (hno : ∀ j, (c.parse (reqs j)).1 = [])
    (l : List Nat) (i : Nat) (t : Str) (h : ((Web.start base).sched c reqs l).phase i = .loaded t) : t = alone c base (reqs i) := by
  have inv : ∀ l : List Nat, ∀ w, TextsOk c base reqs w → TextsOk c base reqs (w.sched c reqs l) := by
    intro l
    induction l with
    | nil => intro w h; exact h
    | cons i l ih =>
      intro w hw
      refine ih _ ?_
      obtain ⟨h1, h2⟩ := hw
      unfold Web.step
      split
      · refine ⟨h1, fun j => ?_⟩
        simp only [setAt]
        by_cases hj : j = i
        · rw [if_pos hj]; exact ⟨fun a e => (by cases e), fun t e => (by cases e)⟩
        · rw [if_neg hj]; exact h2 j
      · refine ⟨by rw [hno i]; exact h1, fun j => ?_⟩
        simp only [setAt]
        by_cases hj : j = i
        · subst hj; rw [if_pos rfl]; exact ⟨fun a e => (by injection e with e; exact e.symm), fun t e => (by cases e)⟩
        · rw [if_neg hj]; exact h2 j
      · refine ⟨h1, fun j => ?_⟩
        simp only [setAt]
        by_cases hj : j = i
        · rw [if_pos hj]; exact ⟨fun a e => (by cases e), fun t e => (by cases e)⟩
        · rw [if_neg hj]; exact h2 j
      · rename_i args hph
        refine ⟨h1, fun j => ?_⟩
        simp only [setAt]
        by_cases hj : j = i
        · subst hj
          rw [if_pos rfl]
          refine ⟨fun a e => (by cases e), fun t e => ?_⟩
          injection e with e
          have hp := (h2 j).1 _ hph
          have hb : withFlags base [] = base := by funext x; rfl
          rw [← e, h1]
          simp only [alone, answer, ← hp, hno j, List.append_nil, hb]
        · rw [if_neg hj]; exact h2 j
      · refine ⟨h1, fun j => ?_⟩
        simp only [setAt]
        by_cases hj : j = i
        · rw [if_pos hj]; exact ⟨fun a e => (by cases e), fun t e => (by cases e)⟩
        · rw [if_neg hj]; exact h2 j
      · exact ⟨h1, h2⟩
  have := inv l (Web.start base) ⟨rfl, fun i => ⟨fun a e => (by cases e), fun t e => (by cases e)⟩⟩
  exact (this.2 i).2 t h

/-! ## It is false -/

/-- Commands for the counterexamples: `--ledger=…` (9 characters, then the value) is a flag, all else is the command, which shows the name of
the ledger and its arguments. -/
def demoCmds : WebCmds where
  parse args := ((args.filter fun a => b!"--ledger=".isPrefixOf a).map fun a => (b!"ledger", a.drop 9),
    some (args.filter fun a => !b!"--ledger=".isPrefixOf a))
  run s args := s b!"ledger" ++ args.flatten
  error _ := []

/-- C81 is false: the flags of a request stay in force for later requests. -/
theorem c81_sticky_flag_fails : ¬ ∀ (c : WebCmds) (base : Settings) (reqs : Nat → List Str) (n k : Nat), k < n →
    ((Web.start base).sched c reqs (oneByOne (List.range n))).resp k = alone c base (reqs k) := by
  intro h
  have := h demoCmds (fun _ => b!"main.ledger") (fun i => if i = 0 then [b!"--ledger=secret", b!"accts"] else [b!"accts"]) 2 1 (by omega)
  revert this
  decide +kernel

/-- C81 is false: the output of a request can go to another one's response, even if nobody gives flags. -/
theorem c81_mixed_up_fails : ¬ ∀ (c : WebCmds) (base : Settings) (reqs : Nat → List Str), (∀ j, (c.parse (reqs j)).1 = []) →
    ∀ (l : List Nat) (i : Nat), ((Web.start base).sched c reqs l).phase i = .done → ((Web.start base).sched c reqs l).resp i = alone c base (reqs i) := by
  intro h
  have := h demoCmds (fun _ => b!"main.ledger") (fun i => if i = 0 then [b!"accts"] else [b!"ccy"]) (by
    intro j; by_cases hj : j = 0 <;> simp only [hj, if_true, if_false] <;> decide +kernel) [0, 1, 0, 0, 0] 0 (by decide +kernel)
  revert this
  decide +kernel

/-- The hypothesis of the partial theorem is met by requests that all give the same flag. -/
example : ∀ j < 3, ∀ kv ∈ (demoCmds.parse [b!"--ledger=a", b!"accts"]).1, ∃ kv' ∈ (demoCmds.parse [b!"accts", b!"--ledger=b"]).1, kv'.1 = kv.1 := by
  decide +kernel

end Verif
