import Verif.Spec.BookOp
import Verif.Props.Ops2
import Mathlib.Order.WellFounded
import Mathlib.Data.Fintype.Pigeonhole

/-! # C61: operation lists and macros -/

namespace Verif
open Spec

theorem seen_wrap (op : Str) (r : OpEnd) : (r.wrap op).seen = r.seen := by cases r <;> rfl

/-- Sequencing, on what is seen. -/
def Seen.andThen (s : Seen) (k : Book → Seen) : Seen :=
  match s with
  | .ok b => k b
  | r => r

theorem runFlat_append (e : OpEnv) (l1 l2 : List Str) (b : Book) :
    runFlat e (l1 ++ l2) b = (runFlat e l1 b).andThen (runFlat e l2) := by
  induction l1 generalizing b with
  | nil => rfl
  | cons o l ih =>
    simp only [List.cons_append, runFlat]
    split
    · rfl
    · split
      · rfl
      · exact ih _

theorem runAll_cons_seen (f : Str → Book → OpEnd) (o : Str) (os : List Str) (b : Book) :
    (runAll f (o :: os) b).seen = ((f o b).seen).andThen fun b' => (runAll f os b').seen := by
  simp only [runAll]
  cases f o b <;> rfl

theorem runAll_congr_seen {f g : Str → Book → OpEnd} (h : ∀ o b, (f o b).seen = (g o b).seen)
    (os : List Str) (b : Book) : (runAll f os b).seen = (runAll g os b).seen := by
  induction os generalizing b with
  | nil => rfl
  | cons o os ih =>
    rw [runAll_cons_seen, runAll_cons_seen, h]
    congr 1
    funext b'
    exact ih b'

theorem primOp_seen (e : OpEnv) (op : Str) (b : Book) : (primOp e op b).seen = runFlat e [op] b := by
  unfold primOp
  simp only [runFlat]
  cases parsePrim e op with
  | none => rfl
  | some p =>
    simp only
    cases p.apply e b <;> rfl

theorem expansion_runs (e : OpEnv) (mac : Str → Option (List Str)) {ops flat : List Str}
    (h : Expansion mac ops flat) :
    ∃ n0, ∀ n, n0 ≤ n → ∀ b, (runAll (bookOp e mac n) ops b).seen = runFlat e flat b := by
  induction h with
  | nil => exact ⟨0, fun _ _ _ => rfl⟩
  | @prim op ops flat hm _ ih =>
    obtain ⟨n0, hn⟩ := ih
    refine ⟨n0 + 1, fun n h b => ?_⟩
    obtain ⟨k, rfl⟩ : ∃ k, n = k + 1 := ⟨n - 1, by omega⟩
    rw [runAll_cons_seen]
    have h1 : bookOp e mac (k + 1) op b = primOp e op b := by simp only [bookOp, hm]
    rw [h1, primOp_seen, show op :: flat = [op] ++ flat from rfl, runFlat_append]
    congr 1
    funext b'
    exact hn (k + 1) (by omega) b'
  | @expand op ms ops flat flat' hm _ _ ih1 ih2 =>
    obtain ⟨n1, hn1⟩ := ih1
    obtain ⟨n2, hn2⟩ := ih2
    refine ⟨max n1 n2 + 1, fun n h b => ?_⟩
    obtain ⟨k, rfl⟩ : ∃ k, n = k + 1 := ⟨n - 1, by omega⟩
    rw [runAll_cons_seen, runFlat_append]
    have h1 : bookOp e mac (k + 1) op b = (runAll (bookOp e mac k) ms b).wrap op := by simp only [bookOp, hm]
    rw [h1, seen_wrap, hn1 k (by omega)]
    congr 1
    funext b'
    exact hn2 (k + 1) (by omega) b'

/-- C61: a list of operations and macros has the same effect as its macro-free expansion:
the same book, or the same failure leaving the same book. -/
theorem c61_macro_is_expansion (e : OpEnv) (mac : Str → Option (List Str)) (ops flat : List Str)
    (h : Expansion mac ops flat) :
    ∃ n0, ∀ n, n0 ≤ n → ∀ b, (bookOps e mac n ops b).seen = runFlat e flat b := by
  obtain ⟨n0, hn⟩ := expansion_runs e mac h
  refine ⟨n0, fun n h b => ?_⟩
  rw [← hn n h b]
  exact runAll_congr_seen (fun o b => seen_wrap _ _) ops b

theorem wf_of_acyclic {mac : Str → Option (List Str)} (names : List Str)
    (hfin : ∀ op ms, mac op = some ms → op ∈ names) (hac : Acyclic mac) : WellFounded (UsedIn mac) := by
  rw [wellFounded_iff_isEmpty_descending_chain]
  constructor
  rintro ⟨f, hf⟩
  have hmem : ∀ n, f n ∈ names := by
    intro n
    obtain ⟨ms, h1, _⟩ := hf n
    exact hfin _ _ h1
  have hchain : ∀ i k, Relation.TransGen (UsedIn mac) (f (i + k + 1)) (f i) := by
    intro i k
    induction k with
    | zero => exact .single (hf i)
    | succ k ih => exact .head (hf (i + k + 1)) ih
  obtain ⟨i, j, hij, heq⟩ := Finite.exists_ne_map_eq_of_infinite (fun n : Nat => (⟨f n, hmem n⟩ : {x // x ∈ names}))
  have heq' : f i = f j := congrArg Subtype.val heq
  rcases Nat.lt_or_gt_of_ne hij with h | h
  · have := hchain i (j - i - 1)
    rw [show i + (j - i - 1) + 1 = j by omega, ← heq'] at this
    exact hac _ this
  · have := hchain j (i - j - 1)
    rw [show j + (i - j - 1) + 1 = i by omega, heq'] at this
    exact hac _ this

theorem expansion_append {mac : Str → Option (List Str)} {o : Str} {os f1 f2 : List Str}
    (h1 : Expansion mac [o] f1) (h2 : Expansion mac os f2) : Expansion mac (o :: os) (f1 ++ f2) := by
  cases h1 with
  | prim hm h => cases h; exact .prim hm h2
  | expand hm h h' => cases h'; rw [List.append_nil]; exact .expand hm h h2

theorem expansion_exists {mac : Str → Option (List Str)} (hwf : WellFounded (UsedIn mac)) :
    ∀ ops, ∃ flat, Expansion mac ops flat := by
  have hone : ∀ op, ∃ flat, Expansion mac [op] flat := by
    intro op
    induction op using hwf.induction with
    | _ op ih =>
      cases hm : mac op with
      | none => exact ⟨_, .prim hm .nil⟩
      | some ms =>
        have : ∀ l, (∀ m ∈ l, m ∈ ms) → ∃ flat, Expansion mac l flat := by
          intro l
          induction l with
          | nil => exact fun _ => ⟨_, .nil⟩
          | cons m l ihl =>
            intro hl
            obtain ⟨f1, h1⟩ := ih m ⟨ms, hm, hl m (by simp)⟩
            obtain ⟨f2, h2⟩ := ihl fun x hx => hl x (by simp [hx])
            exact ⟨_, expansion_append h1 h2⟩
        obtain ⟨f, hf⟩ := this ms fun _ h => h
        exact ⟨_, .expand hm hf .nil⟩
  intro ops
  induction ops with
  | nil => exact ⟨_, .nil⟩
  | cons o os ih =>
    obtain ⟨f1, h1⟩ := hone o
    obtain ⟨f2, h2⟩ := ih
    exact ⟨_, expansion_append h1 h2⟩

theorem runFlat_ne_diverge (e : OpEnv) (l : List Str) (b : Book) : runFlat e l b ≠ .diverge := by
  induction l generalizing b with
  | nil => simp [runFlat]
  | cons o l ih =>
    simp only [runFlat]
    split
    · simp
    · split
      · simp
      · exact ih _

/-- C61: with finitely many macros, none of which uses itself directly or indirectly, every
list of operations has an expansion and running it ends. -/
theorem c61_terminates (e : OpEnv) (mac : Str → Option (List Str)) (names : List Str)
    (hfin : ∀ op ms, mac op = some ms → op ∈ names) (hac : Acyclic mac) (ops : List Str) :
    ∃ flat n0, Expansion mac ops flat ∧ ∀ n, n0 ≤ n → ∀ b,
      (bookOps e mac n ops b).seen = runFlat e flat b ∧ (bookOps e mac n ops b).seen ≠ .diverge := by
  obtain ⟨flat, hx⟩ := expansion_exists (wf_of_acyclic names hfin hac) ops
  obtain ⟨n0, hn⟩ := c61_macro_is_expansion e mac ops flat hx
  refine ⟨flat, n0, hx, fun n h b => ⟨hn n h b, ?_⟩⟩
  rw [hn n h b]
  exact runFlat_ne_diverge e flat b

/-- C61: the first invalid operation ends the run: what was before it has been applied, what
comes after it has no effect. -/
theorem c61_stops_at_first_error (e : OpEnv) (l1 l2 : List Str) (bad : Str) (b b1 : Book)
    (hok : runFlat e l1 b = .ok b1) (hbad : parsePrim e bad = none) :
    runFlat e (l1 ++ bad :: l2) b = .failed b1 := by
  rw [runFlat_append, hok]
  simp [Seen.andThen, runFlat, hbad]

/-- C61, the other direction: a macro that begins with itself never ends. -/
theorem c61_self_macro_diverges (e : OpEnv) (mac : Str → Option (List Str)) (op : Str) (rest : List Str)
    (hm : mac op = some (op :: rest)) (n : Nat) (b : Book) :
    (bookOps e mac n [op] b).seen = .diverge := by
  have : ∀ n, bookOp e mac n op b = .diverge := by
    intro n
    induction n with
    | zero => rfl
    | succ n ih => simp only [bookOp, hm, runAll, ih, OpEnd.wrap]
  simp [bookOps, runAll, this, OpEnd.wrap, OpEnd.seen]

/-! ### Operation strings are read as written -/

theorem runAll_err {f : Str → Book → OpEnd} : ∀ {os : List Str} {b b' : Book} {t : List Str}, runAll f os b = .err b' t →
    ∃ o ∈ os, ∃ b1, f o b1 = .err b' t := by
  intro os
  induction os with
  | nil => intro b b' t h; cases h
  | cons o os ih =>
    intro b b' t h
    rw [runAll] at h
    cases ho : f o b with
    | ok b2 =>
      rw [ho] at h
      obtain ⟨o', h1, b1, h2⟩ := ih h
      exact ⟨o', by simp [h1], b1, h2⟩
    | err b2 t2 => rw [ho] at h; exact ⟨o, by simp, b, by rw [ho]; exact h⟩
    | panic => rw [ho] at h; cases h
    | diverge => rw [ho] at h; cases h

theorem bookOp_err (e : OpEnv) (mac : Str → Option (List Str)) : ∀ (n : Nat) (op : Str) (b b' : Book) (t : List Str), bookOp e mac n op b = .err b' t →
    ∃ bad, LeadsTo mac op t bad ∧ parsePrim e bad = none := by
  intro n
  induction n with
  | zero => intro op b b' t h; cases h
  | succ n ih =>
    intro op b b' t h
    rw [bookOp] at h
    cases hm : mac op with
    | none =>
      rw [hm] at h
      simp only [primOp] at h
      cases hp : parsePrim e op with
      | none =>
        rw [hp] at h
        cases h
        exact ⟨op, .prim hm, hp⟩
      | some p =>
        rw [hp] at h
        simp only at h
        cases ha : p.apply e b <;> rw [ha] at h <;> cases h
    | some ms =>
      rw [hm] at h
      simp only at h
      cases hr : runAll (bookOp e mac n) ms b with
      | err b2 t2 =>
        rw [hr] at h
        simp only [OpEnd.wrap, OpEnd.err.injEq] at h
        obtain ⟨rfl, rfl⟩ := h
        obtain ⟨o, ho, b1, h1⟩ := runAll_err hr
        obtain ⟨bad, h2, h3⟩ := ih o b1 _ _ h1
        exact ⟨bad, .expand hm ho h2, h3⟩
      | ok _ => rw [hr] at h; cases h
      | panic => rw [hr] at h; cases h
      | diverge => rw [hr] at h; cases h

/-- **C61**, errors: the message names the operation of the list that failed, and in order the macros that lead from it to the operation that is not one. -/
theorem c61_error_names (e : OpEnv) (mac : Str → Option (List Str)) (n : Nat) (ops : List Str) (b b' : Book) (trace : List Str)
    (h : bookOps e mac n ops b = .err b' trace) : ∃ op ∈ ops, ∃ path bad, trace = op :: path ∧ LeadsTo mac op path bad ∧ parsePrim e bad = none := by
  obtain ⟨op, hop, b1, h1⟩ := runAll_err h
  cases hr : bookOp e mac n op b1 with
  | err b2 t2 =>
    rw [hr] at h1
    simp only [OpEnd.wrap, OpEnd.err.injEq] at h1
    obtain ⟨rfl, rfl⟩ := h1
    obtain ⟨bad, h2, h3⟩ := bookOp_err e mac n op b1 _ _ hr
    exact ⟨op, hop, t2, bad, rfl, h2, h3⟩
  | ok _ => rw [hr] at h1; cases h1
  | panic => rw [hr] at h1; cases h1
  | diverge => rw [hr] at h1; cases h1

theorem splitB_plain {c : Nat} {f : Str} (h : c ∉ f) : splitB c f = [f] := by
  induction f with
  | nil => rfl
  | cons x xs ih =>
    simp only [List.mem_cons, not_or] at h
    simp [splitB, ih h.2, Ne.symm h.1]

theorem splitB_sep {c : Nat} {f : Str} (h : c ∉ f) (s : Str) : splitB c (f ++ c :: s) = f :: splitB c s := by
  induction f with
  | nil => simp [splitB]
  | cons x xs ih =>
    simp only [List.mem_cons, not_or] at h
    simp [splitB, ih h.2, Ne.symm h.1]

theorem splitB_ne_nil (c : Nat) (s : Str) : splitB c s ≠ [] := by
  induction s with
  | nil => simp [splitB]
  | cons x xs ih =>
    simp only [splitB]
    split
    · simp
    · split <;> simp

/-- Putting the separators back. -/
def joinB (c : Nat) : List Str → Str
  | [] => []
  | [f] => f
  | f :: g :: fs => f ++ c :: joinB c (g :: fs)

theorem splitB_join (c : Nat) (s : Str) : joinB c (splitB c s) = s ∧ ∀ f ∈ splitB c s, c ∉ f := by
  induction s with
  | nil => simp [splitB, joinB]
  | cons x xs ih =>
    simp only [splitB]
    have hne := splitB_ne_nil c xs
    cases hs : splitB c xs with
    | nil => exact absurd hs hne
    | cons f fs =>
      rw [hs] at ih
      split
      · next h =>
        subst h
        refine ⟨by simp [joinB, ih.1], ?_⟩
        intro g hg
        rcases List.mem_cons.1 hg with rfl | hg
        · simp
        · exact ih.2 g hg
      · next h =>
        refine ⟨?_, ?_⟩
        · cases fs with
          | nil => simpa [joinB] using ih.1
          | cons g gs => simpa [joinB] using ih.1
        · intro g hg
          rcases List.mem_cons.1 hg with rfl | hg
          · simp only [List.mem_cons, not_or]
            exact ⟨Ne.symm h, ih.2 f (by simp)⟩
          · exact ih.2 g (by simp [hg])

theorem splitB_eq_iff {c : Nat} {s : Str} {fs : List Str} (hne : fs ≠ []) :
    splitB c s = fs ↔ s = joinB c fs ∧ ∀ f ∈ fs, c ∉ f := by
  constructor
  · rintro rfl
    exact ⟨(splitB_join c s).1.symm, (splitB_join c s).2⟩
  · rintro ⟨rfl, h⟩
    induction fs with
    | nil => exact absurd rfl hne
    | cons f fs ih =>
      cases fs with
      | nil => exact splitB_plain (h f (by simp))
      | cons g gs =>
        simp only [joinB]
        rw [splitB_sep (h f (by simp)), ih (by simp) fun x hx => h x (by simp [hx])]

theorem reTwo_iff (s x y : Str) :
    reTwo s = some (x, y) ↔ s = b!"/" ++ x ++ b!"/" ++ y ++ b!"/" ∧ x ≠ [] ∧ y ≠ [] ∧ 47 ∉ x ∧ 47 ∉ y := by
  have key := @splitB_eq_iff 47 s [[], x, y, []] (by simp)
  unfold reTwo
  constructor
  · intro h
    split at h
    · next x' y' hs =>
      split at h
      · next hx =>
        simp only [Option.some.injEq, Prod.mk.injEq] at h
        obtain ⟨rfl, rfl⟩ := h
        obtain ⟨h1, h2⟩ := key.1 hs
        exact ⟨by simpa [joinB] using h1, hx.1, hx.2, h2 _ (by simp), h2 _ (by simp)⟩
      · simp at h
    · simp at h
  · rintro ⟨h1, hx, hy, h47x, h47y⟩
    have := key.2 ⟨by simpa [joinB] using h1, by simp [h47x, h47y]⟩
    rw [this]
    simp [hx, hy]

theorem reMap_iff (s x y z : Str) :
    reMap s = some (x, y, z) ↔
      s = b!"/" ++ x ++ b!"/" ++ y ++ b!"/" ++ (if z = [] then [] else z ++ b!"/") ∧
        x ≠ [] ∧ y ≠ [] ∧ 47 ∉ x ∧ 47 ∉ y ∧ 47 ∉ z := by
  have key2 := @splitB_eq_iff 47 s [[], x, y, []] (by simp)
  have key3 := @splitB_eq_iff 47 s [[], x, y, z, []] (by simp)
  unfold reMap
  constructor
  · intro h
    split at h
    · next x' y' hs =>
      split at h
      · next hx =>
        simp only [Option.some.injEq, Prod.mk.injEq] at h
        obtain ⟨rfl, rfl, rfl⟩ := h
        obtain ⟨h1, h2⟩ := key2.1 hs
        exact ⟨by simpa [joinB] using h1, hx.1, hx.2, h2 _ (by simp), h2 _ (by simp), by simp⟩
      · simp at h
    · next x' y' z' hs =>
      split at h
      · next hx =>
        simp only [Option.some.injEq, Prod.mk.injEq] at h
        obtain ⟨rfl, rfl, rfl⟩ := h
        obtain ⟨h1, h2⟩ := key3.1 hs
        exact ⟨by simpa [joinB, hx.2.2] using h1, hx.1, hx.2.1, h2 _ (by simp), h2 _ (by simp), h2 _ (by simp)⟩
      · simp at h
    · simp at h
  · rintro ⟨h1, hx, hy, h47x, h47y, h47z⟩
    by_cases hz : z = []
    · subst hz
      have := key2.2 ⟨by simpa [joinB] using h1, by simp [h47x, h47y]⟩
      rw [this]
      simp [hx, hy]
    · have := key3.2 ⟨by simpa [joinB, hz] using h1, by simp [h47x, h47y, h47z]⟩
      rw [this]
      simp [hx, hy, hz]

theorem reNum_iff (s x y z : Str) :
    reNum s = some (x, y, z) ↔
      s = b!"/" ++ x ++ b!"/" ++ y ++ b!"/" ++ z ++ b!"/" ∧
        x ≠ [] ∧ y ≠ [] ∧ z ≠ [] ∧ 47 ∉ x ∧ 47 ∉ y ∧ z.all isNumC = true := by
  have key3 := @splitB_eq_iff 47 s [[], x, y, z, []] (by simp)
  unfold reNum
  constructor
  · intro h
    split at h
    · next x' y' z' hs =>
      split at h
      · next hx =>
        simp only [Option.some.injEq, Prod.mk.injEq] at h
        obtain ⟨rfl, rfl, rfl⟩ := h
        obtain ⟨h1, h2⟩ := key3.1 hs
        exact ⟨by simpa [joinB] using h1, hx.1, hx.2.1, hx.2.2.1, h2 _ (by simp), h2 _ (by simp), hx.2.2.2⟩
      · simp at h
    · simp at h
  · rintro ⟨h1, hx, hy, hz, h47x, h47y, hn⟩
    have h47z : 47 ∉ z := fun h => by
      have := List.all_eq_true.1 hn _ h
      simp [isNumC, isDigit] at this
    have := key3.2 ⟨by simpa [joinB] using h1, by simp [h47x, h47y, h47z]⟩
    rw [this]
    simp only [ne_eq, hx, not_false_eq_true, hy, hz, hn, and_self, if_true]

theorem opPrefix_lit (t : Str) (a : Str) (c : Nat) (cs : Str) (ht : t = c :: cs) (h1 : isAlpha c = true)
    (h2 : cs.all isWord = true) : opPrefix (t ++ 61 :: a) = some (t, a) := by
  subst ht
  have ha : isWord 61 = false := by decide
  have hd : ∀ cs : Str, cs.all isWord = true → (cs ++ 61 :: a).dropWhile isWord = 61 :: a ∧
      (cs ++ 61 :: a).takeWhile isWord = cs := by
    intro cs
    induction cs with
    | nil => simp [ha]
    | cons x xs ih =>
      intro h
      simp only [List.all_cons, Bool.and_eq_true] at h
      simp [h.1, ih h.2]
  simp [opPrefix, h1, hd cs h2]

/-! ### The result is still a double-entry book -/

/-- The same postings and transactions. -/
def SamePosts (a b : Book) : Prop := a.post = b.post ∧ a.trans = b.trans

theorem prim_as_ops {e : OpEnv} {p : Prim} {b c b' : Book} (hsame : SamePosts b c)
    (h : p.apply e b = some b') : ∃ os c', applyOps e.srt e.today os c = some c' ∧ SamePosts b' c' := by
  obtain ⟨h1, h2⟩ := hsame
  cases p with
  | mapccy s r =>
    simp only [Prim.apply] at h
    split at h
    · simp only [Option.some.injEq] at h
      subst h
      exact ⟨[.mapAmount (regexCCYMap (e.mat s) (e.rep s r))], _, rfl, by simp [SamePosts, Book.mapAmount, h1, h2]⟩
    · simp at h
  | map s r alt =>
    simp only [Prim.apply] at h
    split at h
    · simp only [Option.some.injEq] at h
      subst h
      refine ⟨[.mapAccount (regexAccount (e.mat s) (e.rep s r) r alt)], _, rfl, ?_⟩
      simp only [Book.regexAccounts, Book.mapAccount, SamePosts, Book.compact, h1, h2]
      split <;> simp_all
    · simp at h
  | move s a f =>
    simp only [Prim.apply] at h
    split at h
    · simp only [Option.some.injEq] at h
      subst h
      refine ⟨[.adjustPost (e.mat s) (e.rep s a) f], _, rfl, ?_⟩
      simp only [Book.adjustPost, SamePosts, Book.compact, h1, h2]
      split <;> simp_all
    · simp at h
  | asof d =>
    simp only [Prim.apply, Option.some.injEq] at h
    subst h
    refine ⟨[.asof d], _, rfl, ?_⟩
    simp only [Book.filterByDateAsof, Book.filterTransaction, SamePosts, h1, h2]
    split <;> simp [h1, h2]
  | since d =>
    simp only [Prim.apply, Option.some.injEq] at h
    subst h
    refine ⟨[.since d], _, rfl, ?_⟩
    simp only [Book.filterByDateSince, Book.filterTransaction, SamePosts, h1, h2]
    split <;> simp [h1, h2]
  | combine t =>
    simp only [Prim.apply, Option.some.injEq] at h
    subst h
    refine ⟨[.splitBy t], _, rfl, ?_⟩
    simp only [Book.splitBy, Book.mapTransaction, SamePosts, Book.compact, h1, h2]
    split <;> simp_all
  | depreciate s a n =>
    simp only [Prim.apply] at h
    split at h
    · simp only [Option.some.injEq] at h
      subst h
      refine ⟨[.depreciate (e.mat s) (e.rep s a) b!"monthly" n], _, rfl, ?_⟩
      simp only [Book.depreciate, SamePosts, Book.compact, h1, h2]
      split <;> simp_all
    · simp at h

theorem applyOps_append (srt : List Posting → List Posting) (today : Int) (o1 o2 : List Op) (b : Book) :
    applyOps srt today (o1 ++ o2) b = (applyOps srt today o1 b).bind (applyOps srt today o2) := by
  induction o1 generalizing b with
  | nil => rfl
  | cons o os ih =>
    simp only [List.cons_append, applyOps]
    split
    · rfl
    · exact ih _

theorem wrap_ok {op : Str} {r : OpEnd} {b : Book} (h : r.wrap op = .ok b) : r = .ok b := by
  cases r <;> simp_all [OpEnd.wrap]

theorem bookOp_same {e : OpEnv} (mac : Str → Option (List Str)) (n : Nat) :
    ∀ op b b' c, SamePosts b c → bookOp e mac n op b = .ok b' →
      ∃ os c', applyOps e.srt e.today os c = some c' ∧ SamePosts b' c' := by
  induction n with
  | zero => intro op b b' c _ h; simp [bookOp] at h
  | succ n ih =>
    intro op b b' c hs h
    simp only [bookOp] at h
    cases hm : mac op with
    | none =>
      rw [hm] at h
      simp only [primOp] at h
      cases hp : parsePrim e op with
      | none => rw [hp] at h; simp at h
      | some p =>
        rw [hp] at h
        cases ha : p.apply e b with
        | none => simp [ha] at h
        | some b1 =>
          simp only [ha, OpEnd.ok.injEq] at h
          subst h
          exact prim_as_ops hs ha
    | some ms =>
      rw [hm] at h
      have h' : runAll (bookOp e mac n) ms b = .ok b' := wrap_ok h
      clear h hm
      induction ms generalizing b c with
      | nil =>
        simp only [runAll, OpEnd.ok.injEq] at h'
        subst h'
        exact ⟨[], c, rfl, hs⟩
      | cons m ms ihm =>
        simp only [runAll] at h'
        cases hb : bookOp e mac n m b with
        | ok b1 =>
          rw [hb] at h'
          obtain ⟨os1, c1, e1, s1⟩ := ih m b b1 c hs hb
          obtain ⟨os2, c2, e2, s2⟩ := ihm b1 c1 s1 h'
          exact ⟨os1 ++ os2, c2, by rw [applyOps_append, e1]; exact e2, s2⟩
        | err b1 t => rw [hb] at h'; simp at h'
        | panic => rw [hb] at h'; simp at h'
        | diverge => rw [hb] at h'; simp at h'

theorem bookOps_same {e : OpEnv} (mac : Str → Option (List Str)) (n : Nat) :
    ∀ ops b b' c, SamePosts b c → bookOps e mac n ops b = .ok b' →
      ∃ os c', applyOps e.srt e.today os c = some c' ∧ SamePosts b' c' := by
  intro ops
  induction ops with
  | nil =>
    intro b b' c hs h
    simp only [bookOps, runAll, OpEnd.ok.injEq] at h
    subst h
    exact ⟨[], c, rfl, hs⟩
  | cons m ms ihm =>
    intro b b' c hs h
    simp only [bookOps, runAll] at h
    cases hb : bookOp e mac n m b with
    | ok b1 =>
      rw [hb] at h
      obtain ⟨os1, c1, e1, s1⟩ := bookOp_same mac n m b b1 c hs hb
      obtain ⟨os2, c2, e2, s2⟩ := ihm b1 b' c1 s1 h
      exact ⟨os1 ++ os2, c2, by rw [applyOps_append, e1]; exact e2, s2⟩
    | err b1 t => rw [hb] at h; simp [OpEnd.wrap] at h
    | panic => rw [hb] at h; simp [OpEnd.wrap] at h
    | diverge => rw [hb] at h; simp [OpEnd.wrap] at h

/-- C61 with C08: whatever operations and macros a command line names, if the run succeeds,
the resulting book still balances, transaction by transaction and in total. -/
theorem c61_double_entry (e : OpEnv) (he : IsSort e.srt) (mac : Str → Option (List Str)) (n : Nat)
    (ops : List Str) (b b' : Book) (hr : Reachable e.srt e.today b) (h : bookOps e mac n ops b = .ok b') :
    Balanced (reported e.srt b') ∧ (∀ t ∈ b'.transactions e.srt, Balanced t) ∧
      ∀ c, ccyTotal c (reported e.srt b') = 0 := by
  obtain ⟨os, c', e1, s1⟩ := bookOps_same mac n ops b b' b ⟨rfl, rfl⟩ h
  have hr' : Reachable e.srt e.today c' := by
    obtain ⟨calls, bb, b0, ops0, h1, h2, h3⟩ := hr
    exact ⟨calls, bb, b0, ops0 ++ os, h1, h2, by rw [applyOps_append, h3]; exact e1⟩
  have h8 := c08_double_entry e.srt he e.today c' hr'
  have ht : b'.transactions e.srt = c'.transactions e.srt := by
    simp only [Book.transactions, Book.compact, s1.1]
    split
    · exact s1.2
    · rfl
  have hrep : reported e.srt b' = reported e.srt c' := by
    simp only [reported, ht]
  rw [hrep, ht]
  exact h8

/-- Non-vacuity: a macro using a macro, on the demo book; the table is acyclic, the run
succeeds and changes the book. -/
def demoMac : Str → Option (List Str) := fun op =>
  if op = b!"tidy" then some [b!"food", b!"since=2020-01-01"]
  else if op = b!"food" then some [b!"move=/x/Save/0.5/"] else none
def demoOpEnv : OpEnv :=
  ⟨20200202, insSort, fun _ => true, fun _ a => a == b!"Exp:Food", fun _ r _ => r, some, fun _ _ m => m⟩

example : ((bookOps demoOpEnv demoMac 3 [b!"tidy", b!"map=/a/b/"] demoBook).seen matches .ok _) = true := by
  decide +kernel
example : (match (bookOps demoOpEnv demoMac 3 [b!"tidy"] demoBook).seen with
    | .ok b => b.post.length | _ => 0) ≠ demoBook.post.length := by decide +kernel
example : ((bookOps demoOpEnv demoMac 3 [b!"tidy", b!"map=oops", b!"food"] demoBook).seen matches .failed _) = true := by
  decide +kernel
example : Expansion demoMac [b!"tidy", b!"map=/a/b/"] [b!"move=/x/Save/0.5/", b!"since=2020-01-01", b!"map=/a/b/"] := by
  refine .expand (ms := [b!"food", b!"since=2020-01-01"]) (by decide)
    (.expand (ms := [b!"move=/x/Save/0.5/"]) (by decide) (.prim (by decide) .nil) (.prim (by decide) .nil)) (.prim (by decide) .nil)
example : Acyclic demoMac := by
  have hl : ∀ a b, UsedIn demoMac a b → b = b!"tidy" ∨ (b = b!"food" ∧ a = b!"move=/x/Save/0.5/") := by
    rintro a b ⟨ms, h, hm⟩
    unfold demoMac at h
    split at h
    · left; assumption
    · split at h
      · simp only [Option.some.injEq] at h
        subst h
        simp at hm
        right
        exact ⟨by assumption, hm⟩
      · simp at h
  have ha : ∀ a b, UsedIn demoMac a b → a ≠ b!"tidy" := by
    rintro a b ⟨ms, h, hm⟩ rfl
    unfold demoMac at h
    split at h
    · simp only [Option.some.injEq] at h; subst h; revert hm; decide
    · split at h
      · simp only [Option.some.injEq] at h; subst h; revert hm; decide
      · simp at h
  intro op hop
  have key : ∀ a b, Relation.TransGen (UsedIn demoMac) a b → b = b!"tidy" ∨ (b = b!"food" ∧ a = b!"move=/x/Save/0.5/") := by
    intro a b hab
    induction hab using Relation.TransGen.head_induction_on with
    | single h => exact hl _ _ h
    | head h1 h2 ih =>
      rcases ih with h | ⟨h, h'⟩
      · exact .inl h
      · subst h'
        rcases hl _ _ h1 with h | ⟨h, _⟩ <;> exact absurd h (by decide)
  rcases key op op hop with h | ⟨h, h'⟩
  · subst h
    rcases Relation.TransGen.head'_iff.1 hop with ⟨c, hc, _⟩
    exact ha _ _ hc rfl
  · rw [h] at h'; revert h'; decide

end Verif
