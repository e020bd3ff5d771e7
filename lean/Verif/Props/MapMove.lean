import Verif.Spec.MapMove
import Verif.Props.Laws

/-! # C156: renamings, moves and depreciations that come to the same -/

namespace Verif
open Spec

/-- Words that say these operations. -/
abbrev Say (e : OpEnv) (a : AppConf) : List Str → List Prim → Prop := List.Forall₂ fun x p => a.macros x = none ∧ parsePrim e x = some p

/-- The weights before a list of operations. -/
def pulls (e : OpEnv) : List Prim → Weight → Weight
  | [], u => u
  | p :: ps, u => pull e p (pulls e ps u)

theorem ops_pulls {e : OpEnv} (hs : IsSort e.srt) {fuel : Nat} {a : AppConf} {ws : List Str} {ps : List Prim} (h : Say e a ws ps)
    (hf : ∀ p ∈ ps, ∀ b, p.apply e b ≠ none) (hq : ∀ p ∈ ps, ∀ q, pricesTo e p q = q) : ∀ (b : Book), b.Good →
    ∃ c, opsCmd e (fuel + 1) a ws b = .ok c ∧ c.Good ∧ c.prices = b.prices ∧ ∀ u, wsum (wt u) c.post = wsum (wt (pulls e ps u)) b.post := by
  induction h with
  | nil => intro b hb; exact ⟨b, rfl, hb, rfl, fun u => rfl⟩
  | @cons x p ws ps hx _ ih =>
    intro b hb
    cases hp : p.apply e b with
    | none => exact absurd hp (hf p (by simp) b)
    | some c =>
      obtain ⟨d, h1, h2, h3, h4⟩ := ih (fun q hq => hf q (by simp [hq])) (fun p' hp' => hq p' (by simp [hp'])) c (good_prim hs hb hp)
      refine ⟨d, ?_, h2, ?_, fun u => ?_⟩
      · have := opsCmd_append e (fuel + 1) a [x] ws b
        rw [List.singleton_append, opsCmd_one hx.1 hx.2, hp] at this
        rw [this]
        exact h1
      · rw [h3, prim_prices hp, hq p (by simp)]
      · rw [h4, prim_pull hs hb.1 hp]; rfl

/-- Two lists of words that cannot fail, leave the prices alone and take all weights back to the same. -/
def ComeToSame (e : OpEnv) (a : AppConf) (ws ws' : List Str) : Prop :=
  ∃ ps ps', Say e a ws ps ∧ Say e a ws' ps' ∧ (∀ p ∈ ps ++ ps', ∀ b, p.apply e b ≠ none) ∧ (∀ p ∈ ps ++ ps', ∀ q, pricesTo e p q = q) ∧
    ∀ u, pulls e ps u = pulls e ps' u

/-- From any book such lists lead to the same totals. -/
theorem same_mid {e : OpEnv} (hs : IsSort e.srt) {fuel : Nat} (h0 : 0 < fuel) {a : AppConf} {ws ws' : List Str} (h : ComeToSame e a ws ws') {b : Book}
    (hg : b.Good) : EndsLike SameTotals (opsCmd e fuel a ws b) (opsCmd e fuel a ws' b) := by
  obtain ⟨ps, ps', h, h', hf, hq, hpull⟩ := h
  obtain ⟨fuel, rfl⟩ : ∃ n, fuel = n + 1 := ⟨fuel - 1, by omega⟩
  obtain ⟨c, c1, c2, c3, c4⟩ := ops_pulls hs (fuel := fuel) h (fun p hp => hf p (by simp [hp])) (fun p hp => hq p (by simp [hp])) b hg
  obtain ⟨d, d1, d2, d3, d4⟩ := ops_pulls hs (fuel := fuel) h' (fun p hp => hf p (by simp [hp])) (fun p hp => hq p (by simp [hp])) b hg
  rw [c1, d1]
  exact ⟨c2, d2, by rw [c3, d3], fun u => by rw [c4, d4, hpull]⟩

/-- Reports after such lists. -/
theorem lists_same (le : Env) (depth : Nat) (e : OpEnv) (hs : IsSort e.srt) (fuel : Nat) (h0 : 0 < fuel) (a : AppConf) (hd : a.divider ≠ []) (r : ReportConf)
    (o o' : Int → Str → List Str → List Str) (ho : ∀ d py l, (o d py l).Perm l) (ho' : ∀ d py l, (o' d py l).Perm l) (before after ws ws' : List Str)
    (h : ComeToSame e a ws ws') :
    SameShown r (reportCmd le depth e fuel a r o (before ++ ws ++ after)) (reportCmd le depth e fuel a r o' (before ++ ws' ++ after)) := by
  rw [List.append_assoc, List.append_assoc]
  exact reports_middle le depth hs fuel hd r ho ho' before after ws ws' fun b0 b hb0 h1 => same_mid hs h0 h (good_ops hs (good_load hs hb0) h1)

theorem map_fits {e : OpEnv} {s : Str} (h : e.valid s = true) (r alt : Str) (b : Book) : (Prim.map s r alt).apply e b ≠ none := by
  simp [Prim.apply, h]

theorem move_fits {e : OpEnv} {s : Str} (h : e.valid s = true) (x : Str) (f : Rat) (b : Book) : (Prim.move s x f).apply e b ≠ none := by
  simp [Prim.apply, h]

theorem dep_fits {e : OpEnv} {s : Str} (h : e.valid s = true) (x : Str) (n : Int) (b : Book) : (Prim.depreciate s x n).apply e b ≠ none := by
  simp [Prim.apply, h]

theorem mapped_of {e : OpEnv} (hn : NoMatchStays e) {s r alt : Str} (hr : r ≠ []) (A : Str) :
    regexAccount (e.mat s) (e.rep s r) r alt A = mapped e s r alt A := by
  unfold regexAccount mapped
  cases hm : e.mat s A with
  | true => simp [hr]
  | false =>
    by_cases ha : alt = []
    · simp [ha, hr, hn s r A hm]
    · simp [ha]

/-- The replacement of a `map` that can be read is not empty. -/
theorem map_read {e : OpEnv} {x s r alt : Str} (h : parsePrim e x = some (.map s r alt)) : r ≠ [] := by
  unfold parsePrim at h
  split at h
  · cases h
  · next typ act _ =>
    split_ifs at h
    all_goals try (simp only [Option.map_eq_some_iff, Option.bind_eq_some_iff] at h)
    · obtain ⟨q, _, h2⟩ := h; cases h2
    · obtain ⟨q, h1, h2⟩ := h
      simp only [Prim.map.injEq] at h2
      obtain ⟨rfl, rfl, rfl⟩ := h2
      unfold reMap at h1
      split at h1
      · split at h1 <;> cases h1
        next h3 => exact h3.2
      · split at h1 <;> cases h1
        next h3 => exact h3.2.1
      · cases h1
    · obtain ⟨q, _, f, _, h2⟩ := h; cases h2
    · cases h
    · cases h
    · obtain ⟨q, _, h2⟩ := h; cases h2
    · obtain ⟨q, _, f, _, h2⟩ := h; cases h2

theorem same_move_all (e : OpEnv) (hn : NoMatchStays e) (a : AppConf) (x y s r : Str) (hx : a.macros x = none) (hy : a.macros y = none)
    (hp : parsePrim e x = some (.move s r 1)) (hq : parsePrim e y = some (.map s r [])) (hv : e.valid s = true) :
    ComeToSame e a [x] [y] := by
  refine ⟨_, _, (.cons ⟨hx, hp⟩ .nil), (.cons ⟨hy, hq⟩ .nil), ?_, ?_, ?_⟩
  · intro p hp'
    simp only [List.cons_append, List.nil_append, List.mem_cons, List.not_mem_nil, or_false] at hp'
    rcases hp' with rfl | rfl
    · exact move_fits hv _ _
    · exact map_fits hv _ _
  · intro p hp'
    simp only [List.cons_append, List.nil_append, List.mem_cons, List.not_mem_nil, or_false] at hp'
    rcases hp' with rfl | rfl <;> (intro q; rfl)
  · intro u
    funext D P A C
    simp only [pulls, pull, mapped_of hn (map_read hq), mapped]
    cases hm : e.mat s A <;> simp

/-- **C156** (a): moving all of the matching accounts to an account is renaming them to it. -/
theorem c156_move_all (le : Env) (depth : Nat) (e : OpEnv) (hs : IsSort e.srt) (hn : NoMatchStays e) (fuel : Nat) (h0 : 0 < fuel) (a : AppConf)
    (hd : a.divider ≠ []) (rc : ReportConf) (o o' : Int → Str → List Str → List Str) (ho : ∀ d py l, (o d py l).Perm l)
    (ho' : ∀ d py l, (o' d py l).Perm l) (before after : List Str) (x y s r : Str) (hx : a.macros x = none) (hy : a.macros y = none)
    (hp : parsePrim e x = some (.move s r 1)) (hq : parsePrim e y = some (.map s r [])) (hv : e.valid s = true) :
    SameShown rc (reportCmd le depth e fuel a rc o (before ++ [x] ++ after)) (reportCmd le depth e fuel a rc o' (before ++ [y] ++ after)) :=
  lists_same le depth e hs fuel h0 a hd rc o o' ho ho' before after [x] [y] (same_move_all e hn a x y s r hx hy hp hq hv)

theorem same_moves (e : OpEnv) (a : AppConf) (x y z s r : Str) (f g h : Rat) (hx : a.macros x = none) (hy : a.macros y = none)
    (hz : a.macros z = none) (hp : parsePrim e x = some (.move s r f)) (hq : parsePrim e y = some (.move s r g)) (hr : parsePrim e z = some
    (.move s r h)) (hfg : 1 - h = (1 - f) * (1 - g)) (hv : e.valid s = true) (haway : ∀ A, e.mat s A = true → e.mat s (e.rep s r A) = false) :
    ComeToSame e a [x, y] [z] := by
  refine ⟨_, _, (.cons ⟨hx, hp⟩ (.cons ⟨hy, hq⟩ .nil)), (.cons ⟨hz, hr⟩ .nil), ?_, ?_, ?_⟩
  · intro p hp'
    simp only [List.cons_append, List.nil_append, List.mem_cons, List.not_mem_nil, or_false] at hp'
    rcases hp' with rfl | rfl | rfl <;> exact move_fits hv _ _
  · intro p hp'
    simp only [List.cons_append, List.nil_append, List.mem_cons, List.not_mem_nil, or_false] at hp'
    rcases hp' with rfl | rfl | rfl <;> (intro q; rfl)
  · intro u
    funext D P A C
    simp only [pulls, pull]
    cases hm : e.mat s A with
    | false => simp
    | true =>
      have e1 : h = f + g - f * g := by linarith
      simp only [haway A hm, if_true, Bool.false_eq_true, if_false, e1]
      ring

/-- **C156** (b): moving a part of the matching accounts, and then a part of what is left there, is moving the two parts together: all but the part of
the part that stays; provided the account they go to does not match itself. -/
theorem c156_moves (le : Env) (depth : Nat) (e : OpEnv) (hs : IsSort e.srt) (fuel : Nat) (h0 : 0 < fuel) (a : AppConf)
    (hd : a.divider ≠ []) (rc : ReportConf) (o o' : Int → Str → List Str → List Str) (ho : ∀ d py l, (o d py l).Perm l)
    (ho' : ∀ d py l, (o' d py l).Perm l) (before after : List Str) (x y z s r : Str) (f g h : Rat) (hx : a.macros x = none) (hy : a.macros y = none)
    (hz : a.macros z = none) (hp : parsePrim e x = some (.move s r f)) (hq : parsePrim e y = some (.move s r g))
    (hr : parsePrim e z = some (.move s r h)) (hfg : 1 - h = (1 - f) * (1 - g)) (hv : e.valid s = true)
    (haway : ∀ A, e.mat s A = true → e.mat s (e.rep s r A) = false) :
    SameShown rc (reportCmd le depth e fuel a rc o (before ++ [x, y] ++ after)) (reportCmd le depth e fuel a rc o' (before ++ [z] ++ after)) :=
  lists_same le depth e hs fuel h0 a hd rc o o' ho ho' before after [x, y] [z] (same_moves e a x y z s r f g h hx hy hz hp hq hr hfg hv haway)

theorem same_move_none (e : OpEnv) (a : AppConf) (x s r : Str) (hx : a.macros x = none) (hp : parsePrim e x = some (.move s r 0))
    (hv : e.valid s = true) :
    ComeToSame e a [x] [] := by
  refine ⟨_, _, (.cons ⟨hx, hp⟩ .nil), .nil, ?_, ?_, ?_⟩
  · intro p hp'
    simp only [List.append_nil, List.mem_cons, List.not_mem_nil, or_false] at hp'
    subst hp'
    exact move_fits hv _ _
  · intro p hp'
    simp only [List.append_nil, List.mem_cons, List.not_mem_nil, or_false] at hp'
    subst hp'
    intro q; rfl
  · intro u
    funext D P A C
    simp [pulls, pull]

/-- **C156** (c): moving nothing changes nothing. -/
theorem c156_move_none (le : Env) (depth : Nat) (e : OpEnv) (hs : IsSort e.srt) (fuel : Nat) (h0 : 0 < fuel) (a : AppConf)
    (hd : a.divider ≠ []) (rc : ReportConf) (o o' : Int → Str → List Str → List Str) (ho : ∀ d py l, (o d py l).Perm l)
    (ho' : ∀ d py l, (o' d py l).Perm l) (before after : List Str) (x s r : Str) (hx : a.macros x = none)
    (hp : parsePrim e x = some (.move s r 0)) (hv : e.valid s = true) :
    SameShown rc (reportCmd le depth e fuel a rc o (before ++ [x] ++ after)) (reportCmd le depth e fuel a rc o' (before ++ after)) := by
  have := lists_same le depth e hs fuel h0 a hd rc o o' ho ho' before after [x] [] (same_move_none e a x s r hx hp hv)
  rwa [List.append_nil] at this

theorem same_maps (e : OpEnv) (hn : NoMatchStays e) (a : AppConf) (x y z s r alt s' r' alt' s'' r'' alt'' : Str) (hx : a.macros x = none)
    (hy : a.macros y = none) (hz : a.macros z = none) (hp : parsePrim e x = some (.map s r alt)) (hq : parsePrim e y = some (.map s' r' alt'))
    (hr : parsePrim e z = some (.map s'' r'' alt'')) (hv : e.valid s = true) (hv' : e.valid s' = true) (hv'' : e.valid s'' = true)
    (h : ∀ A, mapped e s' r' alt' (mapped e s r alt A) = mapped e s'' r'' alt'' A) :
    ComeToSame e a [x, y] [z] := by
  refine ⟨_, _, (.cons ⟨hx, hp⟩ (.cons ⟨hy, hq⟩ .nil)), (.cons ⟨hz, hr⟩ .nil), ?_, ?_, ?_⟩
  · intro p hp'
    simp only [List.cons_append, List.nil_append, List.mem_cons, List.not_mem_nil, or_false] at hp'
    rcases hp' with rfl | rfl | rfl
    · exact map_fits hv _ _
    · exact map_fits hv' _ _
    · exact map_fits hv'' _ _
  · intro p hp'
    simp only [List.cons_append, List.nil_append, List.mem_cons, List.not_mem_nil, or_false] at hp'
    rcases hp' with rfl | rfl | rfl <;> (intro q; rfl)
  · intro u
    funext D P A C
    simp only [pulls, pull, mapped_of hn (map_read hp), mapped_of hn (map_read hq), mapped_of hn (map_read hr), h]

/-- **C156** (d): one renaming after another is the renaming that takes every account where the two take it. -/
theorem c156_maps (le : Env) (depth : Nat) (e : OpEnv) (hs : IsSort e.srt) (hn : NoMatchStays e) (fuel : Nat) (h0 : 0 < fuel) (a : AppConf)
    (hd : a.divider ≠ []) (rc : ReportConf) (o o' : Int → Str → List Str → List Str) (ho : ∀ d py l, (o d py l).Perm l)
    (ho' : ∀ d py l, (o' d py l).Perm l) (before after : List Str) (x y z s r alt s' r' alt' s'' r'' alt'' : Str) (hx : a.macros x = none)
    (hy : a.macros y = none) (hz : a.macros z = none) (hp : parsePrim e x = some (.map s r alt)) (hq : parsePrim e y = some (.map s' r' alt'))
    (hr : parsePrim e z = some (.map s'' r'' alt'')) (hv : e.valid s = true) (hv' : e.valid s' = true) (hv'' : e.valid s'' = true)
    (h : ∀ A, mapped e s' r' alt' (mapped e s r alt A) = mapped e s'' r'' alt'' A) :
    SameShown rc (reportCmd le depth e fuel a rc o (before ++ [x, y] ++ after)) (reportCmd le depth e fuel a rc o' (before ++ [z] ++ after)) :=
  lists_same le depth e hs fuel h0 a hd rc o o' ho ho' before after [x, y] [z] (same_maps e hn a x y z s r alt s' r' alt' s'' r'' alt'' hx hy hz hp hq hr hv hv' hv'' h)

theorem same_back (e : OpEnv) (hn : NoMatchStays e) (a : AppConf) (x y s r alt s' r' alt' : Str) (hx : a.macros x = none) (hy : a.macros y = none)
    (hp : parsePrim e x = some (.map s r alt)) (hq : parsePrim e y = some (.map s' r' alt')) (hv : e.valid s = true) (hv' : e.valid s' = true)
    (h : ∀ A, mapped e s' r' alt' (mapped e s r alt A) = A) :
    ComeToSame e a [x, y] [] := by
  refine ⟨_, _, (.cons ⟨hx, hp⟩ (.cons ⟨hy, hq⟩ .nil)), .nil, ?_, ?_, ?_⟩
  · intro p hp'
    simp only [List.append_nil, List.mem_cons, List.not_mem_nil, or_false] at hp'
    rcases hp' with rfl | rfl
    · exact map_fits hv _ _
    · exact map_fits hv' _ _
  · intro p hp'
    simp only [List.append_nil, List.mem_cons, List.not_mem_nil, or_false] at hp'
    rcases hp' with rfl | rfl <;> (intro q; rfl)
  · intro u
    funext D P A C
    simp only [pulls, pull, mapped_of hn (map_read hp), mapped_of hn (map_read hq), h]

/-- **C156** (e): two renamings that take every account back where it was change nothing. -/
theorem c156_back (le : Env) (depth : Nat) (e : OpEnv) (hs : IsSort e.srt) (hn : NoMatchStays e) (fuel : Nat) (h0 : 0 < fuel) (a : AppConf)
    (hd : a.divider ≠ []) (rc : ReportConf) (o o' : Int → Str → List Str → List Str) (ho : ∀ d py l, (o d py l).Perm l)
    (ho' : ∀ d py l, (o' d py l).Perm l) (before after : List Str) (x y s r alt s' r' alt' : Str) (hx : a.macros x = none)
    (hy : a.macros y = none) (hp : parsePrim e x = some (.map s r alt)) (hq : parsePrim e y = some (.map s' r' alt'))
    (hv : e.valid s = true) (hv' : e.valid s' = true) (h : ∀ A, mapped e s' r' alt' (mapped e s r alt A) = A) :
    SameShown rc (reportCmd le depth e fuel a rc o (before ++ [x, y] ++ after)) (reportCmd le depth e fuel a rc o' (before ++ after)) := by
  have := lists_same le depth e hs fuel h0 a hd rc o o' ho ho' before after [x, y] [] (same_back e hn a x y s r alt s' r' alt' hx hy hp hq hv hv' h)
  rwa [List.append_nil] at this

theorem instWeight_const (today : Int) (per : Str) (n : Int) (f g : Rat) : ∀ (k : Nat) (d : Int),
    instWeight today per n (fun _ => f) (fun _ => g) k d = k * ((g - f) / n)
  | 0, d => by simp [instWeight]
  | k + 1, d => by
    rw [instWeight, instWeight_const today per n f g k]
    push_cast
    ring

theorem same_depreciate (e : OpEnv) (a : AppConf) (x y s r : Str) (n : Int) (h1 : 1 ≤ n) (hx : a.macros x = none) (hy : a.macros y = none)
    (hp : parsePrim e x = some (.depreciate s r n)) (hq : parsePrim e y = some (.combine b!"today")) (hv : e.valid s = true) :
    ComeToSame e a [x, y] [y] := by
  refine ⟨_, _, (.cons ⟨hx, hp⟩ (.cons ⟨hy, hq⟩ .nil)), (.cons ⟨hy, hq⟩ .nil), ?_, ?_, ?_⟩
  · intro p hp'
    simp only [List.cons_append, List.nil_append, List.mem_cons, List.not_mem_nil, or_false] at hp'
    rcases hp' with rfl | rfl | rfl
    · exact dep_fits hv _ _
    · intro b; simp [Prim.apply]
    · intro b; simp [Prim.apply]
  · intro p hp'
    simp only [List.cons_append, List.nil_append, List.mem_cons, List.not_mem_nil, or_false] at hp'
    rcases hp' with rfl | rfl | rfl <;> (intro q; rfl)
  · intro u
    funext D P A C
    have hfl : ∀ d : Int, floorBy e.today d b!"today" = floorBy e.today D b!"today" := fun d => rfl
    simp only [pulls, pull]
    cases hm : e.mat s A with
    | false => simp
    | true =>
      simp only [if_true, hfl]
      rw [instWeight_const]
      have hc : ((n.toNat : Nat) : Rat) = (n : Rat) := by
        have : ((n.toNat : Nat) : Int) = n := Int.toNat_of_nonneg (by omega)
        exact_mod_cast congrArg (fun z : Int => (z : Rat)) this
      have hne : (n : Rat) ≠ 0 := by exact_mod_cast (by omega : n ≠ 0)
      rw [hc, mul_div_cancel₀ _ hne]
      ring

/-- **C156** (f): a depreciation over one month or more moves amounts between days, and in the end back to where they were: combined to one day (`combine=today`), the
totals are those without it. -/
theorem c156_depreciate (le : Env) (depth : Nat) (e : OpEnv) (hs : IsSort e.srt) (fuel : Nat) (h0 : 0 < fuel) (a : AppConf)
    (hd : a.divider ≠ []) (rc : ReportConf) (o o' : Int → Str → List Str → List Str) (ho : ∀ d py l, (o d py l).Perm l)
    (ho' : ∀ d py l, (o' d py l).Perm l) (before after : List Str) (x y s r : Str) (n : Int) (h1 : 1 ≤ n) (hx : a.macros x = none)
    (hy : a.macros y = none) (hp : parsePrim e x = some (.depreciate s r n)) (hq : parsePrim e y = some (.combine b!"today"))
    (hv : e.valid s = true) :
    SameShown rc (reportCmd le depth e fuel a rc o (before ++ [x, y] ++ after)) (reportCmd le depth e fuel a rc o' (before ++ [y] ++ after)) :=
  lists_same le depth e hs fuel h0 a hd rc o o' ho ho' before after [x, y] [y] (same_depreciate e a x y s r n h1 hx hy hp hq hv)

/-! Non-vacuity. -/

/-- A text without a match stays, if expressions are taken literally. -/
theorem plain_stays : NoMatchStays plainOps := by
  intro s r A h
  have : ¬ s = A := by simpa [plainOps] using h
  simp [plainOps, this]

deriving instance DecidableEq for Prim

/-- Non-vacuity: the words of the six parts. -/
example : parsePrim plainOps b!"move=/A/B/1/" = some (.move b!"A" b!"B" 1) ∧ parsePrim plainOps b!"map=/A/B/" = some (.map b!"A" b!"B" []) ∧
    parsePrim plainOps b!"move=/A/Z/0.5/" = some (.move b!"A" b!"Z" (1 / 2)) ∧ parsePrim plainOps b!"move=/A/Z/0.25/" = some (.move b!"A" b!"Z" (1 / 4)) ∧
    parsePrim plainOps b!"move=/A/Z/0.625/" = some (.move b!"A" b!"Z" (5 / 8)) ∧ (1 : Rat) - 5 / 8 = (1 - 1 / 2) * (1 - 1 / 4) ∧
    parsePrim plainOps b!"move=/A/B/0/" = some (.move b!"A" b!"B" 0) ∧ parsePrim plainOps b!"map=/A/B/Z/" = some (.map b!"A" b!"B" b!"Z") ∧
    parsePrim plainOps b!"depreciate=/A/Z/5/" = some (.depreciate b!"A" b!"Z" 5) ∧ parsePrim plainOps b!"combine=today" = some (.combine b!"today") := by
  decide +kernel

/-- Non-vacuity of (b): the account moved to does not match. -/
example : ∀ A, plainOps.mat b!"A" A = true → plainOps.mat b!"A" (plainOps.rep b!"A" b!"Z" A) = false := by
  intro A h
  have : b!"A" = A := by simpa [plainOps] using h
  subst this
  decide

/-- Non-vacuity of (d): renaming `A` to `B` and then `B` to `B` (an expression that matches only `A` and one that changes nothing). -/
example : ∀ A, mapped plainOps b!"B" b!"B" [] (mapped plainOps b!"A" b!"B" [] A) = mapped plainOps b!"A" b!"B" [] A := by
  intro A
  by_cases h : b!"B" = mapped plainOps b!"A" b!"B" [] A
  · rw [← h]; decide
  · rw [mapped]; simp [plainOps]

/-- An engine with an expression `x` that exchanges the accounts `A` and `B` (as a replacement with captured groups can). -/
def swapOps : OpEnv where
  today := 20201231
  srt := insSort
  valid := fun _ => true
  mat := fun _ x => decide (x = b!"A" ∨ x = b!"B")
  rep := fun _ _ x => if x = b!"A" then b!"B" else if x = b!"B" then b!"A" else x
  float := some
  walk := fun _ _ m => m

/-- Non-vacuity of (e): exchanging two accounts twice. -/
example : NoMatchStays swapOps ∧ ∀ A, mapped swapOps b!"x" b!"y" [] (mapped swapOps b!"x" b!"y" [] A) = A := by
  refine ⟨fun s r A h => ?_, fun A => ?_⟩
  · have : ¬ (A = b!"A" ∨ A = b!"B") := by simpa [swapOps] using h
    rw [not_or] at this
    simp [swapOps, this.1, this.2]
  · by_cases h1 : A = b!"A"
    · subst h1; decide
    · by_cases h2 : A = b!"B"
      · subst h2; decide
      · have : mapped swapOps b!"x" b!"y" [] A = A := by simp [mapped, swapOps, h1, h2]
        rw [this, this]

/-- Non-vacuity: what the operations of the six parts do to `yearFile`. -/
example : yearLines [b!"move=/A/Z/1/"] = yearLines [b!"map=/A/Z/"] ∧
    yearLines [b!"move=/A/Z/0.5/", b!"move=/A/Z/0.25/"] = yearLines [b!"move=/A/Z/0.625/"] ∧
    yearLines [b!"move=/A/Z/0.5/"] ≠ yearLines [b!"move=/A/Z/0.625/"] ∧ yearLines [b!"move=/A/Z/1/"] ≠ yearLines [] ∧
    yearLines [b!"depreciate=/A/Z/5/", b!"combine=today"] = yearLines [b!"combine=today"] ∧
    yearLines [b!"depreciate=/A/Z/5/"] ≠ yearLines [] ∧
    yearLines [b!"combine=today"] = some [[⟨20201231, [], b!"A", b!"U", 11⟩, ⟨20201231, [], b!"B", b!"U", -11⟩]] := by decide +kernel

end Verif
