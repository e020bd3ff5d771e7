import Verif.Spec.OpText
import Verif.Props.BookOp
import Verif.Props.DateText

/-! # C61: operations are read as they are written -/

namespace Verif
open Spec

theorem digits_of {z : Str} (h : Digits 1 z.length z) : z ≠ [] ∧ z.all isDigit = true := by
  obtain ⟨h1, _, h3⟩ := h
  rw [digitChar_eq] at h3
  exact ⟨by rintro rfl; simp at h1, List.all_eq_true.2 h3⟩

theorem digits_any {z : Str} (h : z.all isDigit = true) : Digits 0 z.length z :=
  ⟨by omega, Nat.le_refl _, by rw [digitChar_eq]; exact List.all_eq_true.1 h⟩

theorem digits_one {z : Str} (hz : z ≠ []) (h : z.all isDigit = true) : Digits 1 z.length z :=
  ⟨by cases z <;> simp at hz ⊢, Nat.le_refl _, by rw [digitChar_eq]; exact List.all_eq_true.1 h⟩

theorem no_point {z : Str} (h : z.all isDigit = true) : 46 ∉ z := fun hm => by
  have := List.all_eq_true.1 h _ hm
  revert this; decide

/-- Numbers with digits and points are read as decimals. -/
theorem parseFloat_iff (e : OpEnv) (z : Str) (f : Rat) :
    (z ≠ [] ∧ z.all isNumC = true ∧ parseFloat e z = some f) ↔ ∃ v, Decimal z v ∧ e.float v = some f := by
  have num : ∀ l : Str, l.all isDigit = true → l.all isNumC = true := fun l h => by
    rw [List.all_eq_true] at *
    intro c hc
    simp [isNumC, h c hc]
  have dig : ∀ l : Str, l.all isNumC = true → 46 ∉ l → l.all isDigit = true := fun l h hn => by
    rw [List.all_eq_true] at *
    intro c hc
    have := h c hc
    simp only [isNumC, Bool.or_eq_true, beq_iff_eq] at this
    rcases this with h | rfl
    · exact h
    · exact absurd hc hn
  constructor
  · rintro ⟨hz, hn, hf⟩
    unfold parseFloat at hf
    split at hf
    · next i hi =>
      obtain ⟨e1, e2⟩ := (splitB_eq_iff (by simp)).1 hi
      simp only [joinB] at e1
      subst e1
      rw [if_neg hz] at hf
      exact ⟨_, .whole _ (digits_one hz (dig _ hn (e2 _ (by simp)))), by simpa [numberOf] using hf⟩
    · next i g hi =>
      obtain ⟨e1, e2⟩ := (splitB_eq_iff (by simp)).1 hi
      simp only [joinB] at e1
      subst e1
      simp only [List.all_append, List.all_cons, Bool.and_eq_true] at hn
      split at hf
      · cases hf
      · next hne =>
        refine ⟨_, .point _ _ (digits_any (dig _ hn.1 (e2 _ (by simp)))) (digits_any (dig _ hn.2.2 (e2 _ (by simp)))) ?_, ?_⟩
        · intro h; simp at h; exact hne h
        · simpa [numberOf] using hf
    · cases hf
  · rintro ⟨v, hd, hf⟩
    cases hd with
    | whole _ h =>
      obtain ⟨h1, h2⟩ := digits_of h
      refine ⟨h1, num _ h2, ?_⟩
      unfold parseFloat
      rw [splitB_plain (no_point h2)]
      simp only
      rw [if_neg h1]
      simpa [numberOf] using hf
    | point i g hi hg hne =>
      have h1 : i.all isDigit = true := by rw [List.all_eq_true, ← digitChar_eq]; exact hi.2.2
      have h2 : g.all isDigit = true := by rw [List.all_eq_true, ← digitChar_eq]; exact hg.2.2
      refine ⟨by simp, ?_, ?_⟩
      · simp only [List.all_append, List.all_cons, Bool.and_eq_true]
        exact ⟨num _ h1, by decide, num _ h2⟩
      · unfold parseFloat
        rw [splitB_sep (no_point h1), splitB_plain (no_point h2)]
        simp only
        rw [if_neg (by rintro ⟨rfl, rfl⟩; exact hne rfl)]
        simpa [numberOf] using hf

theorem atoi_iff (z : Str) (n : Int) :
    (z ≠ [] ∧ z.all isNumC = true ∧ atoi z = some n) ↔ Digits 1 z.length z ∧ numberOf z < 2 ^ 63 ∧ n = numberOf z := by
  have plain : ∀ {z : Str}, z ≠ [] → (∀ c ∈ z, c ≠ 45 ∧ c ≠ 43) →
      atoi z = if z.all isDigit = true then (if numberOf z < 2 ^ 63 then some (numberOf z) else none) else none := by
    intro z hz hs
    cases z with
    | nil => exact absurd rfl hz
    | cons c r =>
      have := hs c (by simp)
      have e : (if (c :: r).head? = some 45 ∨ (c :: r).head? = some 43 then (c :: r).tail else c :: r) = c :: r := by
        rw [if_neg (by simpa using this)]
      have e' : ((c :: r).head? == some 45) = false := by simpa using this.1
      unfold atoi
      simp only [e, e', Bool.false_eq_true, if_false]
      by_cases hd : (c :: r).all isDigit = true
      · rw [if_pos ⟨hz, hd⟩, if_pos hd]
        unfold numberOf
        by_cases hl : (digitsVal (c :: r) : Int) < 2 ^ 63
        · rw [if_pos ⟨by omega, hl⟩, if_pos hl]
        · rw [if_neg (fun h => hl h.2), if_neg hl]
      · rw [if_neg (fun h => hd h.2), if_neg hd]
  have sgn : ∀ {z : Str}, z.all isNumC = true → ∀ c ∈ z, c ≠ 45 ∧ c ≠ 43 := by
    intro z h c hc
    have := List.all_eq_true.1 h c hc
    constructor <;> rintro rfl <;> revert this <;> decide
  constructor
  · rintro ⟨hz, hn, ha⟩
    rw [plain hz (sgn hn)] at ha
    split at ha
    · next hd =>
      split at ha
      · next hl => cases ha; exact ⟨digits_one hz hd, hl, rfl⟩
      · cases ha
    · cases ha
  · rintro ⟨hd, hl, rfl⟩
    obtain ⟨h1, h2⟩ := digits_of hd
    have hn : z.all isNumC = true := by
      rw [List.all_eq_true] at *
      intro c hc
      simp [isNumC, h2 c hc]
    refine ⟨h1, hn, ?_⟩
    rw [plain h1 (sgn hn), if_pos h2, if_pos hl]

theorem opPrefix_inv {op t a : Str} (h : opPrefix op = some (t, a)) : op = t ++ 61 :: a := by
  cases op with
  | nil => cases h
  | cons c cs =>
    simp only [opPrefix] at h
    split at h
    · split at h
      · next rest hd =>
        simp only [Option.some.injEq, Prod.mk.injEq] at h
        obtain ⟨rfl, rfl⟩ := h
        rw [List.cons_append, ← hd, List.takeWhile_append_dropWhile]
      · cases h
    · cases h

theorem small_eq : small = lower := rfl

/-- C61: an operation is accepted exactly if it is written as one of the seven, and is then taken for what it says. -/
theorem c61_syntax (e : OpEnv) (op : Str) (p : Prim) :
    parsePrim e op = some p ↔ OpMeans (dateFromString e.today) e.float op p := by
  constructor
  · intro h
    cases hp : opPrefix op with
    | none => unfold parsePrim at h; rw [hp] at h; cases h
    | some ta =>
      obtain ⟨t, a⟩ := ta
      have hop := opPrefix_inv hp
      subst hop
      have h0 := h
      unfold parsePrim at h
      rw [hp] at h
      simp only at h
      split_ifs at h with t1 t2 t3 t4 d4 t5 d5 t6 t7 <;> try subst t
      · cases hr : reTwo a with
        | none => rw [hr] at h; cases h
        | some v =>
          obtain ⟨s, r⟩ := v
          rw [hr] at h
          cases h
          obtain ⟨rfl, h1, h2, h3, h4⟩ := (reTwo_iff _ _ _).1 hr
          simpa using OpMeans.mapccy s r ⟨h1, h3⟩ ⟨h2, h4⟩
      · cases hr : reMap a with
        | none => rw [hr] at h; cases h
        | some v =>
          obtain ⟨s, r, alt⟩ := v
          rw [hr] at h
          cases h
          obtain ⟨rfl, h1, h2, h3, h4, h5⟩ := (reMap_iff _ _ _ _).1 hr
          by_cases ha : alt = []
          · subst ha
            simpa using OpMeans.map s r ⟨h1, h3⟩ ⟨h2, h4⟩
          · simpa [ha] using OpMeans.mapElse s r alt ⟨h1, h3⟩ ⟨h2, h4⟩ ⟨ha, h5⟩
      · cases hr : reNum a with
        | none => rw [hr] at h; cases h
        | some v =>
          obtain ⟨s, r, z⟩ := v
          rw [hr] at h
          simp only [Option.bind_some, Option.map_eq_some_iff] at h
          obtain ⟨f, hf, rfl⟩ := h
          obtain ⟨rfl, h1, h2, h3, h4, h5, h6⟩ := (reNum_iff _ _ _ _).1 hr
          obtain ⟨v, hv, hv'⟩ := (parseFloat_iff e z f).1 ⟨h3, h6, hf⟩
          simpa using OpMeans.move s r z v f ⟨h1, h4⟩ ⟨h2, h5⟩ hv hv'
      · cases h
        exact OpMeans.asof a d4
      · cases h
        exact OpMeans.since a d5
      · simp only [Option.map_eq_some_iff] at h
        obtain ⟨k, hk, rfl⟩ := h
        have hk1 := List.find?_some hk
        have hk2 := List.mem_of_find?_eq_some hk
        exact OpMeans.combine a k hk2 (by simpa [small_eq] using hk1)
      · cases hr : reNum a with
        | none => rw [hr] at h; cases h
        | some v =>
          obtain ⟨s, r, z⟩ := v
          rw [hr] at h
          simp only [Option.bind_some, Option.map_eq_some_iff] at h
          obtain ⟨f, hf, rfl⟩ := h
          obtain ⟨rfl, h1, h2, h3, h4, h5, h6⟩ := (reNum_iff _ _ _ _).1 hr
          obtain ⟨g1, g2, rfl⟩ := (atoi_iff z f).1 ⟨h3, h6, hf⟩
          simpa using OpMeans.depreciate s r z ⟨h1, h4⟩ ⟨h2, h5⟩ g1 g2
  · intro h
    cases h with
    | map s r hs hr =>
      have hp := opPrefix_lit b!"map" (b!"/" ++ s ++ b!"/" ++ r ++ b!"/") _ _ rfl (by decide) (by decide)
      have : reMap (b!"/" ++ s ++ b!"/" ++ r ++ b!"/") = some (s, r, []) :=
        (reMap_iff _ _ _ _).2 ⟨by simp, hs.1, hr.1, hs.2, hr.2, by simp⟩
      unfold parsePrim
      rw [show b!"map=/" ++ s ++ b!"/" ++ r ++ b!"/" = b!"map" ++ 61 :: (b!"/" ++ s ++ b!"/" ++ r ++ b!"/") by simp, hp]
      simp only
      rw [if_neg (by decide), if_pos trivial, this]
      rfl
    | mapElse s r alt hs hr ha =>
      have hp := opPrefix_lit b!"map" (b!"/" ++ s ++ b!"/" ++ r ++ b!"/" ++ (alt ++ b!"/")) _ _ rfl (by decide) (by decide)
      have : reMap (b!"/" ++ s ++ b!"/" ++ r ++ b!"/" ++ (alt ++ b!"/")) = some (s, r, alt) :=
        (reMap_iff _ _ _ _).2 ⟨by simp [ha.1], hs.1, hr.1, hs.2, hr.2, ha.2⟩
      unfold parsePrim
      rw [show b!"map=/" ++ s ++ b!"/" ++ r ++ b!"/" ++ alt ++ b!"/" = b!"map" ++ 61 :: (b!"/" ++ s ++ b!"/" ++ r ++ b!"/" ++ (alt ++ b!"/")) by simp, hp]
      simp only
      rw [if_neg (by decide), if_pos trivial, this]
      rfl
    | mapccy s r hs hr =>
      have hp := opPrefix_lit b!"mapccy" (b!"/" ++ s ++ b!"/" ++ r ++ b!"/") _ _ rfl (by decide) (by decide)
      have : reTwo (b!"/" ++ s ++ b!"/" ++ r ++ b!"/") = some (s, r) :=
        (reTwo_iff _ _ _).2 ⟨by simp, hs.1, hr.1, hs.2, hr.2⟩
      unfold parsePrim
      rw [show b!"mapccy=/" ++ s ++ b!"/" ++ r ++ b!"/" = b!"mapccy" ++ 61 :: (b!"/" ++ s ++ b!"/" ++ r ++ b!"/") by simp, hp]
      simp only
      rw [if_pos trivial, this]
      rfl
    | move s r z v f hs hr hd hf =>
      obtain ⟨g1, g2, g3⟩ := (parseFloat_iff e z f).2 ⟨v, hd, hf⟩
      have hp := opPrefix_lit b!"move" (b!"/" ++ s ++ b!"/" ++ r ++ b!"/" ++ z ++ b!"/") _ _ rfl (by decide) (by decide)
      have : reNum (b!"/" ++ s ++ b!"/" ++ r ++ b!"/" ++ z ++ b!"/") = some (s, r, z) :=
        (reNum_iff _ _ _ _).2 ⟨by simp, hs.1, hr.1, g1, hs.2, hr.2, g2⟩
      unfold parsePrim
      rw [show b!"move=/" ++ s ++ b!"/" ++ r ++ b!"/" ++ z ++ b!"/" = b!"move" ++ 61 :: (b!"/" ++ s ++ b!"/" ++ r ++ b!"/" ++ z ++ b!"/") by simp, hp]
      simp only
      rw [if_neg (by decide), if_neg (by decide), if_pos trivial, this]
      simp [g3]
    | depreciate s r z hs hr hd hl =>
      obtain ⟨g1, g2, g3⟩ := (atoi_iff z _).2 ⟨hd, hl, rfl⟩
      have hp := opPrefix_lit b!"depreciate" (b!"/" ++ s ++ b!"/" ++ r ++ b!"/" ++ z ++ b!"/") _ _ rfl (by decide) (by decide)
      have : reNum (b!"/" ++ s ++ b!"/" ++ r ++ b!"/" ++ z ++ b!"/") = some (s, r, z) :=
        (reNum_iff _ _ _ _).2 ⟨by simp, hs.1, hr.1, g1, hs.2, hr.2, g2⟩
      unfold parsePrim
      rw [show b!"depreciate=/" ++ s ++ b!"/" ++ r ++ b!"/" ++ z ++ b!"/" = b!"depreciate" ++ 61 :: (b!"/" ++ s ++ b!"/" ++ r ++ b!"/" ++ z ++ b!"/") by simp, hp]
      simp only
      rw [if_neg (by decide), if_neg (by decide), if_neg (by decide), if_neg (by decide), if_neg (by decide), if_neg (by decide), if_pos trivial, this]
      simp [g3]
    | asof a ha =>
      have hp := opPrefix_lit b!"asof" a _ _ rfl (by decide) (by decide)
      unfold parsePrim
      rw [show b!"asof=" ++ a = b!"asof" ++ 61 :: a by simp, hp]
      simp only
      rw [if_neg (by decide), if_neg (by decide), if_neg (by decide), if_pos trivial, if_neg ha]
    | since a ha =>
      have hp := opPrefix_lit b!"since" a _ _ rfl (by decide) (by decide)
      unfold parsePrim
      rw [show b!"since=" ++ a = b!"since" ++ 61 :: a by simp, hp]
      simp only
      rw [if_neg (by decide), if_neg (by decide), if_neg (by decide), if_neg (by decide), if_pos trivial, if_neg ha]
    | combine a k hk ha =>
      have hp := opPrefix_lit b!"combine" a _ _ rfl (by decide) (by decide)
      have : (floorTypes.find? fun t => decide (a.map lower = t)) = some k := by
        rw [← small_eq, ha]
        revert hk
        generalize k = w
        revert w
        decide
      unfold parsePrim
      rw [show b!"combine=" ++ a = b!"combine" ++ 61 :: a by simp, hp]
      simp only
      rw [if_neg (by decide), if_neg (by decide), if_neg (by decide), if_neg (by decide), if_neg (by decide), if_pos trivial, this]
      rfl

/-- C61: in particular the dates of `asof=` and `since=` are days as C26 says. -/
theorem c61_days (e : OpEnv) (t : YMD) (ht : t.Valid) (htoday : e.today = t.code) (a : Str) (d : YMD) (hm : MeansDay t a d) (hd : d.Valid) :
    parsePrim e (b!"asof=" ++ a) = some (.asof d.code) ∧ parsePrim e (b!"since=" ++ a) = some (.since d.code) := by
  have e1 := c26_means_partial t ht a d hm hd
  have e2 := code_pos hd
  rw [c61_syntax, c61_syntax, htoday]
  rw [← e1] at e2 ⊢
  exact ⟨.asof a (by omega), .since a (by omega)⟩

/-- The grammar covers these, and the code agrees. -/
example (e : OpEnv) (he : e.float (1/2) = some (1/2)) : OpMeans (dateFromString e.today) e.float b!"move=/Exp/Fund/.5/" (.move b!"Exp" b!"Fund" (1/2)) ∧
    parsePrim e b!"move=/Exp/Fund/.5/" = some (.move b!"Exp" b!"Fund" (1/2)) ∧ parsePrim e b!"move=/Exp/Fund//" = none ∧
    parsePrim e b!"combine=MONTHLY" = some (.combine b!"monthly") ∧ parsePrim e b!"asof=" = none := by
  have hm : OpMeans (dateFromString e.today) e.float b!"move=/Exp/Fund/.5/" (.move b!"Exp" b!"Fund" (1/2)) := by
    have hd : Decimal b!".5" (1/2) := by
      have := Decimal.point [] b!"5" ⟨by decide, by decide, by simp⟩ ⟨by decide, by decide, by decide⟩ (by decide)
      have e1 : ((numberOf ([] ++ b!"5") : Int) : Rat) / 10 ^ (b!"5").length = 1/2 := by decide +kernel
      rwa [e1] at this
    exact OpMeans.move b!"Exp" b!"Fund" b!".5" (1/2) (1/2) ⟨by decide, by decide⟩ ⟨by decide, by decide⟩ hd he
  exact ⟨hm, (c61_syntax e _ _).2 hm, rfl, rfl, rfl⟩

end Verif
