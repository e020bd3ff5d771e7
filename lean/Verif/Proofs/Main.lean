import Verif.Spec.Main
import Mathlib.Data.List.Forall2
import Mathlib.Data.List.Basic

/-! # Reading command lines -/

namespace Verif
open Spec

/-- A flag and its line in the table. -/
structure FlagLike {σ : Type} (fe : FlagEnv) (f : FlagOf σ) (x : Str × Option Nat × Kind) : Prop where
  name : f.name = x.1
  short : f.short = x.2.1
  switch : x.2.2 = .switch → f.bare = some b!"true"
  valued : x.2.2 ≠ .switch → f.bare = none
  set : ∀ c v, (f.set c v).isSome = true ↔ x.2.2.takes fe v

/-- What the parser needs of a table. -/
structure TableOk (t : Table) : Prop where
  names : ∀ x ∈ t, x.1 ≠ [] ∧ x.1.head? ≠ some 45 ∧ 61 ∉ x.1
  letters : ∀ x ∈ t, x.2.1 ≠ some 45 ∧ x.2.1 ≠ some 61 ∧ x.2.1 ≠ some 116
  nodup : (t.map (·.1)).Nodup

/-- The parser's flags and the table. -/
structure Linked {σ : Type} (fe : FlagEnv) (fs : List (FlagOf σ)) (t : Table) : Prop where
  like : List.Forall₂ (FlagLike fe) fs t
  ok : TableOk t

theorem kindOf_mem {t : Table} {n : Str} {k : Kind} (h : kindOf t n = some k) : ∃ s, (n, s, k) ∈ t := by
  induction t with
  | nil => simp [kindOf] at h
  | cons x t ih =>
    obtain ⟨m, s, k'⟩ := x
    unfold kindOf at h
    split at h
    · next he => subst he; simp only [Option.some.injEq] at h; subst h; exact ⟨s, by simp⟩
    · obtain ⟨s, hs⟩ := ih h; exact ⟨s, by simp [hs]⟩

theorem ofLetter_mem {t : Table} {c : Nat} {n : Str} {k : Kind} (h : ofLetter t c = some (n, k)) : (n, some c, k) ∈ t := by
  induction t with
  | nil => simp [ofLetter] at h
  | cons x t ih =>
    obtain ⟨m, s, k'⟩ := x
    unfold ofLetter at h
    split at h
    · next he => subst he; simp only [Option.some.injEq, Prod.mk.injEq] at h; obtain ⟨rfl, rfl⟩ := h; simp
    · exact List.mem_cons_of_mem _ (ih h)

theorem kindOf_of_mem {t : Table} (ht : (t.map (·.1)).Nodup) {n : Str} {s : Option Nat} {k : Kind} (h : (n, s, k) ∈ t) : kindOf t n = some k := by
  induction t with
  | nil => simp at h
  | cons x t ih =>
    obtain ⟨m, s', k'⟩ := x
    simp only [List.map_cons, List.nodup_cons, List.mem_map, not_exists, not_and] at ht
    unfold kindOf
    rcases List.mem_cons.1 h with h | h
    · simp only [Prod.mk.injEq] at h; obtain ⟨rfl, rfl, rfl⟩ := h; simp
    · have : m ≠ n := by rintro rfl; exact ht.1 _ h rfl
      rw [if_neg this]
      exact ih ht.2 h

theorem long_some {fe : FlagEnv} {σ : Type} {fs : List (FlagOf σ)} {t : Table} (h : List.Forall₂ (FlagLike fe) fs t) {n : Str} {k : Kind}
    (hk : kindOf t n = some k) : ∃ f s, longFlag fs n = some f ∧ FlagLike fe f (n, s, k) := by
  induction h with
  | nil => simp [kindOf] at hk
  | @cons f x fs t hfx _ ih =>
    obtain ⟨m, s, k'⟩ := x
    unfold kindOf at hk
    have hn := hfx.name
    simp only at hn
    unfold longFlag
    rw [List.find?_cons]
    split at hk
    · next he =>
      subst he
      simp only [Option.some.injEq] at hk
      subst hk
      refine ⟨f, s, ?_, hfx⟩
      simp [hn]
    · next he =>
      have : decide (f.name = n) = false := by simpa [hn] using he
      rw [this]
      exact ih hk

theorem long_none {fe : FlagEnv} {σ : Type} {fs : List (FlagOf σ)} {t : Table} (h : List.Forall₂ (FlagLike fe) fs t) {n : Str}
    (hk : kindOf t n = none) : longFlag fs n = none := by
  induction h with
  | nil => rfl
  | @cons f x fs t hfx _ ih =>
    obtain ⟨m, s, k'⟩ := x
    unfold kindOf at hk
    have hn := hfx.name
    simp only at hn
    unfold longFlag
    rw [List.find?_cons]
    split at hk
    · cases hk
    · next he =>
      have : decide (f.name = n) = false := by simpa [hn] using he
      rw [this]
      exact ih hk

theorem short_some {fe : FlagEnv} {σ : Type} {fs : List (FlagOf σ)} {t : Table} (h : List.Forall₂ (FlagLike fe) fs t) (ht : (t.map (·.1)).Nodup) {c : Nat} {n : Str}
    {k : Kind} (hk : ofLetter t c = some (n, k)) :
    ∃ f, shortFlag fs c = some f ∧ longFlag fs n = some f ∧ FlagLike fe f (n, some c, k) := by
  induction h with
  | nil => simp [ofLetter] at hk
  | @cons f x fs t hfx hrest ih =>
    obtain ⟨m, s, k'⟩ := x
    have hmem := ofLetter_mem hk
    unfold ofLetter at hk
    have hs := hfx.short
    have hn := hfx.name
    simp only at hs hn
    unfold shortFlag longFlag
    rw [List.find?_cons, List.find?_cons]
    split at hk
    · next he =>
      subst he
      simp only [Option.some.injEq, Prod.mk.injEq] at hk
      obtain ⟨rfl, rfl⟩ := hk
      refine ⟨f, ?_, ?_, hfx⟩
      · simp [hs]
      · simp [hn]
    · next he =>
      have h1 : decide (f.short = some c) = false := by simpa [hs] using he
      simp only [List.map_cons, List.nodup_cons, List.mem_map, not_exists, not_and] at ht
      have h2 : decide (f.name = n) = false := by
        rw [hn]
        have := ht.1 _ (ofLetter_mem hk)
        simpa [eq_comm] using this
      rw [h1, h2]
      exact ih ht.2 hk

theorem short_none {fe : FlagEnv} {σ : Type} {fs : List (FlagOf σ)} {t : Table} (h : List.Forall₂ (FlagLike fe) fs t) {c : Nat}
    (hk : ofLetter t c = none) : shortFlag fs c = none := by
  induction h with
  | nil => rfl
  | @cons f x fs t hfx _ ih =>
    obtain ⟨m, s, k'⟩ := x
    unfold ofLetter at hk
    have hn := hfx.short
    simp only at hn
    unfold shortFlag
    rw [List.find?_cons]
    split at hk
    · cases hk
    · next he =>
      have : decide (f.short = some c) = false := by simpa [hn] using he
      rw [this]
      exact ih hk

/-- Setting flags one after another. -/
def setAll {σ : Type} (fs : List (FlagOf σ)) : σ → List (Str × Str) → Option σ
  | c, [] => some c
  | c, (n, v) :: l => ((longFlag fs n).bind fun f => f.set c v).bind fun c => setAll fs c l

theorem setAll_append {σ : Type} (fs : List (FlagOf σ)) (c : σ) (l₁ l₂ : List (Str × Str)) :
    setAll fs c (l₁ ++ l₂) = (setAll fs c l₁).bind fun c => setAll fs c l₂ := by
  induction l₁ generalizing c with
  | nil => rfl
  | cons x l ih =>
    obtain ⟨n, v⟩ := x
    simp only [List.cons_append, setAll]
    cases (longFlag fs n).bind fun f => f.set c v with
    | none => rfl
    | some c' => exact ih c'

theorem letterName_of {t : Table} {c : Nat} {n : Str} {k : Kind} (h : ofLetter t c = some (n, k)) : letterName t c = n := by
  simp [letterName, h]

theorem not_test {x : Nat} {xs : Str} (h : x ≠ 116) : ¬ b!"test." <+: x :: xs := by
  rintro ⟨r, hr⟩
  have : (b!"test.").head? = some x := by
    have := congrArg List.head? hr
    simpa using this
  have h2 : (b!"test.").head? = some 116 := by decide +kernel
  rw [h2] at this
  simp at this
  omega

theorem letter_ok {t : Table} (ht : TableOk t) {c : Nat} {n : Str} {k : Kind} (h : ofLetter t c = some (n, k)) : c ≠ 45 ∧ c ≠ 61 ∧ c ≠ 116 :=
  by simpa using ht.letters _ (ofLetter_mem h)

/-- The switches at the beginning of a group of letters. -/
theorem parseShorts_switches {fe : FlagEnv} {σ : Type} {fs : List (FlagOf σ)} {t : Table} (hl : Linked fe fs t) (bs : List Nat) (hb : ∀ c ∈ bs, IsSwitch t c)
    (more : Str) (hm : ¬ (more.length > 1 ∧ more.head? = some 61)) (rest : List Str) (c : σ) :
    parseShorts fs (bs ++ more) rest c =
      (setAll fs c (bs.map fun x => (letterName t x, b!"true"))).bind fun c => parseShorts fs more rest c := by
  induction bs generalizing c with
  | nil => rfl
  | cons x bs ih =>
    obtain ⟨n, hn⟩ := hb x (by simp)
    obtain ⟨f, h1, h2, h3⟩ := short_some hl.like hl.ok.nodup hn
    have hx := letter_ok hl.ok hn
    rw [List.cons_append, parseShorts, if_neg (not_test hx.2.2), h1]
    simp only
    have hne : ¬ ((bs ++ more).length > 1 ∧ (bs ++ more).head? = some 61) := by
      cases bs with
      | nil => exact hm
      | cons y bs =>
        obtain ⟨n', hn'⟩ := hb y (by simp)
        have := letter_ok hl.ok hn'
        simp [this.2.1]
    rw [if_neg hne, h3.switch rfl]
    simp only
    rw [List.map_cons, setAll, letterName_of hn, h2]
    simp only [Option.bind_some]
    cases f.set c b!"true" with
    | none => rfl
    | some c' =>
      simp only [Option.bind_some]
      exact ih (fun c h => hb c (by simp [h])) c'

theorem before_eq {n : Str} (h : 61 ∉ n) (v : Str) : (n ++ 61 :: v).takeWhile (fun x => decide (x ≠ 61)) = n := by
  rw [List.takeWhile_append_of_pos]
  · simp
  · intro a ha; simp; rintro rfl; exact h ha

theorem before_end {n : Str} (h : 61 ∉ n) : n.takeWhile (fun x => decide (x ≠ 61)) = n := by
  induction n with
  | nil => rfl
  | cons x xs ih =>
    simp only [List.mem_cons, not_or] at h
    rw [List.takeWhile_cons, ih h.2]
    simp [Ne.symm h.1]

theorem after_eq {n : Str} (h : 61 ∉ n) (v : Str) : (n ++ 61 :: v).dropWhile (fun x => decide (x ≠ 61)) = 61 :: v := by
  rw [List.dropWhile_append_of_pos]
  · simp
  · intro a ha; simp; rintro rfl; exact h ha

/-- One part. -/
theorem parse_part {fe : FlagEnv} {σ : Type} {fs : List (FlagOf σ)} {t : Table} (hl : Linked fe fs t) (p : LinePart) (hp : p.Fits t) (n : Nat) (rest : List Str)
    (c : σ) : parseArgs fs (n + 1) (p.text ++ rest) c =
      (setAll fs c (p.flags t)).bind fun c => (parseArgs fs n rest c).map fun r => (r.1, p.words ++ r.2) := by
  have hshort : ∀ (s : Str), s ≠ [] → s.head? ≠ some 45 → ∀ rest c, parseArgs fs (n + 1) ((45 :: s) :: rest) c =
      (parseShorts fs s rest c).bind fun r => parseArgs fs n r.2 r.1 := by
    intro s hs h45 rest c
    cases s with
    | nil => exact absurd rfl hs
    | cons x xs =>
      have : x ≠ 45 := by simpa using h45
      rw [parseArgs]
      all_goals simp_all
  have hlong : ∀ (s : Str), s ≠ [] → ∀ rest c, parseArgs fs (n + 1) ((45 :: 45 :: s) :: rest) c =
      (parseLong fs s rest c).bind fun r => parseArgs fs n r.2 r.1 := by
    intro s hs rest c
    cases s with
    | nil => exact absurd rfl hs
    | cons x xs => rfl
  have hmap : ∀ o : Option (σ × List Str), (o.map fun r => (r.1, ([] : List Str) ++ r.2)) = o := by
    rintro (_ | ⟨_, _⟩) <;> rfl
  have hgo : ∀ (o : Option σ), (o.map fun c => (c, rest)).bind (fun r => parseArgs fs n r.2 r.1) = o.bind fun c => parseArgs fs n rest c := by
    rintro (_ | _) <;> rfl
  have hbset : ∀ (o : Option σ), (o.bind fun c => setAll fs c []) = o := by
    rintro (_ | _) <;> rfl
  have hname : ∀ m k, kindOf t m = some k → m ≠ [] ∧ m.head? ≠ some 45 ∧ 61 ∉ m := by
    intro m k hk
    obtain ⟨s, hs⟩ := kindOf_mem hk
    exact hl.ok.names _ hs
  have hhead : ∀ m : Str, 61 ∉ m → m ≠ [] → m.head? ≠ some 45 → ∀ v : Str, ¬ ((m ++ v).head? = some 45 ∨ (m ++ v).head? = some 61) := by
    intro m h1 h2 h3 v
    cases m with
    | nil => exact absurd rfl h2
    | cons x xs => simp at h1 h3 ⊢; exact ⟨h3, fun h => h1.1 h.symm⟩
  cases p with
  | word s =>
    simp only [LinePart.text, LinePart.flags, LinePart.words, setAll, Option.bind_some, List.singleton_append]
    have hp' : s.head? = some 45 → s = b!"-" := hp
    cases s with
    | nil => rfl
    | cons x xs =>
      by_cases hx : x = 45
      · subst hx
        have h0 : b!"-" = [45] := by decide +kernel
        have := hp' rfl
        rw [h0] at this
        rw [this]
        rfl
      · rw [parseArgs]
        all_goals simp_all
  | eq m v =>
    obtain ⟨k, hk⟩ := Option.ne_none_iff_exists'.1 (show kindOf t m ≠ none from hp)
    obtain ⟨h1, h2, h3⟩ := hname m k hk
    obtain ⟨f, s, hf, hfl⟩ := long_some hl.like hk
    simp only [LinePart.text, LinePart.flags, LinePart.words, List.singleton_append]
    show parseArgs fs (n + 1) ((45 :: 45 :: ((m ++ [61]) ++ v)) :: rest) c = _
    rw [List.append_assoc, List.singleton_append, hlong _ (by simp), parseLong, if_neg (hhead m h3 h1 h2 _), before_eq h3, hf]
    simp only
    rw [if_pos (by simp), after_eq h3]
    simp only [List.tail_cons]
    rw [hgo, setAll, hf]
    simp only [Option.bind_some]
    rw [hbset]
    congr 1
    funext c
    exact (hmap _).symm
  | next m v =>
    obtain ⟨k, hk, hks⟩ := (show ∃ k, kindOf t m = some k ∧ k ≠ .switch from hp)
    obtain ⟨h1, h2, h3⟩ := hname m k hk
    obtain ⟨f, s, hf, hfl⟩ := long_some hl.like hk
    simp only [LinePart.text, LinePart.flags, LinePart.words]
    have hh := hhead m h3 h1 h2 []
    rw [List.append_nil] at hh
    show parseArgs fs (n + 1) ((45 :: 45 :: m) :: v :: rest) c = _
    rw [hlong _ h1, parseLong, if_neg hh, before_end h3, hf]
    simp only
    rw [if_neg h3, hfl.valued hks]
    simp only
    rw [hgo, setAll, hf]
    simp only [Option.bind_some]
    rw [hbset]
    congr 1
    funext c
    exact (hmap _).symm
  | alone m =>
    have hk : kindOf t m = some .switch := hp
    obtain ⟨h1, h2, h3⟩ := hname m _ hk
    obtain ⟨f, s, hf, hfl⟩ := long_some hl.like hk
    simp only [LinePart.text, LinePart.flags, LinePart.words]
    have hh := hhead m h3 h1 h2 []
    rw [List.append_nil] at hh
    show parseArgs fs (n + 1) ((45 :: 45 :: m) :: rest) c = _
    rw [hlong _ h1, parseLong, if_neg hh, before_end h3, hf]
    simp only
    rw [if_neg h3, hfl.switch rfl]
    simp only
    rw [hgo, setAll, hf]
    simp only [Option.bind_some]
    rw [hbset]
    congr 1
    funext c
    exact (hmap _).symm
  | testing bs s =>
    have hb : ∀ c ∈ bs, IsSwitch t c := hp
    simp only [LinePart.text, LinePart.flags, LinePart.words, List.singleton_append]
    have ht : b!"test." = [116, 101, 115, 116, 46] := by decide +kernel
    show parseArgs fs (n + 1) ((45 :: ((bs ++ b!"test.") ++ s)) :: rest) c = _
    rw [List.append_assoc, hshort]
    · rw [parseShorts_switches hl bs hb _ (by rw [ht]; simp)]
      rw [Option.bind_assoc]
      congr 1
      funext c
      have : parseShorts fs (b!"test." ++ s) rest c = some (c, rest) := by
        have h0 : b!"test." ++ s = 116 :: ([101, 115, 116, 46] ++ s) := by rw [ht]; rfl
        rw [h0, parseShorts, if_pos]
        rw [← h0]
        exact List.prefix_append _ _
      rw [this]
      exact (hmap _).symm
    · rw [ht]; simp
    · cases bs with
      | nil => rw [ht]; simp
      | cons y bs =>
        obtain ⟨n', hn'⟩ := hb y (by simp)
        have := letter_ok hl.ok hn'
        simp [this.1]
  | letters bs last =>
    have hh : ∀ (more : Str), (∀ c ∈ bs, IsSwitch t c) → (bs ≠ [] ∨ more.head? ≠ some 45) → (bs ++ more).head? ≠ some 45 := by
      intro more hb hor
      cases bs with
      | nil => rcases hor with h | h; exact absurd rfl h; exact h
      | cons y bs =>
        obtain ⟨n', hn'⟩ := hb y (by simp)
        have := letter_ok hl.ok hn'
        simp [this.1]
    have hm0 : ∀ c, parseShorts fs [] rest c = some (c, rest) := fun _ => rfl
    match last with
    | none =>
      obtain ⟨hne, hb⟩ := (show bs ≠ [] ∧ ∀ c ∈ bs, IsSwitch t c from hp)
      simp only [LinePart.text, LinePart.flags, LinePart.words, List.singleton_append]
      show parseArgs fs (n + 1) ((45 :: bs) :: rest) c = _
      rw [hshort _ hne (by simpa using hh [] hb (Or.inl hne))]
      have := parseShorts_switches hl bs hb [] (by simp) rest c
      rw [List.append_nil] at this
      rw [this, Option.bind_assoc, List.append_nil]
      congr 1
      funext c
      rw [hm0]
      exact (hmap _).symm
    | some (x, v, .glued) =>
      obtain ⟨hb, ⟨m, k, hx, hks⟩, hv, hveq⟩ := (show (∀ c ∈ bs, IsSwitch t c) ∧ IsValued t x ∧ v ≠ [] ∧ ¬ (1 < v.length ∧ v.head? = some 61) from hp)
      have hxo := letter_ok hl.ok hx
      obtain ⟨f, h1, h2, h3⟩ := short_some hl.like hl.ok.nodup hx
      simp only [LinePart.text, LinePart.flags, LinePart.words, List.singleton_append]
      show parseArgs fs (n + 1) ((45 :: (bs ++ x :: v)) :: rest) c = _
      rw [hshort _ (by simp) (hh _ hb (Or.inr (by simp [hxo.1]))),
        parseShorts_switches hl bs hb _ (by simp [hxo.2.1]), setAll_append, Option.bind_assoc, Option.bind_assoc]
      congr 1
      funext c
      rw [parseShorts, if_neg (not_test hxo.2.2), h1]
      simp only
      rw [if_neg (by simpa using hveq), h3.valued hks]
      simp only
      rw [if_pos hv, hgo, setAll, letterName_of hx, h2]
      simp only [Option.bind_some]
      rw [hbset]
      congr 1
      funext c
      exact (hmap _).symm
    | some (x, v, .eq) =>
      obtain ⟨hb, hx, hv⟩ := (show (∀ c ∈ bs, IsSwitch t c) ∧ ofLetter t x ≠ none ∧ v ≠ [] from hp)
      obtain ⟨⟨m, k⟩, hx⟩ := Option.ne_none_iff_exists'.1 hx
      have hxo := letter_ok hl.ok hx
      obtain ⟨f, h1, h2, h3⟩ := short_some hl.like hl.ok.nodup hx
      simp only [LinePart.text, LinePart.flags, LinePart.words, List.singleton_append]
      show parseArgs fs (n + 1) ((45 :: ((bs ++ [x, 61]) ++ v)) :: rest) c = _
      rw [List.append_assoc]
      show parseArgs fs (n + 1) ((45 :: (bs ++ x :: 61 :: v)) :: rest) c = _
      rw [hshort _ (by simp) (hh _ hb (Or.inr (by simp [hxo.1]))),
        parseShorts_switches hl bs hb _ (by simp [hxo.2.1]), setAll_append, Option.bind_assoc, Option.bind_assoc]
      congr 1
      funext c
      rw [parseShorts, if_neg (not_test hxo.2.2), h1]
      simp only
      have hvl : (61 :: v).length > 1 ∧ (61 :: v).head? = some 61 := by
        refine ⟨?_, rfl⟩
        cases v with
        | nil => exact absurd rfl hv
        | cons _ _ => simp
      rw [if_pos hvl]
      simp only [List.tail_cons]
      rw [hgo, setAll, letterName_of hx, h2]
      simp only [Option.bind_some]
      rw [hbset]
      congr 1
      funext c
      exact (hmap _).symm
    | some (x, v, .next) =>
      obtain ⟨hb, ⟨m, k, hx, hks⟩⟩ := (show (∀ c ∈ bs, IsSwitch t c) ∧ IsValued t x from hp)
      have hxo := letter_ok hl.ok hx
      obtain ⟨f, h1, h2, h3⟩ := short_some hl.like hl.ok.nodup hx
      simp only [LinePart.text, LinePart.flags, LinePart.words, List.cons_append, List.nil_append]
      show parseArgs fs (n + 1) ((45 :: (bs ++ [x])) :: v :: rest) c = _
      rw [hshort _ (by simp) (hh _ hb (Or.inr (by simp [hxo.1]))),
        parseShorts_switches hl bs hb _ (by simp), setAll_append, Option.bind_assoc, Option.bind_assoc]
      congr 1
      funext c
      rw [parseShorts, if_neg (not_test hxo.2.2), h1]
      simp only
      rw [if_neg (by simp), h3.valued hks]
      simp only
      rw [if_neg (by simp), hgo, setAll, letterName_of hx, h2]
      simp only [Option.bind_some]
      rw [hbset]
      congr 1
      funext c
      exact (hmap _).symm

/-- All the parts, and what follows them. -/
theorem parse_parts {fe : FlagEnv} {σ : Type} {fs : List (FlagOf σ)} {t : Table} (hl : Linked fe fs t) (ps : List LinePart) (hp : ∀ p ∈ ps, p.Fits t) (n : Nat)
    (rest : List Str) (c : σ) : parseArgs fs (n + ps.length) (ps.flatMap LinePart.text ++ rest) c =
      (setAll fs c (ps.flatMap (LinePart.flags t))).bind fun c => (parseArgs fs n rest c).map fun r => (r.1, ps.flatMap LinePart.words ++ r.2) := by
  induction ps generalizing c with
  | nil =>
    simp only [List.flatMap_nil, List.nil_append, List.length_nil, Nat.add_zero, setAll, Option.bind_some]
    cases parseArgs fs n rest c <;> rfl
  | cons p ps ih =>
    simp only [List.flatMap_cons, List.length_cons, List.append_assoc]
    rw [← Nat.add_assoc, parse_part hl p (hp p (by simp)), setAll_append, Option.bind_assoc]
    congr 1
    funext c
    rw [ih (fun p h => hp p (by simp [h]))]
    cases setAll fs c (ps.flatMap (LinePart.flags t)) with
    | none => rfl
    | some c =>
      simp only [Option.bind_some]
      cases parseArgs fs n rest c <;> simp

/-- More steps change nothing. -/
theorem parse_more {σ : Type} {fs : List (FlagOf σ)} (n : Nat) (args : List Str) (c : σ) (hn : args.length < n) (m : Nat) (hm : n ≤ m) :
    parseArgs fs m args c = parseArgs fs n args c := by
  have hS : ∀ (s : Str) (rest : List Str) (c : σ) r, parseShorts fs s rest c = some r → r.2.length ≤ rest.length := by
    intro s
    induction s with
    | nil => intro rest c r h; simp [parseShorts] at h; subst h; simp
    | cons x xs ih =>
      intro rest c r h
      rw [parseShorts] at h
      split at h
      · simp at h; subst h; simp
      · split at h
        · simp at h
        · next f _ =>
          split at h
          · simp only [Option.map_eq_some_iff] at h; obtain ⟨_, _, rfl⟩ := h; simp
          · split at h
            · simp only [Option.bind_eq_some_iff] at h; obtain ⟨_, _, h⟩ := h; exact ih _ _ _ h
            · split at h
              · simp only [Option.map_eq_some_iff] at h; obtain ⟨_, _, rfl⟩ := h; simp
              · split at h
                · simp at h
                · simp only [Option.map_eq_some_iff] at h; obtain ⟨_, _, rfl⟩ := h; simp
  have hL : ∀ (s : Str) (rest : List Str) (c : σ) r, parseLong fs s rest c = some r → r.2.length ≤ rest.length := by
    intro s rest c r h
    rw [parseLong] at h
    split at h
    · simp at h
    · split at h
      · simp at h
      · split at h
        · simp only [Option.map_eq_some_iff] at h; obtain ⟨_, _, rfl⟩ := h; simp
        · split at h
          · simp only [Option.map_eq_some_iff] at h; obtain ⟨_, _, rfl⟩ := h; simp
          · split at h
            · simp at h
            · simp only [Option.map_eq_some_iff] at h; obtain ⟨_, _, rfl⟩ := h; simp
  induction n generalizing args c m with
  | zero => omega
  | succ n ih =>
    obtain ⟨m, rfl⟩ : ∃ k, m = k + 1 := ⟨m - 1, by omega⟩
    cases args with
    | nil => rfl
    | cons s rest =>
      simp only [List.length_cons] at hn
      have hrest : ∀ c, parseArgs fs m rest c = parseArgs fs n rest c := fun c => ih rest c (by omega) m (by omega)
      have hgo : ∀ (o : Option (σ × List Str)), (∀ r, o = some r → r.2.length ≤ rest.length) →
          (o.bind fun r => parseArgs fs m r.2 r.1) = o.bind fun r => parseArgs fs n r.2 r.1 := by
        intro o ho
        cases o with
        | none => rfl
        | some r => exact ih r.2 r.1 (by have := ho r rfl; omega) m (by omega)
      unfold parseArgs
      split
      · rfl
      · exact hgo _ (hL _ _ _)
      · exact hgo _ (hS _ _ _)
      · rw [hrest]

/-- A line that fits. -/
theorem parse_line {fe : FlagEnv} {σ : Type} {fs : List (FlagOf σ)} {t : Table} (hl : Linked fe fs t) (l : CmdLine) (hp : ∀ p ∈ l.parts, p.Fits t) (c : σ) :
    parseArgs fs (l.text.length + 1) l.text c = (setAll fs c (l.flags t)).map fun c => (c, l.words) := by
  have hlen : l.text.length + 1 ≤ (l.text.length + 1) + l.parts.length := by omega
  rw [← parse_more (l.text.length + 1) l.text c (by omega) _ hlen]
  show parseArgs fs _ (l.parts.flatMap LinePart.text ++ _) c = _
  rw [parse_parts hl l.parts hp]
  show _ = (setAll fs c (l.parts.flatMap (LinePart.flags t))).map _
  cases setAll fs c (l.parts.flatMap (LinePart.flags t)) with
  | none => rfl
  | some c =>
    simp only [Option.bind_some, Option.map_some, CmdLine.words]
    cases l.rest with
    | none => rfl
    | some r => rfl

theorem setAll_some {fe : FlagEnv} {σ : Type} {fs : List (FlagOf σ)} {t : Table} (hl : Linked fe fs t) (l : List (Str × Str)) (c : σ)
    (hn : ∀ x ∈ l, kindOf t x.1 ≠ none) :
    (setAll fs c l).isSome = true ↔ ∀ x ∈ l, ∀ k, kindOf t x.1 = some k → k.takes fe x.2 := by
  induction l generalizing c with
  | nil => simp [setAll]
  | cons x l ih =>
    obtain ⟨n, v⟩ := x
    obtain ⟨k, hk⟩ := Option.ne_none_iff_exists'.1 (hn (n, v) (by simp))
    simp only at hk
    obtain ⟨f, s, hf, hfl⟩ := long_some hl.like hk
    have hset := hfl.set c v
    simp only [setAll, hf, Option.bind_some, List.forall_mem_cons, hk, Option.some.injEq, forall_eq']
    simp only at hset
    rw [← hset]
    cases f.set c v with
    | none => simp
    | some c' =>
      simp only [Option.bind_some, Option.isSome_some, true_and]
      exact ih c' fun x h => hn x (by simp [h])

/-- The flags of fitting parts are in the table. -/
theorem flags_known {t : Table} (ht : TableOk t) (p : LinePart) (hp : p.Fits t) (x : Str × Str) (hx : x ∈ p.flags t) : kindOf t x.1 ≠ none := by
  have hsw : ∀ bs : List Nat, (∀ c ∈ bs, IsSwitch t c) → ∀ x ∈ bs.map (fun c => (letterName t c, b!"true")), kindOf t x.1 ≠ none := by
    intro bs hb x hx
    obtain ⟨c, hc, rfl⟩ := List.mem_map.1 hx
    obtain ⟨n, hn⟩ := hb c hc
    simp only [letterName_of hn]
    rw [kindOf_of_mem ht.nodup (ofLetter_mem hn)]
    simp
  have hle : ∀ c n k, ofLetter t c = some (n, k) → kindOf t (letterName t c) ≠ none := by
    intro c n k h
    rw [letterName_of h, kindOf_of_mem ht.nodup (ofLetter_mem h)]
    simp
  cases p with
  | word s => simp [LinePart.flags] at hx
  | eq n v => simp only [LinePart.flags, List.mem_singleton] at hx; subst hx; exact hp
  | next n v =>
    simp only [LinePart.flags, List.mem_singleton] at hx; subst hx
    obtain ⟨k, hk, _⟩ := hp
    simp [hk]
  | alone n =>
    simp only [LinePart.flags, List.mem_singleton] at hx; subst hx
    have : kindOf t n = some .switch := hp
    simp [this]
  | testing bs s => exact hsw bs hp x hx
  | letters bs last =>
    simp only [LinePart.flags, List.mem_append] at hx
    match last with
    | none =>
      rcases hx with hx | hx
      · exact hsw bs hp.2 x hx
      · simp at hx
    | some (c, v, .glued) =>
      rcases hx with hx | hx
      · exact hsw bs hp.1 x hx
      · simp only [List.mem_singleton] at hx; subst hx
        obtain ⟨_, ⟨n, k, h, _⟩, _⟩ := hp
        exact hle c n k h
    | some (c, v, .eq) =>
      rcases hx with hx | hx
      · exact hsw bs hp.1 x hx
      · simp only [List.mem_singleton] at hx; subst hx
        obtain ⟨_, h, _⟩ := hp
        obtain ⟨⟨n, k⟩, h⟩ := Option.ne_none_iff_exists'.1 h
        exact hle c n k h
    | some (c, v, .next) =>
      rcases hx with hx | hx
      · exact hsw bs hp.1 x hx
      · simp only [List.mem_singleton] at hx; subst hx
        obtain ⟨_, ⟨n, k, h, _⟩⟩ := hp
        exact hle c n k h

/-- A group of letters that was read is a part. -/
theorem shorts_part {fe : FlagEnv} {σ : Type} {fs : List (FlagOf σ)} {t : Table} (hl : Linked fe fs t) (s : Str) (hs : s ≠ []) (rest : List Str) (c : σ)
    (r : σ × List Str) (h : parseShorts fs s rest c = some r) :
    ∃ p : LinePart, p.Fits t ∧ p.text ++ r.2 = (45 :: s) :: rest ∧ p.words = [] := by
  suffices ∀ (s : Str) (bs : List Nat), (∀ c ∈ bs, IsSwitch t c) → bs ++ s ≠ [] → ∀ c, parseShorts fs s rest c = some r →
      ∃ p : LinePart, p.Fits t ∧ p.text ++ r.2 = (45 :: (bs ++ s)) :: rest ∧ p.words = [] from
    this s [] (by simp) (by simpa using hs) c h
  clear hs h
  intro s
  induction s with
  | nil =>
    intro bs hb hne c h
    simp [parseShorts] at h
    subst h
    refine ⟨.letters bs none, ⟨by simpa using hne, hb⟩, by simp [LinePart.text], rfl⟩
  | cons x xs ih =>
    intro bs hb hne c h
    rw [parseShorts] at h
    split at h
    · next hpre =>
      obtain ⟨y, hy⟩ := hpre
      simp at h
      subst h
      refine ⟨.testing bs y, hb, ?_, rfl⟩
      rw [← hy]
      simp [LinePart.text]
    · split at h
      · simp at h
      · next f hf =>
        have hx : ofLetter t x ≠ none := by
          intro h0
          rw [short_none hl.like h0] at hf
          cases hf
        obtain ⟨⟨n, k⟩, hx'⟩ := Option.ne_none_iff_exists'.1 hx
        obtain ⟨f', h1, h2, h3⟩ := short_some hl.like hl.ok.nodup hx'
        rw [h1] at hf
        cases hf
        split at h
        · next heq =>
          simp only [Option.map_eq_some_iff] at h
          obtain ⟨_, _, rfl⟩ := h
          cases xs with
          | nil => simp at heq
          | cons y ys =>
            simp only [List.head?_cons, Option.some.injEq] at heq
            obtain ⟨hlen, rfl⟩ := heq
            refine ⟨.letters bs (some (x, ys, .eq)), ⟨hb, hx, ?_⟩, ?_, rfl⟩
            · rintro rfl; simp at hlen
            · simp [LinePart.text]
        · next heq =>
          split at h
          · next v hv =>
            have hk : k = .switch := by
              by_contra hk
              rw [h3.valued hk] at hv
              cases hv
            subst hk
            simp only [Option.bind_eq_some_iff] at h
            obtain ⟨c', _, h⟩ := h
            obtain ⟨p, hp1, hp2, hp3⟩ := ih (bs ++ [x]) (by
              intro c hc
              rcases List.mem_append.1 hc with hc | hc
              · exact hb c hc
              · simp only [List.mem_singleton] at hc; subst hc; exact ⟨n, hx'⟩) (by simp) c' h
            exact ⟨p, hp1, by simpa using hp2, hp3⟩
          · next hv =>
            have hk : k ≠ .switch := by
              rintro rfl
              rw [h3.switch rfl] at hv
              cases hv
            split at h
            · next hxs =>
              simp only [Option.map_eq_some_iff] at h
              obtain ⟨_, _, rfl⟩ := h
              exact ⟨.letters bs (some (x, xs, .glued)), ⟨hb, ⟨n, k, hx', hk⟩, hxs, by simpa using heq⟩, by simp [LinePart.text], rfl⟩
            · next hxs =>
              simp only [ne_eq, not_not] at hxs
              subst hxs
              split at h
              · simp at h
              · next v rest =>
                simp only [Option.map_eq_some_iff] at h
                obtain ⟨_, _, rfl⟩ := h
                exact ⟨.letters bs (some (x, v, .next)), ⟨hb, ⟨n, k, hx', hk⟩⟩, by simp [LinePart.text], rfl⟩

theorem drop_to_eq {s : Str} (heq : 61 ∈ s) : ∃ y, s.dropWhile (fun x => decide (x ≠ 61)) = 61 :: y := by
  induction s with
  | nil => simp at heq
  | cons y ys ih =>
    rw [List.dropWhile_cons]
    by_cases hy : y = 61
    · subst hy; exact ⟨ys, by simp⟩
    · simp only [hy, ne_eq, not_false_eq_true, decide_true, if_true]
      exact ih (by simpa [Ne.symm hy] using heq)

/-- A long flag that was read is a part. -/
theorem long_part {fe : FlagEnv} {σ : Type} {fs : List (FlagOf σ)} {t : Table} (hl : Linked fe fs t) (s : Str) (rest : List Str) (c : σ)
    (r : σ × List Str) (h : parseLong fs s rest c = some r) :
    ∃ p : LinePart, p.Fits t ∧ p.text ++ r.2 = (45 :: 45 :: s) :: rest ∧ p.words = [] := by
  rw [parseLong] at h
  split at h
  · simp at h
  · split at h
    · simp at h
    · next f hf =>
      have hx : kindOf t (s.takeWhile fun x => decide (x ≠ 61)) ≠ none := by
        intro h0
        rw [long_none hl.like h0] at hf
        cases hf
      obtain ⟨k, hk⟩ := Option.ne_none_iff_exists'.1 hx
      obtain ⟨f', _, h1, h2⟩ := long_some hl.like hk
      rw [h1] at hf
      cases hf
      split at h
      · next heq =>
        simp only [Option.map_eq_some_iff] at h
        obtain ⟨_, _, rfl⟩ := h
        refine ⟨.eq (s.takeWhile fun x => decide (x ≠ 61)) (s.dropWhile fun x => decide (x ≠ 61)).tail, hx, ?_, rfl⟩
        have hd := drop_to_eq heq
        obtain ⟨y, hy⟩ := hd
        have := List.takeWhile_append_dropWhile (p := fun x => decide (x ≠ 61)) (l := s)
        rw [hy] at this
        simp only [LinePart.text, hy, List.tail_cons]
        show (45 :: 45 :: ((s.takeWhile fun x => decide (x ≠ 61)) ++ [61] ++ y)) :: rest = (45 :: 45 :: s) :: rest
        rw [List.append_assoc, List.singleton_append, this]
      · next heq =>
        rw [before_end heq] at hk hx
        split at h
        · next v hv =>
          have hk' : k = .switch := by
            by_contra hk
            rw [h2.valued hk] at hv
            cases hv
          subst hk'
          simp only [Option.map_eq_some_iff] at h
          obtain ⟨_, _, rfl⟩ := h
          exact ⟨.alone s, hk, by simp [LinePart.text], rfl⟩
        · next hv =>
          have hk' : k ≠ .switch := by
            rintro rfl
            rw [h2.switch rfl] at hv
            cases hv
          split at h
          · simp at h
          · next v' rest' =>
            simp only [Option.map_eq_some_iff] at h
            obtain ⟨_, _, rfl⟩ := h
            exact ⟨.next s v', ⟨k, hk, hk'⟩, by simp [LinePart.text], rfl⟩

/-- What was read is a line. -/
theorem parse_sound {fe : FlagEnv} {σ : Type} {fs : List (FlagOf σ)} {t : Table} (hl : Linked fe fs t) (n : Nat) (args : List Str) (c : σ)
    (r : σ × List Str) (h : parseArgs fs n args c = some r) : ∃ l : CmdLine, l.text = args ∧ ∀ p ∈ l.parts, p.Fits t := by
  induction n generalizing args c r with
  | zero => simp [parseArgs] at h
  | succ n ih =>
    have hcons : ∀ (p : LinePart) (l : CmdLine) rest, p.Fits t → l.text = rest → (∀ p ∈ l.parts, p.Fits t) →
        ∃ l : CmdLine, l.text = p.text ++ rest ∧ ∀ p ∈ l.parts, p.Fits t := by
      rintro p ⟨ps, rst⟩ rest h1 h2 h3
      refine ⟨⟨p :: ps, rst⟩, ?_, ?_⟩
      · rw [← h2]; simp [CmdLine.text]
      · intro q hq
        rcases List.mem_cons.1 hq with rfl | hq
        · exact h1
        · exact h3 q hq
    unfold parseArgs at h
    split at h
    · cases h
    · exact ⟨⟨[], none⟩, rfl, by simp⟩
    · next c' n' s rest hn' =>
      cases hn'
      split at h
      · exact ⟨⟨[], some rest⟩, rfl, by simp⟩
      · next x xs =>
        simp only [Option.bind_eq_some_iff] at h
        obtain ⟨r', h1, h2⟩ := h
        obtain ⟨p, hp1, hp2, _⟩ := long_part hl _ _ _ _ h1
        obtain ⟨l, hl1, hl2⟩ := ih _ _ _ h2
        rw [← hp2]
        exact hcons p l _ hp1 hl1 hl2
      · next x xs _ =>
        simp only [Option.bind_eq_some_iff] at h
        obtain ⟨r', h1, h2⟩ := h
        obtain ⟨p, hp1, hp2, _⟩ := shorts_part hl _ (by simp) _ _ _ h1
        obtain ⟨l, hl1, hl2⟩ := ih _ _ _ h2
        rw [← hp2]
        exact hcons p l _ hp1 hl1 hl2
      · next h1 h2 h3 =>
        simp only [Option.map_eq_some_iff] at h
        obtain ⟨r', h4, _⟩ := h
        obtain ⟨l, hl1, hl2⟩ := ih _ _ _ h4
        refine hcons (.word s) l rest ?_ hl1 hl2
        intro h45
        cases s with
        | nil => simp at h45
        | cons y ys =>
          simp only [List.head?_cons, Option.some.injEq] at h45
          subst h45
          cases ys with
          | nil => rfl
          | cons z zs => exact absurd rfl (h3 z zs)

/-- A line is read if and only if it is good. -/
theorem parse_iff {fe : FlagEnv} {σ : Type} {fs : List (FlagOf σ)} {t : Table} (hl : Linked fe fs t) (args : List Str) (c : σ) :
    (parseArgs fs (args.length + 1) args c).isSome = true ↔ ∃ l : CmdLine, l.text = args ∧ l.Good fe t := by
  have hgood : ∀ l : CmdLine, (∀ p ∈ l.parts, p.Fits t) → ((setAll fs c (l.flags t)).isSome = true ↔ l.Good fe t) := by
    intro l hf
    rw [setAll_some hl _ c (by
      intro x hx
      obtain ⟨p, hp, hx⟩ := List.mem_flatMap.1 hx
      exact flags_known hl.ok p (hf p hp) x hx)]
    exact ⟨fun h => ⟨hf, h⟩, fun h => h.2⟩
  constructor
  · intro h
    obtain ⟨r, hr⟩ := Option.isSome_iff_exists.1 h
    obtain ⟨l, rfl, hf⟩ := parse_sound hl _ _ _ _ hr
    refine ⟨l, rfl, (hgood l hf).1 ?_⟩
    rw [parse_line hl l hf] at h
    simpa using h
  · rintro ⟨l, rfl, hg⟩
    rw [parse_line hl l hg.1]
    simpa using (hgood l hg.1).2 hg

end Verif
