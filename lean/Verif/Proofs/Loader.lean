import Verif.Model.Loader

/-! # The loader: progress and locality of the readers -/

namespace Verif

theorem span_len (p : Nat → Bool) (s : List Nat) : (s.takeWhile p).length + (s.dropWhile p).length = s.length := by
  rw [← List.length_append, List.takeWhile_append_dropWhile]

/-! ## No reader lengthens its input -/

theorem consumeWS_le (s : Reader) : (consumeWS s).length ≤ s.length := by
  have := span_len isBlank s; unfold consumeWS; omega

theorem next_le (s : Reader) : s.next.length ≤ s.length := by
  unfold Reader.next; simp

theorem skipEOL_le (s : Reader) : (skipEOL s).length ≤ s.length := by
  unfold skipEOL; split
  · exact next_le s
  · exact le_refl _

theorem dropWhile_le (p : Nat → Bool) (s : List Nat) : (s.dropWhile p).length ≤ s.length := by
  have := span_len p s; omega

theorem next_lt {s : Reader} (h : s.ch ≠ 0) : s.next.length < s.length := by
  cases s with
  | nil => simp [Reader.ch] at h
  | cons c s => simp [Reader.next]

theorem consumeRune_some {e : Nat} {s s' : Reader} (h : consumeRune e s = some s') : s = e :: s' := by
  cases s with
  | nil => simp [consumeRune] at h
  | cons c s =>
    simp only [consumeRune] at h
    split at h
    · rename_i hc; cases h; rw [hc]
    · cases h

theorem parseNumber_lt {lo hi : Nat} (hlo : 1 ≤ lo) {s s' : Reader} {v : Int} (h : parseNumber lo hi s = some (v, s')) :
    s'.length < s.length := by
  simp only [parseNumber] at h
  split at h
  · cases h
  · rename_i hn
    cases h
    have := span_len isDigit s
    omega

theorem parseTriple_lt {w sep : Nat} {s s' : Reader} {v : Int} (h : parseTriple w sep s = some (v, s')) :
    s'.length < s.length := by
  simp only [parseTriple] at h
  split at h <;> try cases h
  rename_i h1
  have h1 := parseNumber_lt (le_refl 1) h1
  split at h <;> try cases h
  rename_i h2
  rw [consumeRune_some h2] at h1
  split at h <;> try cases h
  rename_i h3
  have h3 := parseNumber_lt (le_refl 1) h3
  split at h <;> try cases h
  rename_i h4
  rw [consumeRune_some h4] at h3
  split at h <;> try cases h
  rename_i h5
  have h5 := parseNumber_lt (le_refl 1) h5
  simp only [List.length_cons] at h1 h3
  omega

theorem parseQuotedString_le {s s' : Reader} {v : Str} (h : parseQuotedString s = some (v, s')) : s'.length ≤ s.length := by
  simp only [parseQuotedString] at h
  split at h <;> try cases h
  rename_i s1 h1
  split at h <;> try cases h
  rename_i s2 h2
  have h2' := consumeRune_some h2
  have h1' := consumeRune_some h1
  have := dropWhile_le (fun c => inLine c && c != 34) s1
  rw [h2'] at this
  rw [h1']
  simp only [List.length_cons] at this ⊢
  omega

theorem amtLoop_le (d : Bool) (n m : Int) (s : Reader) : (amtLoop d n m s).2.2.length ≤ s.length := by
  induction s generalizing d n m with
  | nil => simp [amtLoop]
  | cons c s ih =>
    simp only [amtLoop, List.length_cons]
    split
    · exact Nat.le_succ_of_le (ih _ _ _)
    · split
      · exact Nat.le_succ_of_le (ih _ _ _)
      · split
        · exact Nat.le_succ_of_le (ih _ _ _)
        · simp

theorem optMinus_le (s : Reader) : (optMinus s).2.length ≤ s.length := by
  unfold optMinus; split
  · exact next_le s
  · exact le_refl _

theorem parseAmt_le {s s' : Reader} {v : Rat} (h : parseAmt s = some (v, s')) : s'.length ≤ s.length := by
  simp only [parseAmt, Option.map_eq_some_iff] at h
  obtain ⟨_, _, h⟩ := h
  cases h
  exact le_trans (amtLoop_le _ _ _ _) (le_trans (optMinus_le _) (consumeWS_le s))

theorem parseCCY_le {s s' : Reader} {v : Str} (h : parseCCY s = some (v, s')) : s'.length ≤ s.length := by
  simp only [parseCCY] at h
  split at h
  · exact le_trans (parseQuotedString_le h) (consumeWS_le s)
  · cases h
    exact le_trans (dropWhile_le _ _) (consumeWS_le s)

theorem parseCCYAmt_le {s s' : Reader} {v : Str × Rat} (h : parseCCYAmt s = some (v, s')) : s'.length ≤ s.length := by
  simp only [parseCCYAmt] at h
  split at h
  · split at h <;> try cases h
    rename_i h1
    split at h <;> try cases h
    rename_i h2
    exact le_trans (parseAmt_le h2) (parseCCY_le h1)
  · split at h <;> try cases h
    rename_i h1
    split at h <;> try cases h
    rename_i h2
    exact le_trans (parseCCY_le h2) (parseAmt_le h1)

theorem parseNote_le (s : Reader) : (parseNote s).2.length ≤ s.length := by
  simp only [parseNote]
  split
  · exact consumeWS_le s
  · exact le_trans (dropWhile_le _ _) (le_trans (consumeWS_le _) (le_trans (next_le _) (consumeWS_le s)))

theorem parsePayee_le {s s' : Reader} {v : Str} (h : parsePayee s = some (v, s')) : s'.length ≤ s.length := by
  simp only [parsePayee] at h
  split at h
  · simp only [Option.map_eq_some_iff] at h
    obtain ⟨⟨a, r⟩, h1, h⟩ := h
    cases h
    exact le_trans (parseQuotedString_le h1) (consumeWS_le s)
  · cases h
    exact le_trans (dropWhile_le _ _) (consumeWS_le s)

theorem parseTransaction_lt {s s' : Reader} {v} (h : parseTransaction s = some (v, s')) : s'.length < s.length := by
  simp only [parseTransaction] at h
  split at h <;> try cases h
  rename_i s1 h1
  have h1 := parseTriple_lt h1
  split at h <;> try cases h
  rename_i h2
  have h2 := parsePayee_le h2
  refine lt_of_le_of_lt (le_trans (skipEOL_le _) (le_trans (parseNote_le _) (le_trans h2 ?_))) h1
  split
  · exact le_trans (consumeWS_le _) (le_trans (next_le _) (consumeWS_le _))
  · exact consumeWS_le _

theorem parseAccount_le (s : Reader) : (parseAccount s).2.length ≤ s.length := by
  simp only [parseAccount]
  have h : ∀ x : Reader, (if x.ch = 93 then x.next else x).length ≤ x.length := by
    intro x; split
    · exact next_le x
    · exact le_refl _
  refine le_trans (h _) (le_trans (dropWhile_le _ _) ?_)
  split
  · exact le_trans (next_le _) (consumeWS_le s)
  · exact consumeWS_le s

theorem skipLine_le (s : Reader) : (skipLine s).length ≤ s.length :=
  le_trans (skipEOL_le _) (dropWhile_le _ _)

theorem skipLine_lt {s : Reader} (h : s.ch ≠ 0) : (skipLine s).length < s.length := by
  cases s with
  | nil => simp [Reader.ch] at h
  | cons c s =>
    simp only [Reader.ch, List.headD_cons] at h
    by_cases hc : c = 10
    · subst hc
      simp [skipLine, skipEOL, inLine, Reader.ch, Reader.next]
    · have : inLine c = true := by simp [inLine, h, hc]
      unfold skipLine
      rw [List.dropWhile_cons, if_pos this]
      exact lt_of_le_of_lt (le_trans (skipEOL_le _) (dropWhile_le _ _)) (by simp)

theorem parsePrice_lt {s s' : Reader} {v} (h : parsePrice s = some (v, s')) : s'.length < s.length := by
  simp only [parsePrice] at h
  split at h <;> try cases h
  rename_i s1 h1
  have h1 := consumeRune_some h1
  split at h <;> try cases h
  rename_i s2 h2
  have h2 := parseTriple_lt h2
  split at h <;> try cases h
  rename_i s3 h3
  have h3 := parseTriple_lt h3
  split at h <;> try cases h
  rename_i s4 h4
  have h4 := parseCCY_le h4
  split at h <;> try cases h
  rename_i s5 h5
  have h5 := parseCCYAmt_le h5
  rw [h1]
  simp only [List.length_cons]
  have e1 := skipEOL_le s5
  have e2 := consumeWS_le s1
  have e3 := consumeWS_le s2
  have e4 := consumeWS_le s4
  omega

theorem parsePostingLine_le {als : Aliases} {s s' : Reader} {v} (h : parsePostingLine als s = some (v, s')) :
    s'.length ≤ s.length := by
  simp only [parsePostingLine] at h
  split at h <;> try cases h
  rename_i s1 h1
  have h1 := parseCCYAmt_le h1
  split at h <;> try cases h
  rename_i s2 h2
  have hs2 : s2.length ≤ (consumeWS s1).length := by
    unfold skipAtPrice at h2
    split at h2
    · cases h3 : parseCCYAmt (consumeWS (consumeWS s1).next) with
      | none => rw [h3] at h2; cases h2
      | some x =>
        rw [h3] at h2
        cases h2
        exact le_trans (parseCCYAmt_le h3) (le_trans (consumeWS_le _) (next_le _))
    · cases h2; exact le_refl _
  have e1 := skipEOL_le (parseNote s2).2
  have e2 := parseNote_le s2
  have e3 := consumeWS_le s1
  have e4 := consumeWS_le (parseAccount (consumeWS s)).2
  have e5 := parseAccount_le (consumeWS s)
  have e6 := consumeWS_le s
  have e8 := optMinus_le (consumeWS (parseAccount (consumeWS s)).2)
  omega

theorem parseToEOL_le (s : Reader) : (parseToEOL s).2.length ≤ s.length :=
  le_trans (dropWhile_le _ _) (consumeWS_le s)

theorem parseAlias_le {s s' : Reader} {v} (h : parseAlias s = some (v, s')) : s'.length ≤ s.length := by
  simp only [parseAlias] at h
  split at h <;> try cases h
  rename_i s1 h1
  have h1 := consumeRune_some h1
  split at h <;> try cases h
  have e1 := parseToEOL_le (consumeWS (parseAccount (consumeWS s1)).2)
  have e2 := consumeWS_le (parseAccount (consumeWS s1)).2
  have e3 := parseAccount_le (consumeWS s1)
  have e4 := consumeWS_le s1
  have e5 := consumeWS_le (parseAccount s).2
  have e6 := parseAccount_le s
  rw [h1] at e5
  simp only [List.length_cons] at e5
  omega

theorem parseIdentifier_lt {e : Env} {s : Reader} (h : (parseIdentifier e s).1 ≠ []) :
    (parseIdentifier e s).2.length < s.length := by
  simp only [parseIdentifier] at h ⊢
  have h1 : ((consumeWS s).takeWhile e.isIdent).length ≠ 0 := by
    intro h0; apply h; simp [List.length_eq_zero_iff.1 h0]
  have e1 := span_len e.isIdent (consumeWS s)
  have e2 := consumeWS_le s
  have e3 := consumeWS_le ((consumeWS s).dropWhile e.isIdent)
  omega

/-- Every round of the loop consumes a rune. -/
theorem parseStep_lt {e : Env} {b : Builder} {als : Aliases} {s : Reader} (h : s.ch ≠ 0) :
    (∀ b' als' s', parseStep e b als s = .go b' als' s' → s'.length < s.length) ∧
    (∀ f s', parseStep e b als s = .incl f s' → s'.length < s.length) := by
  have e0 := consumeWS_le s
  have step : ∀ st, parseStep e b als s = st →
      (match (generalizing := false) st with
        | .go _ _ s' => s'.length < s.length
        | .incl _ s' => s'.length < s.length
        | .stop => True) := by
    intro st hst
    simp only [parseStep] at hst
    split at hst
    · rename_i hc
      subst hst
      simp only
      by_cases h0 : (consumeWS s).ch = 0
      · -- the blanks were consumed
        have hne : (consumeWS s).length < s.length ∨ (consumeWS s) = s := by
          by_cases hl : (consumeWS s).length = s.length
          · right
            have := List.takeWhile_append_dropWhile (p := isBlank) (l := s)
            have h2 := span_len isBlank s
            unfold consumeWS at hl ⊢
            have h3 : (s.takeWhile isBlank) = [] := List.length_eq_zero_iff.1 (by omega)
            rw [h3] at this
            simpa using this
          · left; omega
        rcases hne with hne | hne
        · exact lt_of_le_of_lt (skipLine_le _) hne
        · rw [hne] at h0; exact absurd h0 h
      · exact lt_of_lt_of_le (skipLine_lt h0) e0
    · rename_i hc
      simp only [not_or] at hc
      split at hst
      · split at hst
        · subst hst; exact lt_of_lt_of_le (skipLine_lt hc.2.2) e0
        · split at hst
          · split at hst
            · subst hst; trivial
            · subst hst; rename_i h1; exact lt_of_lt_of_le (parsePrice_lt h1) e0
          · split at hst
            · split at hst
              · subst hst; trivial
              · rename_i h1
                split at hst
                · subst hst; trivial
                · subst hst; exact lt_of_lt_of_le (parseTransaction_lt h1) e0
            · split at hst
              · rename_i hcmd
                have e1 := parseIdentifier_lt (e := e) (s := consumeWS s) (by rw [hcmd]; decide)
                split at hst
                · subst hst; trivial
                · subst hst
                  have e2 := parseToEOL_le (parseIdentifier e (consumeWS s)).2
                  simp only
                  omega
              · split at hst
                · rename_i hcmd
                  have e1 := parseIdentifier_lt (e := e) (s := consumeWS s) (by rw [hcmd]; decide)
                  split at hst
                  · subst hst; trivial
                  · rename_i h1
                    subst hst
                    have e2 := parseAlias_le h1
                    simp only
                    omega
                · subst hst; trivial
      · rename_i hlen
        split at hst
        · subst hst; trivial
        · rename_i h1
          subst hst
          have := parsePostingLine_le h1
          simp only
          omega
  refine ⟨?_, ?_⟩
  · intro b' als' s' h'; exact step _ h'
  · intro f s' h'; exact step _ h'

/-- The number of rounds granted does not matter once it exceeds the number of runes. -/
theorem parseLoop_fuel (e : Env) (fn : Str) (inc : Builder → Aliases → Str → Outcome) (f g : Nat) :
    ∀ (b : Builder) (als : Aliases) (s : Reader), s.length < f → s.length < g →
      parseLoop e fn inc f b als s = parseLoop e fn inc g b als s := by
  induction f generalizing g with
  | zero => intro b als s h; omega
  | succ f ih =>
    intro b als s hf hg
    cases g with
    | zero => omega
    | succ g =>
      simp only [parseLoop]
      split
      · rfl
      · rename_i hc
        obtain ⟨h1, h2⟩ := parseStep_lt (e := e) (b := b) (als := als) hc
        cases hst : parseStep e b als s with
        | stop => rfl
        | go b' als' s' =>
          have := h1 _ _ _ hst
          exact ih g _ _ _ (by omega) (by omega)
        | incl file s' =>
          have := h2 _ _ hst
          simp only
          cases inc b als (e.join fn file) with
          | ok b2 a2 => exact ih g _ _ _ (by omega) (by omega)
          | err => rfl
          | fatal => rfl
          | running => rfl

/-! ## Locality: a reader does not look beyond the end of the line -/

theorem takeWhile_app {p : Nat → Bool} (hp : p 10 = false) {s : List Nat} (h : 10 ∈ s) (t : List Nat) :
    (s ++ t).takeWhile p = s.takeWhile p := by
  induction s with
  | nil => simp at h
  | cons c s ih =>
    simp only [List.cons_append, List.takeWhile_cons]
    split
    · rename_i hc
      rw [ih]
      rcases List.mem_cons.1 h with h | h
      · rw [← h] at hc; rw [hp] at hc; cases hc
      · exact h
    · rfl

theorem dropWhile_app {p : Nat → Bool} (hp : p 10 = false) {s : List Nat} (h : 10 ∈ s) (t : List Nat) :
    (s ++ t).dropWhile p = s.dropWhile p ++ t := by
  induction s with
  | nil => simp at h
  | cons c s ih =>
    simp only [List.cons_append, List.dropWhile_cons]
    split
    · rename_i hc
      rw [ih]
      rcases List.mem_cons.1 h with h | h
      · rw [← h] at hc; rw [hp] at hc; cases hc
      · exact h
    · rfl

theorem mem_dropWhile {p : Nat → Bool} (hp : p 10 = false) {s : List Nat} (h : 10 ∈ s) : 10 ∈ s.dropWhile p := by
  have := List.takeWhile_append_dropWhile (p := p) (l := s)
  rw [← this] at h
  rcases List.mem_append.1 h with h | h
  · have := List.all_takeWhile (l := s) (p := p); rw [List.all_eq_true] at this; have := this _ h; rw [hp] at this; cases this
  · exact h

theorem ch_app {s : Reader} (h : 10 ∈ s) (t : Reader) : Reader.ch (s ++ t) = Reader.ch s := by
  cases s with
  | nil => simp at h
  | cons c s => rfl

theorem next_app {s : Reader} (h : 10 ∈ s) (t : Reader) : Reader.next (s ++ t) = Reader.next s ++ t := by
  cases s with
  | nil => simp at h
  | cons c s => rfl

theorem mem_next {s : Reader} (h : 10 ∈ s) (hc : Reader.ch s ≠ 10) : 10 ∈ Reader.next s := by
  cases s with
  | nil => simp at h
  | cons c s =>
    simp only [Reader.ch, List.headD_cons] at hc
    rcases List.mem_cons.1 h with h | h
    · exact absurd h.symm hc
    · exact h

/-- A reader function that does not look beyond the end of the line and stays before it. -/
def Loc {α : Type} (f : Reader → Option (α × Reader)) : Prop :=
  ∀ s, 10 ∈ s → (∀ t, f (s ++ t) = (f s).map (fun x => (x.1, x.2 ++ t))) ∧ ∀ v r, f s = some (v, r) → 10 ∈ r

/-- The same for readers that only move. -/
def LocR (f : Reader → Reader) : Prop := ∀ s, 10 ∈ s → (∀ t, f (s ++ t) = f s ++ t) ∧ 10 ∈ f s

theorem Loc.bind {α β : Type} {f : Reader → Option (α × Reader)} {g : α → Reader → Option (β × Reader)}
    (hf : Loc f) (hg : ∀ a, Loc (g a)) : Loc (fun s => (f s).bind fun x => g x.1 x.2) := by
  intro s hs
  obtain ⟨h1, h2⟩ := hf s hs
  cases h : f s with
  | none => simp [h1, h]
  | some x =>
    obtain ⟨a, r⟩ := x
    have h3 := hg a r (h2 a r h)
    refine ⟨?_, ?_⟩
    · intro t; simp only [h1, h, Option.map_some, Option.bind_some]; exact h3.1 t
    · intro v r' hv; simp only [h, Option.bind_some] at hv; exact h3.2 v r' hv

theorem Loc.pre {α : Type} {f : Reader → Option (α × Reader)} {g : Reader → Reader} (hf : Loc f) (hg : LocR g) :
    Loc (fun s => f (g s)) := by
  intro s hs
  obtain ⟨h1, h2⟩ := hg s hs
  obtain ⟨h3, h4⟩ := hf _ h2
  exact ⟨fun t => by simp only [h1, h3], h4⟩

theorem Loc.map {α β : Type} {f : Reader → Option (α × Reader)} (hf : Loc f) (g : α → β) :
    Loc (fun s => (f s).map fun x => (g x.1, x.2)) := by
  intro s hs
  obtain ⟨h1, h2⟩ := hf s hs
  refine ⟨?_, ?_⟩
  · intro t; simp only [h1]; cases f s <;> rfl
  · intro v r hv
    simp only [Option.map_eq_some_iff] at hv
    obtain ⟨x, h, hv⟩ := hv
    cases hv; exact h2 x.1 x.2 h

theorem LocR.comp {f g : Reader → Reader} (hf : LocR f) (hg : LocR g) : LocR (fun s => f (g s)) := by
  intro s hs
  obtain ⟨h1, h2⟩ := hg s hs
  obtain ⟨h3, h4⟩ := hf _ h2
  exact ⟨fun t => by simp only [h1, h3], h4⟩

theorem locR_dropWhile {p : Nat → Bool} (hp : p 10 = false) : LocR (fun s => s.dropWhile p) :=
  fun _ hs => ⟨fun t => dropWhile_app hp hs t, mem_dropWhile hp hs⟩

theorem locR_ws : LocR consumeWS := locR_dropWhile (by decide)

/-- skip a rune that is not the end of the line -/
theorem locR_skip (q : Nat → Bool) (hq : q 10 = false) : LocR (fun s => if q (Reader.ch s) = true then Reader.next s else s) := by
  intro s hs
  refine ⟨?_, ?_⟩
  · intro t
    simp only [ch_app hs]
    split
    · exact next_app hs t
    · rfl
  · simp only
    split
    · rename_i h
      exact mem_next hs (by intro h0; rw [h0, hq] at h; cases h)
    · exact hs

theorem loc_span {p : Nat → Bool} (hp : p 10 = false) : Loc (fun s => some (s.takeWhile p, s.dropWhile p)) := by
  intro s hs
  refine ⟨?_, ?_⟩
  · intro t; simp [takeWhile_app hp hs, dropWhile_app hp hs]
  · intro v r h; cases h; exact mem_dropWhile hp hs

/-- `consumeRune` with a dummy value. -/
theorem loc_rune {e : Nat} (he : e ≠ 10) : Loc (fun s => (consumeRune e s).map fun r => ((), r)) := by
  intro s hs
  cases s with
  | nil => simp at hs
  | cons c s =>
    refine ⟨?_, ?_⟩
    · intro t
      simp only [List.cons_append, consumeRune]
      split <;> simp
    · intro v r h
      simp only [consumeRune] at h
      split at h
      · rename_i hc
        cases h
        rcases List.mem_cons.1 hs with h | h
        · omega
        · exact h
      · cases h

theorem loc_number (lo hi : Nat) : Loc (parseNumber lo hi) := by
  intro s hs
  have hp : isDigit 10 = false := by decide
  refine ⟨?_, ?_⟩
  · intro t
    simp only [parseNumber, takeWhile_app hp hs, dropWhile_app hp hs]
    split <;> simp
  · intro v r h
    simp only [parseNumber] at h
    split at h
    · cases h
    · cases h; exact mem_dropWhile hp hs

theorem loc_triple (w sep : Nat) (hsep : sep ≠ 10) : Loc (parseTriple w sep) := by
  have h : parseTriple w sep = fun s => (parseNumber 1 w s).bind fun x =>
      (((consumeRune sep x.2).map fun r => ((), r)).bind fun y =>
      ((parseNumber 1 2 y.2).bind fun z =>
      (((consumeRune sep z.2).map fun r => ((), r)).bind fun u =>
      ((parseNumber 1 2 u.2).map fun w => ((x.1 * 100 + z.1) * 100 + w.1, w.2))))) := by
    funext s
    simp only [parseTriple]
    cases parseNumber 1 w s with
    | none => rfl
    | some x =>
      simp only [Option.bind_some]
      cases consumeRune sep x.2 with
      | none => rfl
      | some y =>
        simp only [Option.map_some, Option.bind_some]
        cases parseNumber 1 2 y with
        | none => rfl
        | some z =>
          simp only [Option.bind_some]
          cases consumeRune sep z.2 with
          | none => rfl
          | some u =>
            simp only [Option.map_some, Option.bind_some]
            cases parseNumber 1 2 u <;> rfl
  rw [h]
  exact Loc.bind (loc_number 1 w) fun a => Loc.bind (loc_rune hsep) fun _ => Loc.bind (loc_number 1 2) fun b =>
    Loc.bind (loc_rune hsep) fun _ => Loc.map (loc_number 1 2) fun c => (a * 100 + b) * 100 + c

theorem loc_quoted : Loc parseQuotedString := by
  have h : parseQuotedString = fun s => ((consumeRune 34 s).map fun r => ((), r)).bind fun x =>
      ((some ((x.2.takeWhile fun c => inLine c && c != 34), (x.2.dropWhile fun c => inLine c && c != 34)) : Option (Str × Reader)).bind fun y =>
        (((consumeRune 34 y.2).map fun r => ((), r)).map fun z => (y.1, z.2))) := by
    funext s
    simp only [parseQuotedString]
    cases consumeRune 34 s with
    | none => rfl
    | some x =>
      simp only [Option.map_some, Option.bind_some]
      cases consumeRune 34 (x.dropWhile fun c => inLine c && c != 34) <;> rfl
  rw [h]
  exact Loc.bind (loc_rune (by decide)) fun _ => Loc.bind (loc_span (p := fun c => inLine c && c != 34) (by decide)) fun a =>
    Loc.map (loc_rune (by decide)) (fun _ => a)

theorem amtLoop_app (d : Bool) (n m : Int) (s : Reader) (hs : 10 ∈ s) :
    (∀ t, amtLoop d n m (s ++ t) = ((amtLoop d n m s).1, (amtLoop d n m s).2.1, (amtLoop d n m s).2.2 ++ t)) ∧
    10 ∈ (amtLoop d n m s).2.2 := by
  induction s generalizing d n m with
  | nil => simp at hs
  | cons c s ih =>
    have hm : c ≠ 10 → 10 ∈ s := by
      intro hc
      rcases List.mem_cons.1 hs with h | h
      · exact absurd h.symm hc
      · exact h
    simp only [List.cons_append, amtLoop]
    split
    · exact ih _ _ _ (hm (by rintro rfl; rename_i h; revert h; decide))
    · split
      · exact ih _ _ _ (hm (by rintro rfl; rename_i h; revert h; cases d <;> decide))
      · split
        · exact ih _ _ _ (hm (by rintro rfl; rename_i h; revert h; decide))
        · exact ⟨fun t => rfl, hs⟩

theorem optMinus_app {s : Reader} (hs : 10 ∈ s) :
    (∀ t, optMinus (s ++ t) = ((optMinus s).1, (optMinus s).2 ++ t)) ∧ 10 ∈ (optMinus s).2 := by
  unfold optMinus
  refine ⟨?_, ?_⟩
  · intro t
    rw [ch_app hs, next_app hs]
    split <;> rfl
  · split
    · rename_i h; exact mem_next hs (by omega)
    · exact hs

theorem loc_amt : Loc parseAmt := by
  intro s hs
  obtain ⟨w1, w2⟩ := locR_ws s hs
  obtain ⟨n1, n2⟩ := optMinus_app w2
  obtain ⟨a1, a2⟩ := amtLoop_app false 0 1 _ n2
  refine ⟨?_, ?_⟩
  · intro t
    simp only [parseAmt, w1, n1, a1, Option.map_map]
    rfl
  · intro v r h
    simp only [parseAmt, Option.map_eq_some_iff] at h
    obtain ⟨_, _, h⟩ := h
    cases h; exact a2

theorem loc_ccy : Loc parseCCY := by
  intro s hs
  obtain ⟨w1, w2⟩ := locR_ws s hs
  have q := loc_quoted _ w2
  have r := loc_span (p := isCCYRune) (by decide) _ w2
  refine ⟨?_, ?_⟩
  · intro t
    simp only [parseCCY, w1, ch_app w2]
    split
    · exact q.1 t
    · exact r.1 t
  · intro v r' h
    simp only [parseCCY] at h
    split at h
    · exact q.2 _ _ h
    · exact r.2 _ _ h

theorem loc_ccyAmt : Loc parseCCYAmt := by
  have h1 : Loc (fun s => (parseCCY s).bind fun x => (parseAmt x.2).map fun y => ((x.1, y.1), y.2)) :=
    Loc.bind loc_ccy fun a => Loc.map loc_amt fun b => (a, b)
  have h2 : Loc (fun s => (parseAmt s).bind fun x => (parseCCY x.2).map fun y => ((y.1, x.1), y.2)) :=
    Loc.bind loc_amt fun a => Loc.map loc_ccy fun b => (b, a)
  have e : parseCCYAmt = fun s => if Reader.ch s = 34 ∨ isCCYRune (Reader.ch s) = true
      then (parseCCY s).bind fun x => (parseAmt x.2).map fun y => ((x.1, y.1), y.2)
      else (parseAmt s).bind fun x => (parseCCY x.2).map fun y => ((y.1, x.1), y.2) := by
    funext s
    simp only [parseCCYAmt]
    split
    · cases parseCCY s with
      | none => rfl
      | some x => simp only [Option.bind_some]; cases parseAmt x.2 <;> rfl
    · cases parseAmt s with
      | none => rfl
      | some x => simp only [Option.bind_some]; cases parseCCY x.2 <;> rfl
  rw [e]
  intro s hs
  refine ⟨?_, ?_⟩
  · intro t
    simp only [ch_app hs]
    split
    · exact (h1 s hs).1 t
    · exact (h2 s hs).1 t
  · intro v r h
    simp only at h
    split at h
    · exact (h1 s hs).2 _ _ h
    · exact (h2 s hs).2 _ _ h

theorem loc_note : Loc (fun s => some (parseNote s)) := by
  intro s hs
  obtain ⟨w1, w2⟩ := locR_ws s hs
  refine ⟨?_, ?_⟩
  · intro t
    simp only [parseNote, w1, ch_app w2]
    split
    · rfl
    · rename_i h
      have hn := mem_next w2 (by omega)
      obtain ⟨v1, v2⟩ := locR_ws _ hn
      have := (loc_span (p := inLine) (by decide) _ v2).1 t
      rw [next_app w2, v1]
      simpa using this
  · intro v r h
    simp only [parseNote] at h
    split at h
    · cases h; exact w2
    · rename_i h0
      have hn := mem_next w2 (by omega)
      obtain ⟨v1, v2⟩ := locR_ws _ hn
      cases h
      exact mem_dropWhile (by decide) v2

theorem loc_payee : Loc parsePayee := by
  intro s hs
  obtain ⟨w1, w2⟩ := locR_ws s hs
  have q := (Loc.map loc_quoted trimSpace) _ w2
  have r := (Loc.map (loc_span (p := fun c => inLine c && c != 59) (by decide)) trimSpace) _ w2
  refine ⟨?_, ?_⟩
  · intro t
    simp only [parsePayee, w1, ch_app w2]
    split
    · exact q.1 t
    · exact r.1 t
  · intro v r' h
    simp only [parsePayee] at h
    split at h
    · exact q.2 _ _ h
    · exact r.2 _ _ h

theorem loc_acct : Loc (fun s => some (parseAccount s)) := by
  intro s hs
  obtain ⟨w1, w2⟩ := locR_ws s hs
  have n := locR_skip (fun c => decide (c = 33 ∨ c = 91)) (by decide) _ w2
  simp only [decide_eq_true_eq] at n
  have r := loc_span (p := isAcctRune) (by decide) _ n.2
  have m := locR_skip (fun c => decide (c = 93)) (by decide) _ (mem_dropWhile (p := isAcctRune) (by decide) n.2)
  simp only [decide_eq_true_eq] at m
  refine ⟨?_, ?_⟩
  · intro t
    have n1 := n.1 t
    have r1 := r.1 t
    have m1 := m.1 t
    simp only [Option.map_some, Option.some.injEq, Prod.mk.injEq] at r1
    simp only [parseAccount, w1, n1, r1.1, r1.2, m1, Option.map_some]
  · intro v r' h
    simp only [parseAccount] at h
    cases h; exact m.2

theorem loc_toEOL : Loc (fun s => some (parseToEOL s)) := by
  intro s hs
  obtain ⟨w1, w2⟩ := locR_ws s hs
  have := loc_span (p := inLine) (by decide) _ w2
  refine ⟨?_, ?_⟩
  · intro t; simp only [parseToEOL, w1]; exact this.1 t
  · intro v r h; exact this.2 v r h

theorem skipEOL_app {s : Reader} (h : 10 ∈ s) (t : Reader) : skipEOL (s ++ t) = skipEOL s ++ t := by
  unfold skipEOL
  rw [ch_app h, next_app h]
  split <;> rfl

/-- A reader function that does not look beyond the end of the line but may move past it. -/
def LocEnd {α : Type} (f : Reader → Option (α × Reader)) : Prop :=
  ∀ s, 10 ∈ s → ∀ t, f (s ++ t) = (f s).map (fun x => (x.1, x.2 ++ t))

theorem Loc.eol {α : Type} {f : Reader → Option (α × Reader)} (h : Loc f) :
    LocEnd (fun s => (f s).map fun x => (x.1, skipEOL x.2)) := by
  intro s hs t
  obtain ⟨h1, h2⟩ := h s hs
  simp only [h1]
  cases hf : f s with
  | none => rfl
  | some x =>
    have := h2 x.1 x.2 hf
    simp [skipEOL_app this]

theorem locEnd_transaction : LocEnd parseTransaction := by
  have star : LocR (fun s => (fun s => if Reader.ch s = 42 then consumeWS (Reader.next s) else s) (consumeWS s)) := by
    refine LocR.comp (f := fun s => if Reader.ch s = 42 then consumeWS (Reader.next s) else s) ?_ locR_ws
    intro s hs
    refine ⟨?_, ?_⟩
    · intro t
      simp only [ch_app hs, next_app hs]
      split
      · rename_i h
        exact (locR_ws _ (mem_next hs (by omega))).1 t
      · rfl
    · simp only
      split
      · rename_i h
        exact (locR_ws _ (mem_next hs (by omega))).2
      · exact hs
  have h : parseTransaction = fun s => ((fun s => (parseDate s).bind fun x =>
      ((fun s => parsePayee ((fun s => (fun s => if Reader.ch s = 42 then consumeWS (Reader.next s) else s) (consumeWS s)) s)) x.2).bind fun y =>
      ((fun s => some (parseNote s)) y.2).map fun z => ((x.1, y.1, z.1), z.2)) s).map fun x => (x.1, skipEOL x.2) := by
    funext s
    simp only [parseTransaction]
    cases parseDate s with
    | none => rfl
    | some x =>
      simp only [Option.bind_some]
      cases parsePayee (if (consumeWS x.2).ch = 42 then consumeWS (consumeWS x.2).next else consumeWS x.2) <;> rfl
  rw [h]
  exact Loc.eol (Loc.bind (loc_triple 4 47 (by decide)) fun d => Loc.bind (Loc.pre loc_payee star) fun p =>
    Loc.map loc_note fun n => (d, p, n))

theorem locEnd_price : LocEnd parsePrice := by
  have h : parsePrice = fun s => ((fun s => ((consumeRune 80 s).map fun r => ((), r)).bind fun u =>
      ((fun s => parseDate (consumeWS s)) u.2).bind fun d =>
      ((fun s => parseTime (consumeWS s)) d.2).bind fun u =>
      (parseCCY u.2).bind fun c => ((fun s => parseCCYAmt (consumeWS s)) c.2).map fun a => ((d.1, c.1, a.1.1, a.1.2), a.2)) s).map
        fun x => (x.1, skipEOL x.2) := by
    funext s
    simp only [parsePrice]
    cases consumeRune 80 s with
    | none => rfl
    | some u =>
      simp only [Option.map_some, Option.bind_some]
      cases parseDate (consumeWS u) with
      | none => rfl
      | some d =>
        simp only [Option.bind_some]
        cases parseTime (consumeWS d.2) with
        | none => rfl
        | some w =>
          simp only [Option.bind_some]
          cases parseCCY w.2 with
          | none => rfl
          | some c =>
            simp only [Option.bind_some]
            cases parseCCYAmt (consumeWS c.2) <;> rfl
  rw [h]
  exact Loc.eol (Loc.bind (loc_rune (by decide)) fun _ => Loc.bind (Loc.pre (loc_triple 4 47 (by decide)) locR_ws) fun d =>
    Loc.bind (Loc.pre (loc_triple 2 58 (by decide)) locR_ws) fun _ => Loc.bind loc_ccy fun c =>
    Loc.map (Loc.pre loc_ccyAmt locR_ws) fun a => (d, c, a.1, a.2))

theorem locEnd_posting (als : Aliases) : LocEnd (parsePostingLine als) := by
  have minus : Loc (fun s => some (optMinus s)) := by
    intro s hs
    obtain ⟨h1, h2⟩ := optMinus_app hs
    exact ⟨fun t => by simp [h1], fun v r h => by rw [Option.some.injEq] at h; rw [h] at h2; exact h2⟩
  have at_ : Loc (fun s => (skipAtPrice s).map fun r => ((), r)) := by
    intro s hs
    have hm : (Reader.ch s = 64) → 10 ∈ consumeWS (Reader.next s) := fun h => (locR_ws _ (mem_next hs (by omega))).2
    refine ⟨?_, ?_⟩
    · intro t
      simp only [skipAtPrice, ch_app hs, next_app hs]
      split
      · rename_i h
        rw [(locR_ws _ (mem_next hs (by omega))).1, (loc_ccyAmt _ (hm h)).1]
        cases parseCCYAmt (consumeWS (Reader.next s)) <;> rfl
      · rfl
    · intro v r h
      simp only [skipAtPrice] at h
      split at h
      · rename_i h0
        cases hx : parseCCYAmt (consumeWS (Reader.next s)) with
        | none => rw [hx] at h; cases h
        | some x => rw [hx] at h; cases h; exact (loc_ccyAmt _ (hm h0)).2 _ _ hx
      · cases h; exact hs
  have h : parsePostingLine als = fun s => ((fun s => ((fun s => (fun s => some (parseAccount s)) (consumeWS s)) s).bind fun a =>
      ((fun s => (fun s => some (optMinus s)) (consumeWS s)) a.2).bind fun m =>
      (parseCCYAmt m.2).bind fun c =>
      ((fun s => (fun s => (skipAtPrice s).map fun r => ((), r)) (consumeWS s)) c.2).bind fun u =>
      ((fun s => some (parseNote s)) u.2).map fun n => ((als.resolve a.1, c.1.1, (if m.1 then -c.1.2 else c.1.2), n.1), n.2)) s).map
        fun x => (x.1, skipEOL x.2) := by
    funext s
    simp only [parsePostingLine, Option.bind_some]
    cases parseCCYAmt (optMinus (consumeWS (parseAccount (consumeWS s)).2)).2 with
    | none => rfl
    | some c =>
      simp only [Option.bind_some]
      cases skipAtPrice (consumeWS c.2) <;> rfl
  rw [h]
  exact Loc.eol (Loc.bind (Loc.pre loc_acct locR_ws) fun a => Loc.bind (Loc.pre minus locR_ws) fun m => Loc.bind loc_ccyAmt fun c =>
    Loc.bind (Loc.pre at_ locR_ws) fun _ => Loc.map loc_note fun n => (als.resolve a, c.1, (if m then -c.2 else c.2), n))

theorem loc_alias : Loc parseAlias := by
  have tail : ∀ short : Str, Loc (fun s => (fun s => ((fun s => some (parseAccount s)) (consumeWS s)).bind fun l =>
      ((fun s => if l.1 = [] then none else (some (parseToEOL s)).map fun x => ((short, l.1), x.2)) (consumeWS l.2))) s) := by
    intro short
    refine Loc.bind (g := fun l s => (fun s => if l = [] then none else (some (parseToEOL s)).map fun x => ((short, l), x.2)) (consumeWS s))
      (Loc.pre loc_acct locR_ws) fun l => ?_
    by_cases hl : l = []
    · intro s hs; simp [hl]
    · simp only [if_neg hl]
      exact Loc.pre (Loc.map loc_toEOL fun _ => (short, l)) locR_ws
  have h : parseAlias = fun s => ((fun s => some (parseAccount s)) s).bind fun a =>
      ((fun s => (consumeRune 61 (consumeWS s)).map fun r => ((), r)) a.2).bind fun u =>
      (fun s => (fun s => ((fun s => some (parseAccount s)) (consumeWS s)).bind fun l =>
      ((fun s => if l.1 = [] then none else (some (parseToEOL s)).map fun x => ((a.1, l.1), x.2)) (consumeWS l.2))) s) u.2 := by
    funext s
    simp only [parseAlias, Option.bind_some]
    cases consumeRune 61 (consumeWS (parseAccount s).2) with
    | none => rfl
    | some u =>
      simp only [Option.map_some, Option.bind_some]
  rw [h]
  exact Loc.bind loc_acct fun a => Loc.bind (Loc.pre (loc_rune (by decide)) locR_ws) fun _ => tail a

theorem loc_ident {e : Env} (he : e.letter 10 = false) : Loc (fun s => some (parseIdentifier e s)) := by
  have hp : e.isIdent 10 = false := by simp [Env.isIdent, he]
  intro s hs
  obtain ⟨w1, w2⟩ := locR_ws s hs
  obtain ⟨v1, v2⟩ := locR_ws _ (mem_dropWhile hp w2)
  refine ⟨?_, ?_⟩
  · intro t
    simp only [parseIdentifier, w1, takeWhile_app hp w2, dropWhile_app hp w2, v1, Option.map_some]
  · intro v r h
    simp only [parseIdentifier] at h
    cases h; exact v2

theorem skipLine_app {s : Reader} (h : 10 ∈ s) (t : Reader) : skipLine (s ++ t) = skipLine s ++ t := by
  unfold skipLine
  rw [dropWhile_app (by decide) h, skipEOL_app (mem_dropWhile (by decide) h)]

/-- Append text to what a round leaves. -/
def Step.app : Step → Reader → Step
  | .go b als s, t => .go b als (s ++ t)
  | .incl f s, t => .incl f (s ++ t)
  | .stop, _ => .stop

/-- A round of the loop does not look beyond the end of the line. -/
theorem parseStep_app {e : Env} (he : e.letter 10 = false) (b : Builder) (als : Aliases) {s : Reader} (h : 10 ∈ s) (t : Reader) :
    parseStep e b als (s ++ t) = (parseStep e b als s).app t := by
  obtain ⟨w1, w2⟩ := locR_ws s h
  have hlen : ((consumeWS s ++ t).length = (s ++ t).length) ↔ (consumeWS s).length = s.length := by
    simp
  simp only [parseStep, w1, ch_app w2, hlen]
  have htoEOL : ∀ s', 10 ∈ s' → parseToEOL (s' ++ t) = ((parseToEOL s').1, (parseToEOL s').2 ++ t) := by
    intro s' hs'
    simpa using (loc_toEOL s' hs').1 t
  split
  · rw [skipLine_app w2]; rfl
  · split
    · split
      · rw [skipLine_app w2]; rfl
      · split
        · rw [locEnd_price _ w2]
          cases parsePrice (consumeWS s) <;> rfl
        · split
          · rw [locEnd_transaction _ w2]
            cases parseTransaction (consumeWS s) with
            | none => rfl
            | some x =>
              obtain ⟨⟨d, p, n⟩, r⟩ := x
              simp only [Option.map_some]
              cases b.newTransaction d p n <;> rfl
          · have hi := (loc_ident he _ w2)
            have hi1 := hi.1 t
            simp only [Option.map_some, Option.some.injEq] at hi1
            have hi2 : 10 ∈ (parseIdentifier e (consumeWS s)).2 := hi.2 _ _ rfl
            rw [hi1]
            simp only
            split
            · rw [htoEOL _ hi2]
              simp only
              cases unquote (parseToEOL (parseIdentifier e (consumeWS s)).2).1 <;> rfl
            · split
              · rw [(loc_alias _ hi2).1]
                cases parseAlias (parseIdentifier e (consumeWS s)).2 <;> rfl
              · rfl
    · rw [locEnd_posting als _ w2]
      cases parsePostingLine als (consumeWS s) <;> rfl

end Verif
