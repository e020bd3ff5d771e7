import Verif.Proofs.Loader

/-! # The loader: what is left is a suffix, and reading on after a complete line -/

namespace Verif

theorem consumeWS_suf (s : Reader) : consumeWS s <:+ s := List.dropWhile_suffix _

theorem next_suf (s : Reader) : s.next <:+ s := List.tail_suffix _

theorem skipEOL_suf (s : Reader) : skipEOL s <:+ s := by
  unfold skipEOL; split
  · exact next_suf s
  · exact List.suffix_refl _

theorem skipLine_suf (s : Reader) : skipLine s <:+ s := (skipEOL_suf _).trans (List.dropWhile_suffix _)

theorem consumeRune_suf {e : Nat} {s s' : Reader} (h : consumeRune e s = some s') : s' <:+ s := by
  rw [consumeRune_some h]; exact List.suffix_cons _ _

theorem parseNumber_suf {lo hi : Nat} {s s' : Reader} {v : Int} (h : parseNumber lo hi s = some (v, s')) : s' <:+ s := by
  simp only [parseNumber] at h
  split at h
  · cases h
  · cases h; exact List.dropWhile_suffix _

theorem parseTriple_suf {w sep : Nat} {s s' : Reader} {v : Int} (h : parseTriple w sep s = some (v, s')) : s' <:+ s := by
  simp only [parseTriple] at h
  split at h <;> try cases h
  rename_i h1
  split at h <;> try cases h
  rename_i h2
  split at h <;> try cases h
  rename_i h3
  split at h <;> try cases h
  rename_i h4
  split at h <;> try cases h
  rename_i h5
  exact (parseNumber_suf h5).trans ((consumeRune_suf h4).trans ((parseNumber_suf h3).trans
    ((consumeRune_suf h2).trans (parseNumber_suf h1))))

theorem parseQuotedString_suf {s s' : Reader} {v : Str} (h : parseQuotedString s = some (v, s')) : s' <:+ s := by
  simp only [parseQuotedString] at h
  split at h <;> try cases h
  rename_i s1 h1
  split at h <;> try cases h
  rename_i s2 h2
  exact (consumeRune_suf h2).trans ((List.dropWhile_suffix _).trans (consumeRune_suf h1))

theorem amtLoop_suf (d : Bool) (n m : Int) (s : Reader) : (amtLoop d n m s).2.2 <:+ s := by
  induction s generalizing d n m with
  | nil => simp [amtLoop]
  | cons c s ih =>
    simp only [amtLoop]
    split
    · exact (ih _ _ _).trans (List.suffix_cons _ _)
    · split
      · exact (ih _ _ _).trans (List.suffix_cons _ _)
      · split
        · exact (ih _ _ _).trans (List.suffix_cons _ _)
        · exact List.suffix_refl _

theorem optMinus_suf (s : Reader) : (optMinus s).2 <:+ s := by
  unfold optMinus; split
  · exact next_suf s
  · exact List.suffix_refl _

theorem parseAmt_suf {s s' : Reader} {v : Rat} (h : parseAmt s = some (v, s')) : s' <:+ s := by
  simp only [parseAmt, Option.map_eq_some_iff] at h
  obtain ⟨_, _, h⟩ := h
  cases h
  exact (amtLoop_suf _ _ _ _).trans ((optMinus_suf _).trans (consumeWS_suf s))

theorem parseCCY_suf {s s' : Reader} {v : Str} (h : parseCCY s = some (v, s')) : s' <:+ s := by
  simp only [parseCCY] at h
  split at h
  · exact (parseQuotedString_suf h).trans (consumeWS_suf s)
  · cases h
    exact (List.dropWhile_suffix _).trans (consumeWS_suf s)

theorem parseCCYAmt_suf {s s' : Reader} {v : Str × Rat} (h : parseCCYAmt s = some (v, s')) : s' <:+ s := by
  simp only [parseCCYAmt] at h
  split at h
  · split at h <;> try cases h
    rename_i h1
    split at h <;> try cases h
    rename_i h2
    exact (parseAmt_suf h2).trans (parseCCY_suf h1)
  · split at h <;> try cases h
    rename_i h1
    split at h <;> try cases h
    rename_i h2
    exact (parseCCY_suf h2).trans (parseAmt_suf h1)

theorem parseNote_suf (s : Reader) : (parseNote s).2 <:+ s := by
  simp only [parseNote]
  split
  · exact consumeWS_suf s
  · exact (List.dropWhile_suffix _).trans ((consumeWS_suf _).trans ((next_suf _).trans (consumeWS_suf s)))

theorem parsePayee_suf {s s' : Reader} {v : Str} (h : parsePayee s = some (v, s')) : s' <:+ s := by
  simp only [parsePayee] at h
  split at h
  · simp only [Option.map_eq_some_iff] at h
    obtain ⟨⟨a, r⟩, h1, h⟩ := h
    cases h
    exact (parseQuotedString_suf h1).trans (consumeWS_suf s)
  · cases h
    exact (List.dropWhile_suffix _).trans (consumeWS_suf s)

theorem parseTransaction_suf {s s' : Reader} {v} (h : parseTransaction s = some (v, s')) : s' <:+ s := by
  simp only [parseTransaction] at h
  split at h <;> try cases h
  rename_i s1 h1
  split at h <;> try cases h
  rename_i h2
  refine (skipEOL_suf _).trans ((parseNote_suf _).trans ((parsePayee_suf h2).trans (List.IsSuffix.trans ?_ (parseTriple_suf h1))))
  split
  · exact (consumeWS_suf _).trans ((next_suf _).trans (consumeWS_suf _))
  · exact consumeWS_suf _

theorem parseAccount_suf (s : Reader) : (parseAccount s).2 <:+ s := by
  simp only [parseAccount]
  have h : ∀ x : Reader, (if x.ch = 93 then x.next else x) <:+ x := by
    intro x; split
    · exact next_suf x
    · exact List.suffix_refl _
  refine (h _).trans ((List.dropWhile_suffix _).trans ?_)
  split
  · exact (next_suf _).trans (consumeWS_suf s)
  · exact consumeWS_suf s

theorem parsePrice_suf {s s' : Reader} {v} (h : parsePrice s = some (v, s')) : s' <:+ s := by
  simp only [parsePrice] at h
  split at h <;> try cases h
  rename_i s1 h1
  split at h <;> try cases h
  rename_i s2 h2
  split at h <;> try cases h
  rename_i s3 h3
  split at h <;> try cases h
  rename_i s4 h4
  split at h <;> try cases h
  rename_i s5 h5
  exact (skipEOL_suf _).trans ((parseCCYAmt_suf h5).trans ((consumeWS_suf _).trans ((parseCCY_suf h4).trans
    ((parseTriple_suf h3).trans ((consumeWS_suf _).trans ((parseTriple_suf h2).trans
    ((consumeWS_suf _).trans (consumeRune_suf h1))))))))

theorem skipAtPrice_suf {s s' : Reader} (h : skipAtPrice s = some s') : s' <:+ s := by
  unfold skipAtPrice at h
  split at h
  · simp only [Option.map_eq_some_iff] at h
    obtain ⟨⟨a, r⟩, h1, h⟩ := h
    cases h
    exact (parseCCYAmt_suf h1).trans ((consumeWS_suf _).trans (next_suf _))
  · cases h; exact List.suffix_refl _

theorem parsePostingLine_suf {als : Aliases} {s s' : Reader} {v} (h : parsePostingLine als s = some (v, s')) : s' <:+ s := by
  simp only [parsePostingLine] at h
  split at h <;> try cases h
  rename_i s1 h1
  split at h <;> try cases h
  rename_i s2 h2
  exact (skipEOL_suf _).trans ((parseNote_suf _).trans ((skipAtPrice_suf h2).trans ((consumeWS_suf _).trans
    ((parseCCYAmt_suf h1).trans ((optMinus_suf _).trans ((consumeWS_suf _).trans ((parseAccount_suf _).trans (consumeWS_suf s))))))))

theorem parseToEOL_suf (s : Reader) : (parseToEOL s).2 <:+ s := (List.dropWhile_suffix _).trans (consumeWS_suf s)

theorem parseAlias_suf {s s' : Reader} {v} (h : parseAlias s = some (v, s')) : s' <:+ s := by
  simp only [parseAlias] at h
  split at h <;> try cases h
  rename_i s1 h1
  split at h <;> try cases h
  exact (parseToEOL_suf _).trans ((consumeWS_suf _).trans ((parseAccount_suf _).trans ((consumeWS_suf _).trans
    ((consumeRune_suf h1).trans ((consumeWS_suf _).trans (parseAccount_suf s))))))

theorem parseIdentifier_suf (e : Env) (s : Reader) : (parseIdentifier e s).2 <:+ s :=
  (consumeWS_suf _).trans ((List.dropWhile_suffix _).trans (consumeWS_suf s))

/-- What a round leaves unread. -/
def Step.rest : Step → Reader
  | .go _ _ s => s
  | .incl _ s => s
  | .stop => []

theorem parseStep_suf (e : Env) (b : Builder) (als : Aliases) (s : Reader) : (parseStep e b als s).rest <:+ s := by
  have e0 := consumeWS_suf s
  simp only [parseStep]
  split
  · exact (skipLine_suf _).trans e0
  · split
    · split
      · exact (skipLine_suf _).trans e0
      · split
        · split
          · exact List.nil_suffix
          · rename_i h1; exact (parsePrice_suf h1).trans e0
        · split
          · split
            · exact List.nil_suffix
            · rename_i h1
              split
              · exact List.nil_suffix
              · exact (parseTransaction_suf h1).trans e0
          · split
            · split
              · exact List.nil_suffix
              · exact (parseToEOL_suf _).trans ((parseIdentifier_suf e _).trans e0)
            · split
              · split
                · exact List.nil_suffix
                · rename_i h1
                  exact (parseAlias_suf h1).trans ((parseIdentifier_suf e _).trans e0)
              · exact List.nil_suffix
    · split
      · exact List.nil_suffix
      · rename_i h1; exact (parsePostingLine_suf h1).trans e0

/-- Complete lines: nothing, or text ending with the end of a line. -/
def Lines (s : List Nat) : Prop := s = [] ∨ ∃ s', s = s' ++ [10]

theorem Lines.suf {s t : List Nat} (h : Lines s) (ht : t <:+ s) : Lines t := by
  rcases h with h | ⟨s', h⟩
  · subst h; left; exact List.suffix_nil.1 ht
  · subst h
    obtain ⟨u, hu⟩ := ht
    rcases List.eq_nil_or_concat t with h0 | ⟨t', c, h0⟩
    · left; exact h0
    · right
      subst h0
      rw [List.concat_eq_append, ← List.append_assoc] at hu
      have := (List.append_inj' hu (by simp)).2
      refine ⟨t', ?_⟩
      rw [List.concat_eq_append, this]

theorem Lines.mem {s : List Nat} (h : Lines s) (hne : s ≠ []) : 10 ∈ s := by
  rcases h with h | ⟨s', h⟩
  · exact absurd h hne
  · subst h; simp

/-- Go on after the first part. -/
def Outcome.andThen (o : Outcome) (k : Builder → Aliases → Outcome) : Outcome :=
  match o with
  | .ok b als => k b als
  | o => o

/-- Reading complete lines `s` and then `t` in one go is reading `s`, then `t`. -/
theorem parseLoop_append (e : Env) (he : e.letter 10 = false) (fn : Str) (inc : Builder → Aliases → Str → Outcome)
    (t : Reader) : ∀ (n : Nat) (s : Reader), s.length = n → 0 ∉ s → Lines s → ∀ (b : Builder) (als : Aliases),
    parseLoop e fn inc ((s ++ t).length + 1) b als (s ++ t) =
      (parseLoop e fn inc (s.length + 1) b als s).andThen fun b als => parseLoop e fn inc (t.length + 1) b als t := by
  intro n
  induction n using Nat.strong_induction_on with
  | _ n ih =>
    intro s hn h0 hl b als
    by_cases hs : s = []
    · subst hs; simp [parseLoop, Reader.ch, Outcome.andThen]
    · have h10 := hl.mem hs
      have hch : Reader.ch s ≠ 0 := by
        cases s with
        | nil => exact absurd rfl hs
        | cons c s => intro h; apply h0; simp only [Reader.ch, List.headD_cons] at h; rw [h]; simp
      have hch' : Reader.ch (s ++ t) ≠ 0 := by rw [ch_app h10]; exact hch
      obtain ⟨l1, l2⟩ := parseStep_lt (e := e) (b := b) (als := als) hch
      have hsuf := parseStep_suf e b als s
      have happ := parseStep_app he b als h10 t
      conv_lhs => unfold parseLoop
      conv_rhs => unfold parseLoop
      rw [if_neg hch, if_neg hch', happ]
      cases hst : parseStep e b als s with
      | stop => rfl
      | go b' als' s' =>
        rw [hst] at hsuf
        have hlt := l1 _ _ _ hst
        simp only [Step.app, Step.rest] at hsuf ⊢
        have hl' := hl.suf hsuf
        have h0' : 0 ∉ s' := fun h => h0 (hsuf.subset h)
        have := ih s'.length (by omega) s' rfl h0' hl' b' als'
        rw [parseLoop_fuel e fn inc (s ++ t).length ((s' ++ t).length + 1) _ _ _ (by simp; omega) (by omega),
          parseLoop_fuel e fn inc s.length (s'.length + 1) _ _ _ hlt (by omega)]
        exact this
      | incl f s' =>
        rw [hst] at hsuf
        have hlt := l2 _ _ hst
        simp only [Step.app, Step.rest] at hsuf ⊢
        have hl' := hl.suf hsuf
        have h0' : 0 ∉ s' := fun h => h0 (hsuf.subset h)
        cases inc b als (e.join fn f) with
        | ok b' als' =>
          simp only
          have := ih s'.length (by omega) s' rfl h0' hl' b' als
          rw [parseLoop_fuel e fn inc (s ++ t).length ((s' ++ t).length + 1) _ _ _ (by simp; omega) (by omega),
            parseLoop_fuel e fn inc s.length (s'.length + 1) _ _ _ hlt (by omega)]
          exact this
        | err => rfl
        | fatal => rfl
        | running => rfl

end Verif
