import Verif.Props.Loader2

/-! # A ledger that was loaded does not include itself; changing a file changes nothing for those that do not include it -/

namespace Verif
open Spec

theorem parsePostingLine_aliases (als : Aliases) (s : Reader) :
    parsePostingLine als s = (parsePostingLine [] s).map fun x => ((als.resolve x.1.1, x.1.2), x.2) := by
  unfold parsePostingLine
  simp only
  split
  · rfl
  · split <;> rfl

/-- Where reading goes on, and which file is read in between, does not depend on what was read before. -/
theorem parseStep_go {e : Env} {b : Builder} {als : Aliases} {s : Reader} {b' : Builder} {als' : Aliases} {s' : Reader}
    (h : parseStep e b als s = .go b' als' s') (b2 : Builder) (als2 : Aliases) :
    parseStep e b2 als2 s = .stop ∨ ∃ b3 als3, parseStep e b2 als2 s = .go b3 als3 s' := by
  unfold parseStep at h ⊢
  simp only at h ⊢
  split at h
  · rename_i hc; rw [if_pos hc]; cases h; exact Or.inr ⟨_, _, rfl⟩
  · rename_i hc
    rw [if_neg hc]
    split at h
    · rename_i hl
      rw [if_pos hl]
      split at h
      · rename_i hc; rw [if_pos hc]; cases h; exact Or.inr ⟨_, _, rfl⟩
      · rename_i hc
        rw [if_neg hc]
        split at h
        · rename_i hc
          rw [if_pos hc]
          cases hp : parsePrice (consumeWS s) with
          | none => exact Or.inl rfl
          | some x => rw [hp] at h; cases h; exact Or.inr ⟨_, _, rfl⟩
        · rename_i hc
          rw [if_neg hc]
          split at h
          · rename_i hc
            rw [if_pos hc]
            cases hp : parseTransaction (consumeWS s) with
            | none => exact Or.inl rfl
            | some x =>
              obtain ⟨⟨d, p, n⟩, r⟩ := x
              rw [hp] at h
              simp only at h ⊢
              split at h
              · cases h
              · cases h
                cases b2.newTransaction d p n with
                | none => exact Or.inl rfl
                | some b => exact Or.inr ⟨_, _, rfl⟩
          · rename_i hc
            rw [if_neg hc]
            split at h
            · split at h <;> cases h
            · rename_i hi
              rw [if_neg hi]
              split at h
              · rename_i ha
                rw [if_pos ha]
                split at h
                · cases h
                · rename_i hx; cases h; exact Or.inr ⟨_, _, rfl⟩
              · cases h
    · rename_i hl
      rw [if_neg hl]
      obtain ⟨l, hx⟩ : ∃ l, parsePostingLine als (consumeWS s) = some (l, s') := by
        split at h
        · cases h
        · rename_i l r hx; cases h; exact ⟨l, hx⟩
      rw [parsePostingLine_aliases] at hx ⊢
      cases hy : parsePostingLine [] (consumeWS s) with
      | none => rw [hy] at hx; cases hx
      | some x => rw [hy] at hx; cases hx; exact Or.inr ⟨_, _, rfl⟩

theorem parseStep_incl {e : Env} {b : Builder} {als : Aliases} {s : Reader} {f : Str} {s' : Reader}
    (h : parseStep e b als s = .incl f s') (b2 : Builder) (als2 : Aliases) : parseStep e b2 als2 s = .incl f s' := by
  unfold parseStep at h ⊢
  simp only at h ⊢
  split at h
  · cases h
  · rename_i hc
    rw [if_neg hc]
    split at h
    · rename_i hl
      rw [if_pos hl]
      split at h
      · cases h
      · rename_i hc
        rw [if_neg hc]
        split at h
        · split at h <;> cases h
        · rename_i hc
          rw [if_neg hc]
          split at h
          · split at h
            · cases h
            · split at h <;> cases h
          · rename_i hc
            rw [if_neg hc]
            split at h
            · rename_i hi
              rw [if_pos hi]
              exact h
            · split at h
              · split at h <;> cases h
              · cases h
    · split at h <;> cases h

/-- Reading the text asks for the file: it comes to an include of it, whatever was read before. -/
inductive Asks (e : Env) : Reader → Str → Prop
  | here {b als s f s'} : s.ch ≠ 0 → parseStep e b als s = .incl f s' → Asks e s f
  | after {b als s b' als' s' f} : s.ch ≠ 0 → parseStep e b als s = .go b' als' s' → Asks e s' f → Asks e s f
  | past {b als s g s' f} : s.ch ≠ 0 → parseStep e b als s = .incl g s' → Asks e s' f → Asks e s f

/-- A text read to its end has got every file it asks for. -/
theorem asks_ok {e : Env} {fn : Str} {inc : Builder → Aliases → Str → Outcome} {s : Reader} {f : Str} (h : Asks e s f) :
    ∀ (fuel : Nat) (b : Builder) (als : Aliases) (b' : Builder) (als' : Aliases), parseLoop e fn inc fuel b als s = .ok b' als' →
      ∃ b1 als1 b2 als2, inc b1 als1 (e.join fn f) = .ok b2 als2 := by
  induction h with
  | @here b0 als0 s f s' h0 hp =>
    intro fuel b als b' als' hl
    cases fuel with
    | zero => cases hl
    | succ fuel =>
      unfold parseLoop at hl
      rw [if_neg h0, parseStep_incl hp b als] at hl
      simp only at hl
      cases hi : inc b als (e.join fn f) with
      | ok b2 als2 => exact ⟨_, _, _, _, hi⟩
      | _ => rw [hi] at hl; cases hl
  | @after b0 als0 s b1 als1 s' f h0 hp _ ih =>
    intro fuel b als b' als' hl
    cases fuel with
    | zero => cases hl
    | succ fuel =>
      unfold parseLoop at hl
      rw [if_neg h0] at hl
      rcases parseStep_go hp b als with h | ⟨b3, als3, h⟩
      · rw [h] at hl; cases hl
      · rw [h] at hl; exact ih fuel _ _ _ _ hl
  | @past b0 als0 s g s' f h0 hp _ ih =>
    intro fuel b als b' als' hl
    cases fuel with
    | zero => cases hl
    | succ fuel =>
      unfold parseLoop at hl
      rw [if_neg h0, parseStep_incl hp b als] at hl
      simp only at hl
      cases hi : inc b als (e.join fn g) with
      | ok b2 als2 => rw [hi] at hl; exact ih fuel _ _ _ _ hl
      | _ => rw [hi] at hl; cases hl

theorem parseLoop_files (e : Env) (F : Str → Option (List Nat)) (fn : Str) (inc : Builder → Aliases → Str → Outcome) :
    ∀ (fuel : Nat) (b : Builder) (als : Aliases) (s : Reader),
      parseLoop { e with files := F } fn inc fuel b als s = parseLoop e fn inc fuel b als s := by
  intro fuel
  induction fuel with
  | zero => intros; rfl
  | succ fuel ih =>
    intro b als s
    have hstep : parseStep { e with files := F } b als s = parseStep e b als s := rfl
    unfold parseLoop
    rw [hstep]
    split
    · rfl
    · cases parseStep e b als s with
      | stop => rfl
      | go b1 als1 s1 => exact ih _ _ _
      | incl f s1 =>
        simp only
        cases inc b als (e.join fn f) with
        | ok b2 als2 => exact ih _ _ _
        | _ => rfl

/-- What is read depends on the files it asks for only. -/
theorem loop_frame {e : Env} {fn : Str} {inc inc2 : Builder → Aliases → Str → Outcome} : ∀ (fuel : Nat) (s : Reader) (b : Builder) (als : Aliases)
    (b' : Builder) (als' : Aliases),
    (∀ f, Asks e s f → ∀ b als b' als', inc b als (e.join fn f) = .ok b' als' → inc2 b als (e.join fn f) = .ok b' als') →
    parseLoop e fn inc fuel b als s = .ok b' als' → parseLoop e fn inc2 fuel b als s = .ok b' als' := by
  intro fuel
  induction fuel with
  | zero => intro s b als b' als' _ h; cases h
  | succ fuel ih =>
    intro s b als b' als' hf h
    unfold parseLoop at h ⊢
    split at h
    · rename_i h0; rw [if_pos h0]; exact h
    · rename_i h0
      rw [if_neg h0]
      cases hp : parseStep e b als s with
      | stop => rw [hp] at h; cases h
      | go b1 als1 s1 => rw [hp] at h; exact ih _ _ _ _ _ (fun f ha => hf f (.after h0 hp ha)) h
      | incl f s1 =>
        rw [hp] at h
        simp only at h ⊢
        cases hi : inc b als (e.join fn f) with
        | ok b2 als2 =>
          rw [hi] at h
          rw [hf f (.here h0 hp) _ _ _ _ hi]
          exact ih _ _ _ _ _ (fun g ha => hf g (.past h0 hp ha)) h
        | _ => rw [hi] at h; cases h

/-- File `f` asks for file `g`. -/
def AsksFor (e : Env) (f g : Str) : Prop := ∃ content x, e.files f = some content ∧ Asks e content x ∧ g = e.join f x

theorem loaded_asks {e : Env} {f g : Str} (h : AsksFor e f g) {d : Nat} {b als b' als'} (hl : parseFileLocal e d b als f = .ok b' als') :
    ∃ d' b1 als1 b2 als2, d' < d ∧ parseFileLocal e d' b1 als1 g = .ok b2 als2 := by
  obtain ⟨content, x, h1, h2, rfl⟩ := h
  cases d with
  | zero => cases hl
  | succ d =>
    unfold parseFileLocal at hl
    rw [h1] at hl
    obtain ⟨b1, als1, b2, als2, hi⟩ := asks_ok h2 _ _ _ _ _ hl
    exact ⟨d, b1, als1, b2, als2, Nat.lt_succ_self d, hi⟩

theorem loaded_reaches {e : Env} {f g : Str} (h : Relation.TransGen (AsksFor e) f g) {d : Nat} {b als b' als'}
    (hl : parseFileLocal e d b als f = .ok b' als') : ∃ d' b1 als1 b2 als2, d' < d ∧ parseFileLocal e d' b1 als1 g = .ok b2 als2 := by
  induction h with
  | single h => exact loaded_asks h hl
  | tail _ h ih =>
    obtain ⟨d1, b1, als1, b2, als2, h1, h2⟩ := ih
    obtain ⟨d2, b3, als3, b4, als4, h3, h4⟩ := loaded_asks h h2
    exact ⟨d2, b3, als3, b4, als4, by omega, h4⟩

/-- A file that was read to its end does not include itself, directly or through others. -/
theorem loaded_acyclic {e : Env} {f : Str} {d : Nat} : ∀ {b als b' als'}, parseFileLocal e d b als f = .ok b' als' →
    ¬ Relation.TransGen (AsksFor e) f f := by
  induction d using Nat.strong_induction_on with
  | _ d ih =>
    intro b als b' als' hl h
    obtain ⟨d', b1, als1, b2, als2, h1, h2⟩ := loaded_reaches h hl
    exact ih d' h1 h2 h

/-- Changing the file `fn` changes nothing for a file that does not include it. -/
theorem file_frame {e : Env} {fn : Str} {text : Option (List Nat)} : ∀ (d : Nat) (f : Str), f ≠ fn → ¬ Relation.TransGen (AsksFor e) f fn →
    ∀ (b : Builder) (als : Aliases) (b' : Builder) (als' : Aliases), parseFileLocal e d b als f = .ok b' als' →
      parseFileLocal { e with files := fun g => if g = fn then text else e.files g } d b als f = .ok b' als' := by
  intro d
  induction d with
  | zero => intro f _ _ b als b' als' h; cases h
  | succ d ih =>
    intro f hne hno b als b' als' h
    unfold parseFileLocal at h ⊢
    simp only [if_neg hne]
    cases hc : e.files f with
    | none => rw [hc] at h; cases h
    | some content =>
      rw [hc] at h
      simp only at h ⊢
      rw [parseLoop_files]
      refine loop_frame (e := e) _ _ _ _ _ _ ?_ h
      intro x hx b als b' als' hi
      have hask : AsksFor e f (e.join f x) := ⟨content, x, hc, hx, rfl⟩
      refine ih _ ?_ ?_ _ _ _ _ hi
      · intro heq; apply hno; rw [← heq]; exact .single hask
      · intro ht; exact hno (.head hask ht)

/-- Text added to the end of a ledger that was loaded is read after what was read before. -/
theorem read_appended {e : Env} (he : e.letter 10 = false) {fn : Str} {text : List Nat} (hfile : e.files fn = some text) (h0 : 0 ∉ text)
    (hlines : Lines text) {d : Nat} {b : Builder} {als : Aliases} {b' : Builder} {als' : Aliases}
    (h : parseFileLocal e (d + 1) b als fn = .ok b' als') (more : List Nat) :
    parseFileLocal { e with files := fun g => if g = fn then some (text ++ more) else e.files g } (d + 1) b als fn =
      readText { e with files := fun g => if g = fn then some (text ++ more) else e.files g } d fn b' als' more := by
  have hacyc := loaded_acyclic h
  have h1 : readText { e with files := fun g => if g = fn then some (text ++ more) else e.files g } d fn b als text = .ok b' als' := by
    unfold parseFileLocal at h
    rw [hfile] at h
    simp only at h
    unfold readText
    rw [parseLoop_files]
    refine loop_frame (e := e) _ _ _ _ _ _ ?_ h
    intro x hx b als b' als' hi
    have hask : AsksFor e fn (e.join fn x) := ⟨text, x, hfile, hx, rfl⟩
    refine file_frame d _ ?_ ?_ _ _ _ _ hi
    · intro heq; apply hacyc; rw [heq] at hask; exact .single hask
    · intro ht; exact hacyc (.head hask ht)
  have h2 := c60_reads_on_partial { e with files := fun g => if g = fn then some (text ++ more) else e.files g } he d fn b als text more h0 hlines
  rw [h1] at h2
  have h3 : parseFileLocal { e with files := fun g => if g = fn then some (text ++ more) else e.files g } (d + 1) b als fn =
      readText { e with files := fun g => if g = fn then some (text ++ more) else e.files g } d fn b als (text ++ more) := by
    unfold parseFileLocal readText
    simp only [if_true]
  rw [h3, h2]
  rfl

end Verif
