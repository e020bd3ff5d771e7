import Verif.Model.Flags
import Verif.Model.ConfigFile

/-! # C82: flags with a fixed set of values -/

namespace Verif

/-- What is asked of `strings.EqualFold`: it is an equivalence. -/
structure IsFold (eqf : Str → Str → Bool) : Prop where
  refl : ∀ a, eqf a a = true
  symm : ∀ a b, eqf a b = true → eqf b a = true
  trans : ∀ a b c, eqf a b = true → eqf b c = true → eqf a c = true

/-- No two values of a list are the same up to case. -/
def FoldDistinct (eqf : Str → Str → Bool) (l : List Str) : Prop := l.Pairwise fun a b => eqf a b = false

theorem find_fold {eqf : Str → Str → Bool} (hf : IsFold eqf) {valid : List Str} (hd : FoldDistinct eqf valid) {v x : Str}
    (hv : v ∈ valid) (he : eqf v x = true) : (valid.find? fun v => eqf v x) = some v := by
  unfold FoldDistinct at hd
  induction valid with
  | nil => cases hv
  | cons a l ih =>
    rw [List.pairwise_cons] at hd
    rw [List.find?_cons]
    by_cases ha : eqf a x = true
    · rw [ha]
      rcases List.mem_cons.1 hv with rfl | hv
      · rfl
      · have := hf.trans a x v ha (hf.symm v x he)
        rw [hd.1 v hv] at this
        cases this
    · rcases List.mem_cons.1 hv with rfl | hv
      · exact absurd he ha
      · simp only [ha]
        exact ih hd.2 hv

/-- C82: a flag with a fixed set of values accepts exactly these, in any spelling that differs in case only, and stores the value itself, not
the spelling; anything else is refused and the old value stays. -/
theorem c82_enum (eqf : Str → Str → Bool) (hf : IsFold eqf) (valid : List Str) (hd : FoldDistinct eqf valid) (old x : Str) :
    (∀ v ∈ valid, eqf v x = true → enumSet eqf valid old x = (v, true)) ∧
    ((∀ v ∈ valid, eqf v x = false) → enumSet eqf valid old x = (old, false)) := by
  constructor
  · intro v hv he
    unfold enumSet
    rw [find_fold hf hd hv he]
  · intro h
    unfold enumSet
    have : (valid.find? fun v => eqf v x) = none := by
      rw [List.find?_eq_none]
      intro v hv
      rw [h v hv]; simp
    rw [this]

/-- C82: the same for flags that can be given several times: the values accepted, in order. -/
theorem c82_enumSlice (eqf : Str → Str → Bool) (hf : IsFold eqf) (valid : List Str) (hd : FoldDistinct eqf valid) (old : List Str) (x : Str) :
    (∀ v ∈ valid, eqf v x = true → enumSliceSet eqf valid old x = (old ++ [v], true)) ∧
    ((∀ v ∈ valid, eqf v x = false) → enumSliceSet eqf valid old x = (old, false)) := by
  constructor
  · intro v hv he
    unfold enumSliceSet
    rw [find_fold hf hd hv he]
  · intro h
    unfold enumSliceSet
    have : (valid.find? fun v => eqf v x) = none := by
      rw [List.find?_eq_none]
      intro v hv
      rw [h v hv]; simp
    rw [this]

/-- The names of the reports. -/
def reportName : Shown → Str
  | .text => b!"Text"
  | .ledger => b!"Ledger"
  | .json => b!"Json"
  | .html => b!"HTML"
  | .beancount => b!"Beancount"
  | .csv => b!"CSV"

/-- C82: the report printed after `report --type=x` is the one whose name `x` is, up to case; if `x` is no such name nothing is printed
(the flag is refused). -/
theorem c82_report_type (eqf : Str → Str → Bool) (hf : IsFold eqf) (hd : FoldDistinct eqf reportTypes) (old x : Str) (k : Shown)
    (hk : k ≠ .csv) :
    eqf (reportName k) x = true ↔ (enumSet eqf reportTypes old x).2 = true ∧ reportShown (enumSet eqf reportTypes old x).1 = k := by
  have hmem : ∀ k : Shown, k ≠ .csv → reportName k ∈ reportTypes := by intro k; cases k <;> decide
  have hshow : ∀ k : Shown, k ≠ .csv → reportShown (reportName k) = k := by intro k; cases k <;> decide
  constructor
  · intro he
    rw [(c82_enum eqf hf _ hd old x).1 _ (hmem k hk) he]
    exact ⟨rfl, hshow k hk⟩
  · rintro ⟨h1, h2⟩
    unfold enumSet at h1 h2
    cases hfd : reportTypes.find? fun v => eqf v x with
    | none => rw [hfd] at h1; cases h1
    | some v =>
      rw [hfd] at h2
      have he := List.find?_some hfd
      have hv := List.mem_of_find?_eq_some hfd
      simp only at h2 he
      have : v = reportName k := by
        rw [← h2]
        revert hv
        generalize v = w
        revert w
        decide
      rw [← this]
      exact he

/-- C82: likewise for `export --type=x`. -/
theorem c82_export_type (eqf : Str → Str → Bool) (hf : IsFold eqf) (hd : FoldDistinct eqf exportTypes) (old x : Str) (k : Shown)
    (hk : k ≠ .text ∧ k ≠ .html) :
    eqf (reportName k) x = true ↔ (enumSet eqf exportTypes old x).2 = true ∧ exportShown (enumSet eqf exportTypes old x).1 = k := by
  have hmem : ∀ k : Shown, k ≠ .text ∧ k ≠ .html → reportName k ∈ exportTypes := by intro k; cases k <;> decide
  have hshow : ∀ k : Shown, k ≠ .text ∧ k ≠ .html → exportShown (reportName k) = k := by intro k; cases k <;> decide
  constructor
  · intro he
    rw [(c82_enum eqf hf _ hd old x).1 _ (hmem k hk) he]
    exact ⟨rfl, hshow k hk⟩
  · rintro ⟨h1, h2⟩
    unfold enumSet at h1 h2
    cases hfd : exportTypes.find? fun v => eqf v x with
    | none => rw [hfd] at h1; cases h1
    | some v =>
      rw [hfd] at h2
      have he := List.find?_some hfd
      have hv := List.mem_of_find?_eq_some hfd
      simp only at h2 he
      have : v = reportName k := by
        rw [← h2]
        revert hv
        generalize v = w
        revert w
        decide
      rw [← this]
      exact he

/-- ASCII case folding, as an instance. -/
def asciiFold (a b : Str) : Bool := decide (lowerStr a = lowerStr b)

theorem asciiFold_isFold : IsFold asciiFold :=
  ⟨fun a => by simp [asciiFold], fun a b h => by simp only [asciiFold, decide_eq_true_eq] at *; exact h.symm,
    fun a b c h h' => by simp only [asciiFold, decide_eq_true_eq] at *; exact h.trans h'⟩

/-- The hypotheses are met. -/
example : FoldDistinct asciiFold reportTypes ∧ FoldDistinct asciiFold exportTypes ∧ FoldDistinct asciiFold splitTypes := by
  unfold FoldDistinct; decide +kernel

example : enumSet asciiFold reportTypes [] b!"hTmL" = (b!"HTML", true) := by decide +kernel

/-- C82 is false of values from the configuration file, which are not checked: the report types the program understands are not the only
ones that print a report (the type `Ansi` of the default file prints a ledger). -/
theorem c82_config_value_fails : ¬ ∀ type, reportShown type = .ledger → type = b!"Ledger" := by
  intro h
  exact absurd (h b!"Ansi" (by decide)) (by decide)

/-- **C82**, `report --split`: the values taken are these six and no others, in any case of letters. -/
theorem c82_split_type (eqf : Str → Str → Bool) (old x : Str) :
    (enumSet eqf splitTypes old x).2 = true ↔
      ∃ v ∈ [b!"yearly", b!"quarterly", b!"monthly", b!"today", b!"none", b!"skip"], eqf v x = true := by
  unfold enumSet
  cases h : splitTypes.find? fun v => eqf v x with
  | none =>
    simp only [Bool.false_eq_true, false_iff]
    rintro ⟨v, hv, he⟩
    exact (List.find?_eq_none.1 h v hv) he
  | some v => exact ⟨fun _ => ⟨v, List.mem_of_find?_eq_some h, by simpa using List.find?_some h⟩, fun _ => rfl⟩

end Verif
