import Verif.Model.Config

namespace Verif

/-! # C74 -/

theorem readFirst_none {decode : Str → Option (List Str)} {fs : FS} {files : List Str} :
    readFirst decode fs files = none ↔ ∀ f ∈ files, fs f = .absent := by
  induction files with
  | nil => simp [readFirst]
  | cons f rest ih =>
    unfold readFirst
    cases h : fs f with
    | absent => simp [ih, h]
    | unreadable => simp [h]
    | file c => simp [h]

/-- C74: the file system is only changed when none of the candidates exists, and then only at the first candidate; so no file that exists is ever
overwritten, whichever file it is. -/
theorem c74_never_overwrites (decode : Str → Option (List Str)) (dflt : Str) (torn : Option Str) (e : ConfEnv) (name : Str) (fs : FS)
    (p : Str) (h : (loadConfig decode dflt torn e name fs).2 p ≠ fs p) :
    fs p = .absent ∧ (candidates e name).1.head? = some p ∧ (candidates e name).2 = true ∧
      (∀ f ∈ (candidates e name).1, fs f = .absent) := by
  unfold loadConfig at h
  revert h
  generalize candidates e name = c
  obtain ⟨files, wd⟩ := c
  intro h
  simp only at h ⊢
  cases hr : readFirst decode fs files with
  | some r => rw [hr] at h; simp at h
  | none =>
    rw [hr] at h
    have habs := readFirst_none.1 hr
    cases wd with
    | false => simp at h
    | true =>
      cases files with
      | nil => simp at h
      | cons f fs' =>
        simp only [Bool.true_eq_false, if_false] at h
        cases h1 : e.mkdirOk with
        | false => rw [h1] at h; simp at h
        | true =>
          rw [h1] at h
          simp only [Bool.true_eq_false, if_false] at h
          by_cases hp : p = f
          · subst hp
            exact ⟨habs p (by simp), rfl, rfl, habs⟩
          · exfalso
            cases h2 : e.writeOk with
            | false => rw [h2] at h; simp [hp] at h
            | true => rw [h2] at h; simp [hp] at h

/-- C74: the first existing candidate decides: nothing is written, and it is the one that is decoded, or an error is reported. -/
theorem c74_first_existing (decode : Str → Option (List Str)) (dflt : Str) (torn : Option Str) (e : ConfEnv) (name : Str) (fs : FS)
    (pre post : List Str) (f : Str) (hc : (candidates e name).1 = pre ++ f :: post) (hpre : ∀ g ∈ pre, fs g = .absent)
    (hf : fs f ≠ .absent) :
    (loadConfig decode dflt torn e name fs).2 = fs ∧
    (∀ c, fs f = .file c → decode c = some [] → (loadConfig decode dflt torn e name fs).1 = .decoded f c) ∧
    ((fs f = .unreadable ∨ ∃ c, fs f = .file c ∧ decode c ≠ some []) → (loadConfig decode dflt torn e name fs).1 = .failed) := by
  have key : readFirst decode fs (pre ++ f :: post) =
      some (match fs f with | .file c => (if decode c = some [] then .decoded f c else .failed) | _ => .failed) := by
    clear hc
    induction pre with
    | nil =>
      simp only [List.nil_append]
      unfold readFirst
      cases h : fs f with
      | absent => exact absurd h hf
      | unreadable => rfl
      | file c => rfl
    | cons g pre ih =>
      rw [List.cons_append]
      unfold readFirst
      rw [hpre g (by simp)]
      exact ih (fun g hg => hpre g (by simp [hg]))
  unfold loadConfig
  revert hc
  generalize candidates e name = c
  obtain ⟨files, wd⟩ := c
  intro hc
  simp only at hc
  subst hc
  simp only [key]
  refine ⟨trivial, ?_, ?_⟩
  · intro c h1 h2; rw [h1]; simp [h2]
  · rintro (h1 | ⟨c, h1, h2⟩)
    · rw [h1]
    · rw [h1]; simp [h2]

/-- C74: when no candidate exists, the default is written to the first candidate if a configuration directory is known or `NAME_CONF` is set, and nothing is
written otherwise. -/
theorem c74_default (decode : Str → Option (List Str)) (dflt : Str) (torn : Option Str) (e : ConfEnv) (name : Str) (fs : FS)
    (habs : ∀ f ∈ (candidates e name).1, fs f = .absent) (hd : (decode dflt).isSome = true) (hm : e.mkdirOk = true) (hw : e.writeOk = true) :
    if (candidates e name).2 = true then
      ∃ f, (candidates e name).1.head? = some f ∧ (loadConfig decode dflt torn e name fs).1 = .wroteDefault f ∧
        (loadConfig decode dflt torn e name fs).2 f = .file dflt
    else loadConfig decode dflt torn e name fs = (.nothing, fs) := by
  have hne : (candidates e name).1 ≠ [] := by
    unfold candidates
    split <;> simp
  have key := (readFirst_none (decode := decode)).2 habs
  unfold loadConfig
  revert key hne
  generalize candidates e name = c
  obtain ⟨files, wd⟩ := c
  intro hne key
  simp only at hne key ⊢
  rw [key]
  cases wd with
  | false => simp
  | true =>
    cases files with
    | nil => exact absurd rfl hne
    | cons f fs' => exact ⟨f, rfl, by simp [hd, hm, hw], by simp [hm, hw]⟩

/-- C74: a non-empty `NAME_CONF` names the only candidate; an empty one is ignored. -/
theorem c74_env (e : ConfEnv) (name : Str) :
    (∀ p, e.conf = some p → p ≠ [] → candidates e name = ([p], true)) ∧
    ((e.conf = none ∨ e.conf = some []) → ∀ d, e.configDir = some d →
      (candidates e name).1.head? = some (e.join [d, name, name ++ b!".toml"]) ∧ (candidates e name).2 = true) := by
  constructor
  · intro p hp hne
    cases p with
    | nil => exact absurd rfl hne
    | cons c cs => unfold candidates; rw [hp]
  · intro h d hd
    unfold candidates
    rcases h with h | h <;> simp [h, hd]

/-- Non-vacuity: a home directory with a dot file and no configuration directory entry. -/
def demoConf : ConfEnv := ⟨none, some b!"/c", some b!"/h", fun l => l.flatMap fun s => b!"/" ++ s, true, true⟩

def demoFS : FS := fun p => if p = b!"//h/.app.toml" then .file b!"x=1" else .absent

example : loadConfig (fun _ => some []) b!"dflt" none demoConf b!"app" demoFS =
    (.decoded b!"//h/.app.toml" b!"x=1", demoFS) := by rfl

example : (loadConfig (fun _ => some []) b!"dflt" none demoConf b!"app" (fun _ => .absent)).1 = .wroteDefault b!"//c/app/app.toml" := by
  rfl

end Verif
