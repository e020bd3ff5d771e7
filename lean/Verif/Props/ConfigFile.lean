import Mathlib.Data.List.TakeWhile
import Verif.Model.ConfigFile
import Verif.Props.Config

/-! # C91: the configuration file the program writes is one it reads -/

namespace Verif

/-- The program started again and again in the same surroundings, nobody touching the files: the outcomes. -/
def starts (decode : Str → Option (List Str)) (dflt : Str) (e : ConfEnv) (name : Str) : Nat → FS → List Loaded
  | 0, _ => []
  | n + 1, fs =>
    (loadConfig decode dflt none e name fs).1 :: starts decode dflt e name n (loadConfig decode dflt none e name fs).2

/-- C91, what holds: if the default file has no key without a place in the configuration, every start after the one that wrote it reads it.
Missing: it does have such a key. -/
theorem c91_later_starts_partial (decode : Str → Option (List Str)) (dflt : Str) (e : ConfEnv) (name : Str) (fs : FS) (p : Str)
    (hd : decode dflt = some []) (h : (loadConfig decode dflt none e name fs).1 = .wroteDefault p) (n : Nat) :
    starts decode dflt e name n (loadConfig decode dflt none e name fs).2 = List.replicate n (.decoded p dflt) := by
  have hfirst : (candidates e name).1.head? = some p ∧ (loadConfig decode dflt none e name fs).2 p = .file dflt := by
    unfold loadConfig at h ⊢
    revert h
    generalize candidates e name = c
    obtain ⟨files, wd⟩ := c
    simp only
    cases hr : readFirst decode fs files with
    | some r =>
      intro h
      exfalso
      simp only at h
      subst h
      clear e name
      induction files with
      | nil => simp [readFirst] at hr
      | cons f rest ih =>
        unfold readFirst at hr
        cases hf : fs f with
        | absent => rw [hf] at hr; exact ih hr
        | unreadable => rw [hf] at hr; simp at hr
        | file c =>
          rw [hf] at hr
          simp only [Option.some.injEq] at hr
          split at hr <;> cases hr
    | none =>
      cases wd with
      | false => simp
      | true =>
        cases files with
        | nil => simp
        | cons f rest =>
          cases hm : e.mkdirOk with
          | false => simp
          | true =>
            cases hw : e.writeOk with
            | false => simp
            | true =>
              simp [hd]
              rintro rfl
              exact ⟨rfl, fun h => absurd rfl h⟩
  generalize (loadConfig decode dflt none e name fs).2 = fs' at hfirst
  clear h
  have hstep : loadConfig decode dflt none e name fs' = (.decoded p dflt, fs') := by
    obtain ⟨h1, h2⟩ := hfirst
    unfold loadConfig
    revert h1
    generalize candidates e name = c
    obtain ⟨files, wd⟩ := c
    intro h1
    simp only at h1 ⊢
    cases files with
    | nil => simp at h1
    | cons f rest =>
      simp only [List.head?_cons, Option.some.injEq] at h1
      subst h1
      unfold readFirst
      rw [h2]
      simp [hd]
  induction n with
  | zero => rfl
  | succ n ih =>
    unfold starts
    rw [hstep, List.replicate_succ, ih]

/-- C91 is false: the program refuses the file it has written. -/
theorem c91_default_rejected_fails : ¬ ∀ (e : ConfEnv) (name : Str) (fs : FS) (p : Str),
    (loadConfig tomlDecode defaultConfig none e name fs).1 = .wroteDefault p → ∀ n,
    starts tomlDecode defaultConfig e name n (loadConfig tomlDecode defaultConfig none e name fs).2 = List.replicate n (.decoded p defaultConfig) := by
  intro h
  have := h demoConf b!"goledger" (fun _ => .absent) b!"//c/goledger/goledger.toml" (by decide +kernel) 1
  revert this
  decide +kernel

/-- The key it stumbles over. -/
theorem c91_offending_key : tomlDecode defaultConfig = some [b!"report.macros.macroA"] := by decide +kernel

/-- The hypotheses of the partial theorem are met by a file without that key. -/
example : tomlDecode b!"ledger = \"x\"\n[report]\nsum = true\n[importdefs.a.params]\nccy = \"0\"\n" = some [] := by decide +kernel

theorem dropWhile_front {p : Nat → Bool} : ∀ {a : Str} (_ : ∀ c ∈ a, p c = true) (s : Str), (a ++ s).dropWhile p = s.dropWhile p := by
  intro a h s
  rw [List.dropWhile_append_of_pos h]

theorem trimBlanks_around (a s b : Str) (ha : ∀ c ∈ a, c = 32 ∨ c = 9) (hb : ∀ c ∈ b, c = 32 ∨ c = 9) :
    trimBlanks (a ++ s ++ b) = trimBlanks s := by
  unfold trimBlanks
  rw [List.append_assoc, dropWhile_front (by simpa using ha)]
  by_cases hs : ∃ c ∈ s, ¬ (c = 32 ∨ c = 9)
  · rw [List.dropWhile_append]
    have : (s.dropWhile fun x => decide (x = 32 ∨ x = 9)) ≠ [] := by
      intro h
      rw [List.dropWhile_eq_nil_iff] at h
      obtain ⟨c, hc, hn⟩ := hs
      exact hn (by simpa using h c hc)
    rw [if_neg (by simpa using this), List.reverse_append, dropWhile_front (by simpa using hb)]
  · have hs' : ∀ c ∈ s, c = 32 ∨ c = 9 := fun c hc => by
      by_contra h
      exact hs ⟨c, hc, h⟩
    have h1 : (s ++ b).dropWhile (fun x => decide (x = 32 ∨ x = 9)) = [] := by
      rw [List.dropWhile_eq_nil_iff]
      intro c hc
      rcases List.mem_append.1 hc with h | h
      · simpa using hs' c h
      · simpa using hb c h
    have h2 : s.dropWhile (fun x => decide (x = 32 ∨ x = 9)) = [] := by
      rw [List.dropWhile_eq_nil_iff]
      intro c hc
      simpa using hs' c hc
    rw [h1, h2]

/-- C91: blanks and tabs around a line of the file make no difference to its keys. -/
theorem c91_indentation (table : List Str) (a l b : Str) (ls : List Str) (ha : ∀ c ∈ a, c = 32 ∨ c = 9) (hb : ∀ c ∈ b, c = 32 ∨ c = 9) :
    tomlKeysFrom table ((a ++ l ++ b) :: ls) = tomlKeysFrom table (l :: ls) := by
  unfold tomlKeysFrom
  rw [trimBlanks_around a l b ha hb]

end Verif
