import Verif.Spec.OpText
import Verif.Model.CLIConfig
import Verif.Props.BookOp

/-! # C66: option strings -/

namespace Verif

namespace Spec
/-- An argument as written: `key` or `key=value`. -/
def argText (a : Str × Option Str) : Str :=
  match a.2 with
  | none => a.1
  | some v => a.1 ++ b!"=" ++ v

/-- Keys without `=` and `,`; values without `,`. -/
def ArgOk (a : Str × Option Str) : Prop := 61 ∉ a.1 ∧ 44 ∉ a.1 ∧ ∀ v ∈ a.2, 44 ∉ v
end Spec
open Spec

theorem cut_none {c : Nat} {s : Str} (h : c ∉ s) : cut c s = (s, none) := by
  induction s with
  | nil => rfl
  | cons x xs ih =>
    simp only [List.mem_cons, not_or] at h
    simp [cut, ih h.2, Ne.symm h.1]

theorem cut_some {c : Nat} {s : Str} (h : c ∉ s) (r : Str) : cut c (s ++ c :: r) = (s, some r) := by
  induction s with
  | nil => simp [cut]
  | cons x xs ih =>
    simp only [List.mem_cons, not_or] at h
    simp [cut, ih h.2, Ne.symm h.1]

theorem get_put (m : Params) (k v k' : Str) : (m.put k v).get k' = if k = k' then some v else m.get k' := by
  unfold Params.put Params.get
  by_cases h : k = k'
  · simp [h]
  · simp only [List.find?_cons, decide_eq_true_eq, h, decide_false, if_false]
    congr 1
    induction m with
    | nil => rfl
    | cons x m ih =>
      by_cases hx : x.1 = k
      · rw [List.filter_cons_of_neg (by simpa using hx), ih, List.find?_cons_of_neg]
        simp [hx, h]
      · rw [List.filter_cons_of_pos (by simpa using hx)]
        by_cases hx' : x.1 = k'
        · rw [List.find?_cons_of_pos (by simpa using hx'), List.find?_cons_of_pos (by simpa using hx')]
        · rw [List.find?_cons_of_neg (by simpa using hx'), List.find?_cons_of_neg (by simpa using hx'), ih]

/-- The value an argument gives its key. -/
def argVal (a : Str × Option Str) : Str := a.2.getD b!"true"

theorem setArgs_spec {args : List (Str × Option Str)} (hok : ∀ a ∈ args, ArgOk a) (m : Params)
    (hnd : (args.map (·.1)).Nodup) (hfresh : ∀ a ∈ args, m.get a.1 = none) :
    ∃ m', setArgs m (args.map argText) = some m' ∧
      ∀ k, m'.get k = match args.find? (fun a => decide (a.1 = k)) with
        | some a => some (argVal a)
        | none => m.get k := by
  induction args generalizing m with
  | nil => exact ⟨m, rfl, fun k => rfl⟩
  | cons a args ih =>
    obtain ⟨k0, v0⟩ := a
    simp only [List.map_cons, List.nodup_cons] at hnd
    have h0 := hok (k0, v0) (by simp)
    have hf0 := hfresh (k0, v0) (by simp)
    have hstep : setArgs m ((argText (k0, v0)) :: args.map argText) =
        setArgs (m.put k0 (argVal (k0, v0))) (args.map argText) := by
      cases v0 with
      | none =>
        have : cut 61 (argText (k0, none)) = (k0, none) := cut_none h0.1
        simp only [setArgs, this]
        rfl
      | some v =>
        have : cut 61 (argText (k0, some v)) = (k0, some v) := by
          show cut 61 (k0 ++ [61] ++ v) = _
          rw [List.append_assoc]
          exact cut_some h0.1 v
        simp only [setArgs, this]
        rw [show m.get k0 = none from hf0]
        rfl
    obtain ⟨m', e, hm'⟩ := ih (fun x hx => hok x (by simp [hx])) (m.put k0 (argVal (k0, v0))) hnd.2 (by
      intro x hx
      rw [get_put, if_neg, hfresh x (by simp [hx])]
      rintro rfl
      exact hnd.1 (List.mem_map.2 ⟨x, hx, rfl⟩))
    refine ⟨m', by rw [List.map_cons, hstep, e], ?_⟩
    intro k
    rw [hm' k]
    by_cases hk : k0 = k
    · subst hk
      have hno : args.find? (fun a => decide (a.1 = k0)) = none := by
        rw [List.find?_eq_none]
        intro x hx
        simp only [decide_eq_true_eq]
        rintro h
        exact hnd.1 (List.mem_map.2 ⟨x, hx, h⟩)
      rw [hno]
      simp [get_put]
    · rw [List.find?_cons_of_neg (by simpa using hk)]
      cases args.find? (fun a => decide (a.1 = k)) with
      | none => simp [get_put, hk]
      | some a => rfl

theorem joinArgs_eq : ∀ l, joinArgs 44 l = joinB 44 l
  | [] => rfl
  | [_] => rfl
  | f :: g :: fs => by rw [joinArgs, joinB, joinArgs_eq (g :: fs)]

theorem split_join {l : List Str} (hne : l ≠ []) (h : ∀ f ∈ l, 44 ∉ f) : splitB 44 (joinArgs 44 l) = l := by
  rw [joinArgs_eq]
  exact (splitB_eq_iff hne).2 ⟨rfl, h⟩

theorem argText_ok {a : Str × Option Str} (h : ArgOk a) : 44 ∉ argText a := by
  obtain ⟨k, v⟩ := a
  cases v with
  | none => exact h.2.1
  | some v =>
    simp only [argText, List.mem_append, not_or]
    exact ⟨⟨h.2.1, by decide⟩, h.2.2 v rfl⟩

/-- C66: `type:arg,arg,…` is read as written: the type is what is before the first colon, and the
parameters are the keys with their values, "true" for a key standing alone; for distinct keys. -/
theorem c66_parse (typ : Str) (args : List (Str × Option Str)) (htyp : 58 ∉ typ) (hne : args ≠ [])
    (hok : ∀ a ∈ args, ArgOk a) (hnd : (args.map (·.1)).Nodup) :
    ∃ cfg, cliSet (typ ++ b!":" ++ joinArgs 44 (args.map argText)) = some cfg ∧ cfg.typ = typ ∧
      (∀ a ∈ args, cfg.params.get a.1 = some (a.2.getD b!"true")) ∧
      (∀ k, k ∉ args.map (·.1) → cfg.params.get k = none) := by
  obtain ⟨m', e, hm'⟩ := setArgs_spec hok [] hnd (by intro a _; rfl)
  refine ⟨⟨typ, m'⟩, ?_, rfl, ?_, ?_⟩
  · unfold cliSet
    have : cut 58 (typ ++ b!":" ++ joinArgs 44 (args.map argText)) = (typ, some (joinArgs 44 (args.map argText))) := by
      rw [List.append_assoc]
      exact cut_some htyp _
    rw [this]
    simp only
    rw [split_join (by simpa using hne) (by
      intro f hf
      obtain ⟨a, ha, rfl⟩ := List.mem_map.1 hf
      exact argText_ok (hok a ha)), e]
    rfl
  · intro a ha
    show m'.get a.1 = _
    rw [hm' a.1]
    have : args.find? (fun x => decide (x.1 = a.1)) = some a := by
      clear hm' e hok hne
      induction args with
      | nil => simp at ha
      | cons x args ih =>
        simp only [List.map_cons, List.nodup_cons] at hnd
        rcases List.mem_cons.1 ha with rfl | ha
        · simp
        · have : x.1 ≠ a.1 := by
            intro h
            exact hnd.1 (h ▸ List.mem_map.2 ⟨a, ha, rfl⟩)
          rw [List.find?_cons_of_neg (by simpa using this)]
          exact ih hnd.2 ha
    rw [this]
    rfl
  · intro k hk
    show m'.get k = none
    rw [hm' k]
    have : args.find? (fun x => decide (x.1 = k)) = none := by
      rw [List.find?_eq_none]
      intro x hx
      simp only [decide_eq_true_eq]
      rintro h
      exact hk (List.mem_map.2 ⟨x, hx, h⟩)
    rw [this]
    rfl

theorem get_of_mem {m : Params} (hn : (m.map (·.1)).Nodup) {kv : Str × Str} (h : kv ∈ m) : m.get kv.1 = some kv.2 := by
  induction m with
  | nil => simp at h
  | cons x m ih =>
    simp only [List.map_cons, List.nodup_cons] at hn
    rcases List.mem_cons.1 h with rfl | h
    · simp [Params.get]
    · have hx : x.1 ≠ kv.1 := by
        intro e
        exact hn.1 (e ▸ List.mem_map.2 ⟨kv, h, rfl⟩)
      have := ih hn.2 h
      simpa [Params.get, hx] using this

theorem get_none {m : Params} {k : Str} (h : k ∉ m.map (·.1)) : m.get k = none := by
  unfold Params.get
  rw [Option.map_eq_none_iff, List.find?_eq_none]
  intro x hx
  simp only [decide_eq_true_eq]
  rintro e
  exact h (List.mem_map.2 ⟨x, hx, e⟩)

/-- C66: writing a configuration with a type and reading it back restores it, whatever the order
in which the map is walked. -/
theorem c66_roundtrip_partial (ord : Params → Params) (hord : ∀ m, (ord m).Perm m) (cfg : CLIConfig)
    (htyp : cfg.typ ≠ []) (hcol : 58 ∉ cfg.typ) (hnd : (cfg.params.map (·.1)).Nodup)
    (hk : ∀ kv ∈ cfg.params, 61 ∉ kv.1 ∧ 44 ∉ kv.1 ∧ 44 ∉ kv.2) :
    ∃ cfg', cliSet (cliString ord cfg) = some cfg' ∧ cfg'.typ = cfg.typ ∧
      ∀ k, cfg'.params.get k = cfg.params.get k := by
  unfold cliString
  rw [if_neg htyp]
  by_cases hp : cfg.params = []
  · rw [if_pos hp]
    refine ⟨⟨cfg.typ, []⟩, by unfold cliSet; rw [cut_none hcol], rfl, fun k => by rw [hp]⟩
  · rw [if_neg hp]
    have hperm := hord cfg.params
    have hmap : (ord cfg.params).map (fun kv => kv.1 ++ b!"=" ++ kv.2) =
        ((ord cfg.params).map fun kv => (kv.1, some kv.2)).map argText := by
      rw [List.map_map]; rfl
    have hkeys : ((ord cfg.params).map fun kv => (kv.1, some kv.2)).map (·.1) = (ord cfg.params).map (·.1) := by
      rw [List.map_map]; rfl
    rw [hmap]
    obtain ⟨cfg', e, ht, hg, hn⟩ := c66_parse cfg.typ ((ord cfg.params).map fun kv => (kv.1, some kv.2)) hcol
      (by
        intro h
        have := hperm.length_eq
        rw [List.map_eq_nil_iff] at h
        rw [h] at this
        exact hp (List.length_eq_zero_iff.1 this.symm))
      (by
        intro a ha
        obtain ⟨kv, hkv, rfl⟩ := List.mem_map.1 ha
        obtain ⟨h1, h2, h3⟩ := hk kv (hperm.mem_iff.1 hkv)
        exact ⟨h1, h2, by intro v hv; simp only [Option.mem_def, Option.some.injEq] at hv; subst hv; exact h3⟩)
      (by rw [hkeys]; exact (hperm.map _).nodup_iff.2 hnd)
    refine ⟨cfg', e, ht, ?_⟩
    intro k
    by_cases hm : k ∈ cfg.params.map (·.1)
    · obtain ⟨kv, hkv, rfl⟩ := List.mem_map.1 hm
      rw [get_of_mem hnd hkv]
      exact hg (kv.1, some kv.2) (List.mem_map.2 ⟨kv, hperm.mem_iff.2 hkv, rfl⟩)
    · rw [get_none hm]
      refine hn k ?_
      rw [hkeys]
      rw [(hperm.map (·.1)).mem_iff]
      exact hm

theorem setArgs_has {m : Params} {args : List Str} {m' : Params} (h : setArgs m args = some m') (k : Str)
    (hm : m.get k ≠ none) : m'.get k ≠ none := by
  induction args generalizing m with
  | nil => simp only [setArgs, Option.some.injEq] at h; subst h; exact hm
  | cons a args ih =>
    simp only [setArgs] at h
    split at h
    · next k' _ =>
      refine ih h ?_
      rw [get_put]
      split
      · simp
      · exact hm
    · next k' v _ =>
      split at h
      · simp at h
      · refine ih h ?_
        rw [get_put]
        split
        · simp
        · exact hm

/-- C66: a key given again with a value is rejected, wherever the two stand. -/
theorem c66_repeated_value_rejected_partial (typ : Str) (htyp : 58 ∉ typ) (args1 args2 args3 : List Str) (k v : Str) (first : Str)
    (hk : 61 ∉ k) (hfirst : first = k ∨ ∃ v', first = k ++ b!"=" ++ v')
    (hcomma : ∀ f ∈ args1 ++ first :: args2 ++ (k ++ b!"=" ++ v) :: args3, 44 ∉ f) :
    cliSet (typ ++ b!":" ++ joinArgs 44 (args1 ++ first :: args2 ++ (k ++ b!"=" ++ v) :: args3)) = none := by
  unfold cliSet
  have : cut 58 (typ ++ b!":" ++ joinArgs 44 (args1 ++ first :: args2 ++ (k ++ b!"=" ++ v) :: args3)) =
      (typ, some (joinArgs 44 (args1 ++ first :: args2 ++ (k ++ b!"=" ++ v) :: args3))) := by
    rw [List.append_assoc]
    exact cut_some htyp _
  rw [this]
  simp only [Option.map_eq_none_iff]
  rw [split_join (by simp) hcomma]
  have happ : ∀ (l1 l2 : List Str) (m : Params), setArgs m (l1 ++ l2) = (setArgs m l1).bind fun m' => setArgs m' l2 := by
    intro l1
    induction l1 with
    | nil => intro l2 m; rfl
    | cons a l1 ih =>
      intro l2 m
      simp only [List.cons_append, setArgs]
      split
      · exact ih _ _
      · split
        · rfl
        · exact ih _ _
  rw [happ]
  cases h1 : setArgs [] (args1 ++ first :: args2) with
  | none => rfl
  | some m1 =>
    have hkey : m1.get k ≠ none := by
      rw [happ] at h1
      obtain ⟨m0, h0, h2⟩ := Option.bind_eq_some_iff.1 h1
      simp only [setArgs] at h2
      rcases hfirst with rfl | ⟨v', rfl⟩
      · rw [cut_none hk] at h2
        exact setArgs_has h2 _ (by rw [get_put]; simp)
      · rw [List.append_assoc, show b!"=" ++ v' = 61 :: v' from rfl, cut_some hk] at h2
        simp only at h2
        split at h2
        · simp at h2
        · exact setArgs_has h2 _ (by rw [get_put]; simp)
    simp only [Option.bind_some, setArgs]
    rw [List.append_assoc, show b!"=" ++ v = 61 :: v from rfl, cut_some hk]
    simp only
    cases hg : m1.get k with
    | none => exact absurd hg hkey
    | some _ => rfl

/-- C66 is false of the code: `t:x=1,x` is accepted and silently changes x to "true". -/
theorem c66_repeated_flag_fails :
    ¬ ∀ (typ k v : Str), 58 ∉ typ → 61 ∉ k → 44 ∉ k → 44 ∉ v →
      cliSet (typ ++ b!":" ++ k ++ b!"=" ++ v ++ b!"," ++ k) = none := by
  intro h
  have := h b!"t" b!"x" b!"1" (by decide) (by decide) (by decide) (by decide)
  revert this
  have : (cliSet b!"t:x=1,x").isSome = true := by decide +kernel
  intro h2
  rw [show b!"t" ++ b!":" ++ b!"x" ++ b!"=" ++ b!"1" ++ b!"," ++ b!"x" = b!"t:x=1,x" from rfl] at h2
  rw [h2] at this
  exact absurd this (by simp)

/-- C66 is false of the code for an empty type: the parameters are lost. -/
theorem c66_roundtrip_empty_type_fails :
    ¬ ∀ (cfg : CLIConfig), 58 ∉ cfg.typ → (cfg.params.map (·.1)).Nodup →
      (∀ kv ∈ cfg.params, 61 ∉ kv.1 ∧ 44 ∉ kv.1 ∧ 44 ∉ kv.2) →
      ∃ cfg', cliSet (cliString id cfg) = some cfg' ∧ ∀ k, cfg'.params.get k = cfg.params.get k := by
  intro h
  obtain ⟨cfg', e, hk⟩ := h ⟨[], [(b!"a", b!"b")]⟩ (by decide) (by decide) (by decide)
  have e2 : cliSet (cliString id ⟨[], [(b!"a", b!"b")]⟩) = some ⟨[], []⟩ := rfl
  rw [e2, Option.some.injEq] at e
  subst e
  exact absurd (hk b!"a") (by decide)

/-- Non-vacuity. -/
example : (cliSet b!"csv:delim=;,header,skip=2").map (fun c => (c.typ, c.params.get b!"delim", c.params.get b!"header", c.int b!"skip" 0)) =
    some (b!"csv", some b!";", some b!"true", some 2) := by decide +kernel
example : cliSet b!"csv:a=1,b=2,a=3" = none := rfl
example : cliString List.reverse ⟨b!"csv", [(b!"a", b!"1"), (b!"b", b!"x=y")]⟩ = b!"csv:b=x=y,a=1" := by decide

theorem upper_letters (s : Str) : (s.map upperA = b!"TRUE" ↔ s.map small = b!"true") ∧ (s.map upperA = b!"FALSE" ↔ s.map small = b!"false") := by
  have h : ∀ c u, 65 ≤ u → u ≤ 90 → (upperA c = u ↔ small c = u + 32) := by
    intro c u h1 h2
    unfold upperA small
    split <;> split <;> omega
  constructor
  · rcases s with _ | ⟨a, _ | ⟨b, _ | ⟨c, _ | ⟨d, _ | ⟨e, s⟩⟩⟩⟩⟩ <;>
      simp [h _ 84 (by omega) (by omega), h _ 82 (by omega) (by omega), h _ 85 (by omega) (by omega), h _ 69 (by omega) (by omega)]
  · rcases s with _ | ⟨a, _ | ⟨b, _ | ⟨c, _ | ⟨d, _ | ⟨e, _ | ⟨f, s⟩⟩⟩⟩⟩⟩ <;>
      simp [h _ 70 (by omega) (by omega), h _ 65 (by omega) (by omega), h _ 76 (by omega) (by omega), h _ 83 (by omega) (by omega),
        h _ 69 (by omega) (by omega)]

/-- C66, reading a setting: a switch that is not given has its default, `true` and `false` in any capitals are understood, and anything else is an error. -/
theorem c66_switch (cfg : CLIConfig) (k : Str) (dflt : Bool) :
    (cfg.params.get k = none → cfg.bool k dflt = some dflt) ∧
    (∀ s, cfg.params.get k = some s → (∀ b, cfg.bool k dflt = some b ↔ s.map small = if b then b!"true" else b!"false")) := by
  refine ⟨fun h => by simp [CLIConfig.bool, h], fun s h b => ?_⟩
  simp only [CLIConfig.bool, h, upper_letters]
  by_cases h1 : s.map small = b!"true"
  · rw [if_pos h1, h1]
    cases b <;> simp
  · rw [if_neg h1]
    by_cases h2 : s.map small = b!"false"
    · rw [if_pos h2, h2]
      cases b <;> simp
    · rw [if_neg h2]
      cases b <;> simp [h1, h2]

/-- C66, numbers and texts: what is not given has its default; what is given is read as a number or taken as it is. -/
theorem c66_values (cfg : CLIConfig) (k : Str) (n : Int) (d : Str) :
    (cfg.params.get k = none → cfg.int k n = some n ∧ cfg.str k d = d) ∧ (∀ s, cfg.params.get k = some s → cfg.int k n = atoi s ∧ cfg.str k d = s) := by
  refine ⟨fun h => ?_, fun s h => ?_⟩ <;> simp [CLIConfig.int, CLIConfig.str, h]

end Verif
