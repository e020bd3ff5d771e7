import Verif.Spec.MainMacros
import Verif.Proofs.Again
import Verif.Props.Main
import Verif.Props.BookOp

/-! # C155: a macro of the configuration file is the operations it stands for -/

namespace Verif
open Spec

theorem macros_none (keys : Keys) : fileMacros (withoutMacros keys) = fun _ => none := by
  funext m
  induction keys with
  | nil => rfl
  | cons x l ih =>
    obtain ⟨k, v⟩ := x
    unfold withoutMacros at ih ⊢
    rw [List.filter_cons]
    split
    · next h =>
      simp only [fileMacros, ih, Option.none_or]
      have : macroOf k v = none := by
        unfold macroOf
        split
        · next t n x' =>
          simp only [macroKey, Bool.not_eq_eq_eq_not, Bool.not_true, decide_eq_false_iff_not] at h
          rw [if_neg h]
        · rfl
      rw [this]; rfl
    · exact ih

/-- No setting is in the table of macros. -/
theorem not_setting {k k' : List Str} (h : macroKey k' = true) (hk : ∀ t n, k = [t, n] → t ≠ b!"macros") : sameKey k' k = false := by
  unfold macroKey at h
  split at h
  · next t n =>
    unfold sameKey
    simp only [decide_eq_false_iff_not, List.map_cons, List.map_nil]
    rintro rfl
    simp only [decide_eq_true_eq] at h
    exact hk _ _ rfl h
  · cases h

theorem fileStr_without (keys : Keys) {k : List Str} (hk : ∀ t n, k = [t, n] → t ≠ b!"macros") (d : Str) :
    fileStr (withoutMacros keys) k d = fileStr keys k d := by
  induction keys generalizing d with
  | nil => rfl
  | cons x l ih =>
    obtain ⟨k', v⟩ := x
    unfold withoutMacros at ih ⊢
    rw [List.filter_cons]
    split
    · cases v <;> simp only [fileStr, ih]
    · next h =>
      have hm : macroKey k' = true := by simpa using h
      rw [ih]
      cases v <;> simp only [fileStr, not_setting hm hk, Bool.false_eq_true, if_false]

theorem fileBool_without (keys : Keys) {k : List Str} (hk : ∀ t n, k = [t, n] → t ≠ b!"macros") (d : Bool) :
    fileBool (withoutMacros keys) k d = fileBool keys k d := by
  induction keys generalizing d with
  | nil => rfl
  | cons x l ih =>
    obtain ⟨k', v⟩ := x
    unfold withoutMacros at ih ⊢
    rw [List.filter_cons]
    split
    · cases v <;> simp only [fileBool, ih]
    · next h =>
      have hm : macroKey k' = true := by simpa using h
      rw [ih]
      cases v <;> simp only [fileBool, not_setting hm hk, Bool.false_eq_true, if_false]

theorem fileInt_without (keys : Keys) {k : List Str} (hk : ∀ t n, k = [t, n] → t ≠ b!"macros") (d : Int) :
    fileInt (withoutMacros keys) k d = fileInt keys k d := by
  induction keys generalizing d with
  | nil => rfl
  | cons x l ih =>
    obtain ⟨k', v⟩ := x
    unfold withoutMacros at ih ⊢
    rw [List.filter_cons]
    split
    · cases v <;> simp only [fileInt, ih]
    · next h =>
      have hm : macroKey k' = true := by simpa using h
      rw [ih]
      cases v <;> simp only [fileInt, not_setting hm hk, Bool.false_eq_true, if_false]

theorem good_without {keys : Keys} (h : ∀ x ∈ keys, KeyGood x.1 x.2) : ∀ x ∈ withoutMacros keys, KeyGood x.1 x.2 :=
  fun x hx => h x (List.mem_filter.1 hx).1

/-- Two settings of the application that differ in their macros. -/
theorem app_without (keys : Keys) (line : List (Str × Str)) :
    appOf (withoutMacros keys) line = { appOf keys line with macros := fun _ => none } := by
  unfold appOf
  rw [macros_none, fileStr_without, fileStr_without, fileStr_without, fileBool_without] <;> (intro t n h; simp at h)

theorem lang_without (env : Option Str) (keys : Keys) (line : List (Str × Str)) : langOf env (withoutMacros keys) line = langOf env keys line := by
  unfold langOf
  rw [fileStr_without]; intro t n h; simp at h

theorem colour_without (keys : Keys) (line : List (Str × Str)) : colourOf (withoutMacros keys) line = colourOf keys line := by
  unfold colourOf
  rw [fileBool_without]; intro t n h; simp at h

theorem report_without (f : FlagEnv) (keys : Keys) (line : List (Str × Str)) : reportOf f (withoutMacros keys) line = reportOf f keys line := by
  unfold reportOf
  simp only [fileStr_without keys (k := [b!"report", b!"credit"]) (by intro t n h; cases h; decide),
    fileStr_without keys (k := [b!"report", b!"hidden"]) (by intro t n h; cases h; decide),
    fileStr_without keys (k := [b!"report", b!"type"]) (by intro t n h; cases h; decide),
    fileStr_without keys (k := [b!"report", b!"combineby"]) (by intro t n h; cases h; decide),
    fileBool_without keys (k := [b!"report", b!"convert"]) (by intro t n h; cases h; decide),
    fileBool_without keys (k := [b!"report", b!"sum"]) (by intro t n h; cases h; decide)]

theorem css_without (keys : Keys) (line : List (Str × Str)) : cssOf (withoutMacros keys) line = cssOf keys line := by
  unfold cssOf
  rw [fileStr_without]; intro t n h; cases h; decide

theorem register_without (f : FlagEnv) (keys : Keys) (line : List (Str × Str)) : registerOf f (withoutMacros keys) line = registerOf f keys line := by
  unfold registerOf
  simp only [fileStr_without keys (k := [b!"register", b!"begindate"]) (by intro t n h; cases h; decide),
    fileStr_without keys (k := [b!"register", b!"enddate"]) (by intro t n h; cases h; decide),
    fileInt_without keys (k := [b!"register", b!"count"]) (by intro t n h; cases h; decide),
    fileBool_without keys (k := [b!"register", b!"asc"]) (by intro t n h; cases h; decide),
    fileBool_without keys (k := [b!"register", b!"combined"]) (by intro t n h; cases h; decide),
    fileBool_without keys (k := [b!"register", b!"convert"]) (by intro t n h; cases h; decide),
    fileBool_without keys (k := [b!"register", b!"split"]) (by intro t n h; cases h; decide)]

theorem regType_without (f : FlagEnv) (keys : Keys) (line : List (Str × Str)) : regTypeOf f (withoutMacros keys) line = regTypeOf f keys line := by
  unfold regTypeOf
  rw [fileStr_without]; intro t n h; cases h; decide

theorem expType_without (f : FlagEnv) (keys : Keys) (line : List (Str × Str)) : expTypeOf f (withoutMacros keys) line = expTypeOf f keys line := by
  unfold expTypeOf
  rw [fileStr_without]; intro t n h; cases h; decide

/-- Without macros a list is its own expansion. -/
theorem expansion_none (l : List Str) : Expansion (fun _ => none) l l := by
  induction l with
  | nil => exact .nil
  | cons x l ih => exact .prim rfl ih

/-- Two lists with the same expansion do the same to every book. -/
theorem ops_same (e : OpEnv) (a a' : AppConf) {args args' flat : List Str} (h : Expansion a.macros args flat) (h' : Expansion a'.macros args' flat) :
    ∃ n, ∀ fuel, n ≤ fuel → ∀ b, opsCmd e fuel a args b = opsCmd e fuel a' args' b ∧ opsCmd e fuel a args b = (runFlat e flat b).end := by
  obtain ⟨n, hn⟩ := c61_macro_is_expansion e a.macros args flat h
  obtain ⟨n', hn'⟩ := c61_macro_is_expansion e a'.macros args' flat h'
  refine ⟨max n n', fun fuel hf b => ?_⟩
  rw [opsCmd_seen, opsCmd_seen, hn fuel (le_trans (le_max_left _ _) hf), hn' fuel (le_trans (le_max_right _ _) hf)]
  exact ⟨rfl, rfl⟩

/-- **C155**, `report`: a line with macros ends and shows the same as the line with the operations they stand for in their places, also if the macros are
then deleted from the configuration file. -/
theorem c155_report (w : World) (env : Option Str) (keys : Keys) (other : List Str → Conf → Exit) (name : Str) (l l' : CmdLine)
    (hn : name ∈ [b!"report", b!"trans", b!"transactions"]) (hk : ∀ x ∈ keys, KeyGood x.1 x.2) (hl : l.Good w.flags reportFlagTable)
    (hl' : l'.Good w.flags reportFlagTable) (hf : l'.flags reportFlagTable = l.flags reportFlagTable)
    (hh : asksHelp (l.flags reportFlagTable) = false) (hx : Expansion (fileMacros keys) l.words l'.words) :
    ∃ n, ∀ fuel, n ≤ fuel → mainCmd { w with fuel := fuel } env (some keys) other (name :: l.text) =
      mainCmd { w with fuel := fuel } env (some (withoutMacros keys)) other (name :: l'.text) := by
  obtain ⟨n, h⟩ := ops_same w.ops (appOf keys (l.flags reportFlagTable)) (appOf (withoutMacros keys) (l.flags reportFlagTable)) hx
    (show Expansion (fileMacros (withoutMacros keys)) l'.words l'.words by rw [macros_none]; exact expansion_none _)
  refine ⟨n, fun fuel hfuel => ?_⟩
  rw [c134_report { w with fuel := fuel } env keys other name l hn hk hl hh,
    c134_report { w with fuel := fuel } env (withoutMacros keys) other name l' hn (good_without hk) hl' (by rw [hf]; exact hh), hf,
    report_without, lang_without, colour_without, css_without]
  have e : opsCmd w.ops fuel (appOf keys (l.flags reportFlagTable)) l.words =
      opsCmd w.ops fuel (appOf (withoutMacros keys) (l.flags reportFlagTable)) l'.words := funext fun b => (h fuel hfuel b).1
  unfold reportFull
  simp only
  rw [e, app_without]
  rfl

/-- **C155**, `export`. -/
theorem c155_export (w : World) (env : Option Str) (keys : Keys) (other : List Str → Conf → Exit) (l l' : CmdLine)
    (hk : ∀ x ∈ keys, KeyGood x.1 x.2) (hl : l.Good w.flags exportFlagTable)
    (hl' : l'.Good w.flags exportFlagTable) (hf : l'.flags exportFlagTable = l.flags exportFlagTable)
    (hh : asksHelp (l.flags exportFlagTable) = false) (hx : Expansion (fileMacros keys) l.words l'.words) :
    ∃ n, ∀ fuel, n ≤ fuel → mainCmd { w with fuel := fuel } env (some keys) other (b!"export" :: l.text) =
      mainCmd { w with fuel := fuel } env (some (withoutMacros keys)) other (b!"export" :: l'.text) := by
  obtain ⟨n, h⟩ := ops_same w.ops (appOf keys (l.flags exportFlagTable)) (appOf (withoutMacros keys) (l.flags exportFlagTable)) hx
    (show Expansion (fileMacros (withoutMacros keys)) l'.words l'.words by rw [macros_none]; exact expansion_none _)
  refine ⟨n, fun fuel hfuel => ?_⟩
  rw [c134_export { w with fuel := fuel } env keys other l hk hl hh,
    c134_export { w with fuel := fuel } env (withoutMacros keys) other l' (good_without hk) hl' (by rw [hf]; exact hh), hf,
    expType_without, lang_without]
  have e : opsCmd w.ops fuel (appOf keys (l.flags exportFlagTable)) l.words =
      opsCmd w.ops fuel (appOf (withoutMacros keys) (l.flags exportFlagTable)) l'.words := funext fun b => (h fuel hfuel b).1
  unfold exportCmd
  simp only
  rw [e, app_without]
  rfl

theorem sections_macros (e : OpEnv) (a : AppConf) (m : Str → Option (List Str)) (r : RegisterConf) (l : Lang) (x : PrintEnv) (sc : ScreenEnv) (typ : Str)
    (b : Book) (accts : List Str) :
    registerFullSections e { a with macros := m } r l x sc typ b accts = registerFullSections e a r l x sc typ b accts := by
  induction accts with
  | nil => rfl
  | cons acct accts ih =>
    unfold registerFullSections
    rw [ih]
    rfl

/-- **C155**, `register`: the words before the last, which is the account. -/
theorem c155_register (w : World) (env : Option Str) (keys : Keys) (other : List Str → Conf → Exit) (l l' : CmdLine) (args args' : List Str) (acct : Str)
    (hk : ∀ x ∈ keys, KeyGood x.1 x.2) (hl : l.Good w.flags registerFlagTable)
    (hl' : l'.Good w.flags registerFlagTable) (hf : l'.flags registerFlagTable = l.flags registerFlagTable)
    (hh : asksHelp (l.flags registerFlagTable) = false) (ha : l.words = args ++ [acct]) (ha' : l'.words = args' ++ [acct])
    (hx : Expansion (fileMacros keys) args args') :
    ∃ n, ∀ fuel, n ≤ fuel → mainCmd { w with fuel := fuel } env (some keys) other (b!"register" :: l.text) =
      mainCmd { w with fuel := fuel } env (some (withoutMacros keys)) other (b!"register" :: l'.text) := by
  obtain ⟨n, h⟩ := ops_same w.ops (appOf keys (l.flags registerFlagTable)) (appOf (withoutMacros keys) (l.flags registerFlagTable)) hx
    (show Expansion (fileMacros (withoutMacros keys)) args' args' by rw [macros_none]; exact expansion_none _)
  refine ⟨n, fun fuel hfuel => ?_⟩
  rw [c134_register { w with fuel := fuel } env keys other l args acct hk hl hh ha,
    c134_register { w with fuel := fuel } env (withoutMacros keys) other l' args' acct (good_without hk) hl' (by rw [hf]; exact hh) ha', hf,
    register_without, regType_without, lang_without, colour_without]
  have e : (fun b => if args = [] then CmdEnd.ok b else opsCmd w.ops fuel (appOf keys (l.flags registerFlagTable)) args b) =
      fun b => if args' = [] then CmdEnd.ok b else opsCmd w.ops fuel (appOf (withoutMacros keys) (l.flags registerFlagTable)) args' b := by
    have nil : ∀ (a : AppConf) (x : List Str) (b : Book), (if x = [] then CmdEnd.ok b else opsCmd w.ops fuel a x b) = opsCmd w.ops fuel a x b := by
      intro a x b
      split
      · next h => subst h; rfl
      · rfl
    funext b
    rw [nil, nil]
    exact (h fuel hfuel b).1
  unfold registerFull
  simp only
  rw [e, app_without]
  simp only [sections_macros]
  rfl

theorem flat_bad {e : OpEnv} {bad : Str} (hb : parsePrim e bad = none) : ∀ (flat : List Str), bad ∈ flat → ∀ b b', runFlat e flat b ≠ .ok b' := by
  intro flat
  induction flat with
  | nil => intro h; simp at h
  | cons op flat ih =>
    intro h b b'
    unfold runFlat
    rcases List.mem_cons.1 h with rfl | h
    · rw [hb]; simp
    · cases parsePrim e op with
      | none => simp
      | some p =>
        simp only
        split
        · simp
        · exact ih h _ _

/-- C155, a word that is neither an operation nor a macro, on the line or in a macro used there: the program does not succeed and prints nothing. -/
theorem c155_unknown (w : World) (env : Option Str) (keys : Keys) (other : List Str → Conf → Exit) (name : Str) (l : CmdLine) (flat : List Str) (bad : Str)
    (hn : name ∈ [b!"report", b!"trans", b!"transactions"]) (hk : ∀ x ∈ keys, KeyGood x.1 x.2) (hl : l.Good w.flags reportFlagTable)
    (hh : asksHelp (l.flags reportFlagTable) = false) (hx : Expansion (fileMacros keys) l.words flat) (hbad : bad ∈ flat)
    (hb : parsePrim w.ops bad = none) :
    ∃ n, ∀ fuel, n ≤ fuel → ∀ out, mainCmd { w with fuel := fuel } env (some keys) other (name :: l.text) ≠ .done 0 out := by
  obtain ⟨n, h⟩ := ops_same w.ops (appOf keys (l.flags reportFlagTable)) (appOf keys (l.flags reportFlagTable)) hx hx
  refine ⟨n, fun fuel hfuel out => ?_⟩
  rw [c134_report { w with fuel := fuel } env keys other name l hn hk hl hh]
  unfold reportFull
  simp only
  have e : opsCmd w.ops fuel (appOf keys (l.flags reportFlagTable)) l.words = fun b => (runFlat w.ops flat b).end :=
    funext fun b => (h fuel hfuel b).2
  rw [e]
  cases loadCmd w.files w.depth w.ops.srt (appOf keys (l.flags reportFlagTable)) with
  | ok b =>
    simp only [CmdEnd.bind]
    cases hr : runFlat w.ops flat b with
    | ok b' => exact absurd hr (flat_bad hb flat hbad b b')
    | failed b' => simp [Seen.end, CmdEnd.exit]
    | panic => simp [Seen.end, CmdEnd.exit]
    | diverge => simp [Seen.end, CmdEnd.exit]
  | err => simp [CmdEnd.bind, CmdEnd.exit]
  | crash => simp [CmdEnd.bind, CmdEnd.exit]
  | diverge => simp [CmdEnd.bind, CmdEnd.exit]
  | fatal => simp [CmdEnd.bind, CmdEnd.exit]

/-- C155, a macro that begins with itself: if the ledger loads, the program does not end (Go's stack overflows). -/
theorem c155_itself (w : World) (env : Option Str) (keys : Keys) (other : List Str → Conf → Exit) (name : Str) (l : CmdLine) (m : Str) (rest : List Str)
    (hn : name ∈ [b!"report", b!"trans", b!"transactions"]) (hk : ∀ x ∈ keys, KeyGood x.1 x.2) (hl : l.Good w.flags reportFlagTable)
    (hh : asksHelp (l.flags reportFlagTable) = false) (hm : fileMacros keys m = some (m :: rest)) (hw : l.words = [m]) (b : Book)
    (hb : loadCmd w.files w.depth w.ops.srt (appOf keys (l.flags reportFlagTable)) = .ok b) :
    mainCmd w env (some keys) other (name :: l.text) = .never := by
  rw [c134_report w env keys other name l hn hk hl hh]
  unfold reportFull
  rw [hb, hw]
  simp only [CmdEnd.bind]
  rw [opsCmd_seen, show (appOf keys (l.flags reportFlagTable)).macros = fileMacros keys from rfl, c61_self_macro_diverges w.ops _ m rest hm]
  rfl

/-- C155, the hypotheses: `--type=json q since=2020-01-01` and `fl A --type=json since=2020-01-01` with the macro `q` of `demoToml`. -/
example : ∃ l l' : CmdLine, l.Good demoFlagEnv reportFlagTable ∧ l'.Good demoFlagEnv reportFlagTable ∧
    l.text = [b!"--type=json", b!"q", b!"since=2020-01-01"] ∧ l'.text = [b!"fl", b!"A", b!"--type=json", b!"since=2020-01-01"] ∧
    l'.flags reportFlagTable = l.flags reportFlagTable ∧ asksHelp (l.flags reportFlagTable) = false ∧
    Expansion (fileMacros demoToml) l.words l'.words ∧ (∀ x ∈ demoToml, KeyGood x.1 x.2) ∧ withoutMacros demoToml ≠ demoToml := by
  have good : ∀ ps : List LinePart, (∀ p ∈ ps, p = .eq b!"type" b!"json" ∨ ∃ c s, c ≠ 45 ∧ p = .word (c :: s)) →
      (⟨ps, none⟩ : CmdLine).flags reportFlagTable = [(b!"type", b!"json")] → (⟨ps, none⟩ : CmdLine).Good demoFlagEnv reportFlagTable := by
    intro ps hps hf
    constructor
    · intro p hp
      rcases hps p hp with rfl | ⟨c, s, hc, rfl⟩
      · show kindOf reportFlagTable b!"type" ≠ none
        simp [kindOf, reportFlagTable, appFlagTable]
      · intro h; simp at h; exact absurd h hc
    · intro x hx k hk
      rw [hf] at hx
      simp only [List.mem_cons, List.not_mem_nil, or_false] at hx
      subst hx
      cases (show kindOf reportFlagTable b!"type" = some (.choice _) from rfl).symm.trans hk
      exact ⟨b!"Json", by decide +kernel, by decide +kernel⟩
  refine ⟨⟨[.eq b!"type" b!"json", .word b!"q", .word b!"since=2020-01-01"], none⟩,
    ⟨[.word b!"fl", .word b!"A", .eq b!"type" b!"json", .word b!"since=2020-01-01"], none⟩, good _ ?_ (by decide +kernel), good _ ?_ (by decide +kernel),
    by decide +kernel, by decide +kernel, by decide +kernel, by decide +kernel, ?_, demoToml_good, ?_⟩
  · intro p hp
    simp only [List.mem_cons, List.not_mem_nil, or_false] at hp
    rcases hp with rfl | rfl | rfl
    · exact .inl rfl
    · exact .inr ⟨_, _, by decide, rfl⟩
    · exact .inr ⟨_, _, by decide, rfl⟩
  · intro p hp
    simp only [List.mem_cons, List.not_mem_nil, or_false] at hp
    rcases hp with rfl | rfl | rfl | rfl
    · exact .inr ⟨_, _, by decide, rfl⟩
    · exact .inr ⟨_, _, by decide, rfl⟩
    · exact .inl rfl
    · exact .inr ⟨_, _, by decide, rfl⟩
  · have : Expansion (fileMacros demoToml) [b!"fl", b!"A"] [b!"fl", b!"A"] :=
      .prim (by decide +kernel) (.prim (by decide +kernel) .nil)
    have h2 : Expansion (fileMacros demoToml) [b!"since=2020-01-01"] [b!"since=2020-01-01"] := .prim (by decide +kernel) .nil
    have h3 : Expansion (fileMacros demoToml) [b!"q", b!"since=2020-01-01"] ([b!"fl", b!"A"] ++ [b!"since=2020-01-01"]) :=
      Expansion.expand (show fileMacros demoToml b!"q" = some [b!"fl", b!"A"] by decide +kernel) this h2
    exact h3
  · intro h
    have := congrArg List.length h
    revert this
    decide +kernel

end Verif
