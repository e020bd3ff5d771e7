import Verif.Proofs.Main
import Mathlib.Tactic.IntervalCases
import Verif.Props.RegisterFull
import Verif.Props.Flags

/-! # C134: the command line comes before the configuration file, which comes before the built-in settings -/

namespace Verif
open Spec

/-! ## Values on the line -/

theorem lineStr_cons (m v n d : Str) (l : List (Str × Str)) :
    lineStr ((m, v) :: l) n d = lineStr l n (if m = n then v else d) := by
  unfold lineStr
  rw [lastOf]
  cases lastOf n l with
  | some x => rfl
  | none => by_cases h : m = n <;> simp [h, Option.or]

theorem lineBool_cons (m v n : Str) (d : Bool) (l : List (Str × Str)) :
    lineBool ((m, v) :: l) n d = lineBool l n (if m = n then decide (v ∈ yesWords) else d) := by
  unfold lineBool
  rw [lastOf]
  cases lastOf n l with
  | some x => rfl
  | none => by_cases h : m = n <;> simp [h, Option.or]

theorem lineInt_cons (f : FlagEnv) (m v n : Str) (d : Int) (l : List (Str × Str)) :
    lineInt f ((m, v) :: l) n d = lineInt f l n (if m = n then (f.num v).getD 0 else d) := by
  unfold lineInt
  rw [lastOf]
  cases lastOf n l with
  | some x => rfl
  | none => by_cases h : m = n <;> simp [h, Option.or]

theorem lineChoice_cons (f : FlagEnv) (ws : List Str) (m v n : Str) (d : Str) (l : List (Str × Str)) :
    lineChoice f ws ((m, v) :: l) n d = lineChoice f ws l n (if m = n then (ws.find? fun w => f.eqf w v).getD [] else d) := by
  unfold lineChoice
  rw [lastOf]
  cases lastOf n l with
  | some x => rfl
  | none => by_cases h : m = n <;> simp [h, Option.or]

theorem parseBool_yes {v : Str} (h : v ∈ yesWords ∨ v ∈ noWords) : parseBool v = some (decide (v ∈ yesWords)) := by
  show (if v ∈ yesWords then some true else if v ∈ noWords then some false else none) = _
  by_cases hy : v ∈ yesWords
  · rw [if_pos hy]; simp [hy]
  · rw [if_neg hy, if_pos (h.resolve_left hy)]; simp [hy]

theorem parseBool_none {v : Str} (h : ¬ (v ∈ yesWords ∨ v ∈ noWords)) : parseBool v = none := by
  simp only [not_or] at h
  show (if v ∈ yesWords then some true else if v ∈ noWords then some false else none) = _
  rw [if_neg h.1, if_neg h.2]

/-! ## The flags and their tables -/

theorem stringVar_like {σ : Type} (fe : FlagEnv) (n : Str) (s : Option Nat) (v : σ → Str) (p : σ → Str → σ) :
    FlagLike fe (stringVar n s v p) (n, s, .text) where
  name := rfl
  short := rfl
  switch := by simp
  valued := fun _ => rfl
  set := by simp [stringVar, Kind.takes]

theorem boolVar_like {σ : Type} (fe : FlagEnv) (n : Str) (s : Option Nat) (v : σ → Bool) (p : σ → Bool → σ) :
    FlagLike fe (boolVar n s v p) (n, s, .switch) where
  name := rfl
  short := rfl
  switch := fun _ => rfl
  valued := by simp
  set := by
    intro c x
    simp only [boolVar, Kind.takes]
    by_cases h : x ∈ yesWords ∨ x ∈ noWords
    · rw [parseBool_yes h]; simpa using h
    · rw [parseBool_none h]; simpa using h

theorem intVar_like {σ : Type} (fe : FlagEnv) (n : Str) (v : σ → Int) (p : σ → Int → σ) :
    FlagLike fe (intVar fe.num n v p) (n, none, .number) where
  name := rfl
  short := rfl
  switch := by simp
  valued := fun _ => rfl
  set := by
    intro c x
    simp only [intVar, Kind.takes]
    cases fe.num x <;> simp

theorem choice_set (fe : FlagEnv) {ws : List Str} {v : Str} (h : ∃ w ∈ ws, fe.eqf w v = true) (old : Str) :
    enumSet fe.eqf ws old v = ((ws.find? fun w => fe.eqf w v).getD [], true) := by
  unfold enumSet
  cases hf : ws.find? fun w => fe.eqf w v with
  | none =>
    rw [List.find?_eq_none] at hf
    obtain ⟨w, hw, he⟩ := h
    exact absurd he (hf w hw)
  | some w => rfl

theorem choice_unset (fe : FlagEnv) {ws : List Str} {v : Str} (h : ¬ ∃ w ∈ ws, fe.eqf w v = true) (old : Str) :
    enumSet fe.eqf ws old v = (old, false) := by
  unfold enumSet
  cases hf : ws.find? fun w => fe.eqf w v with
  | none => rfl
  | some w => exact absurd ⟨w, List.mem_of_find?_eq_some hf, by simpa using List.find?_some hf⟩ h

theorem enumVar_like {σ : Type} (fe : FlagEnv) (n : Str) (ws : List Str) (v : σ → Str) (p : σ → Str → σ) :
    FlagLike fe (enumVar fe.eqf n ws v p) (n, none, .choice ws) where
  name := rfl
  short := rfl
  switch := by simp
  valued := fun _ => rfl
  set := by
    intro c x
    simp only [enumVar, Kind.takes]
    by_cases h : ∃ w ∈ ws, fe.eqf w x = true
    · rw [choice_set fe h]; simpa using h
    · rw [choice_unset fe h]; simpa using h

theorem app_like (fe : FlagEnv) : List.Forall₂ (FlagLike fe) appFlags appFlagTable := by
  unfold appFlags appFlagTable
  repeat' apply List.Forall₂.cons
  all_goals first | apply stringVar_like | apply boolVar_like | exact List.Forall₂.nil

theorem append_like {σ : Type} {fe : FlagEnv} {fs fs' : List (FlagOf σ)} {t t' : Table} (h : List.Forall₂ (FlagLike fe) fs t) (h' : List.Forall₂ (FlagLike fe) fs' t') :
    List.Forall₂ (FlagLike fe) (fs ++ fs') (t ++ t') := by
  induction h with
  | nil => exact h'
  | cons hx _ ih => exact List.Forall₂.cons hx ih

theorem report_linked (fe : FlagEnv) : Linked fe (reportFlags fe ++ appFlags) reportFlagTable where
  like := by
    refine append_like ?_ (app_like fe)
    unfold reportFlags
    repeat' apply List.Forall₂.cons
    all_goals first | apply stringVar_like | apply boolVar_like | apply enumVar_like | exact List.Forall₂.nil
  ok := ⟨by decide +kernel, by decide +kernel, by decide +kernel⟩

theorem register_linked (fe : FlagEnv) : Linked fe (registerFlags fe ++ appFlags) registerFlagTable where
  like := by
    refine append_like ?_ (app_like fe)
    unfold registerFlags
    repeat' apply List.Forall₂.cons
    all_goals first | apply stringVar_like | apply boolVar_like | apply enumVar_like | apply intVar_like | exact List.Forall₂.nil
  ok := ⟨by decide +kernel, by decide +kernel, by decide +kernel⟩

theorem export_linked (fe : FlagEnv) : Linked fe (exportFlags fe ++ appFlags) exportFlagTable where
  like := by
    refine append_like ?_ (app_like fe)
    unfold exportFlags
    repeat' apply List.Forall₂.cons
    all_goals first | apply stringVar_like | apply boolVar_like | apply enumVar_like | exact List.Forall₂.nil
  ok := ⟨by decide +kernel, by decide +kernel, by decide +kernel⟩

theorem accts_linked (fe : FlagEnv) : Linked fe (acctsFlags ++ appFlags) acctsFlagTable where
  like := by
    refine append_like ?_ (app_like fe)
    unfold acctsFlags
    repeat' apply List.Forall₂.cons
    all_goals first | apply boolVar_like | exact List.Forall₂.nil
  ok := ⟨by decide +kernel, by decide +kernel, by decide +kernel⟩

theorem ccy_linked (fe : FlagEnv) : Linked fe appFlags appFlagTable where
  like := app_like fe
  ok := ⟨by decide +kernel, by decide +kernel, by decide +kernel⟩

/-! ## The settings after the line -/

/-- The settings of the application after the flags. -/
def appWith (c : Conf) (l : List (Str × Str)) : Conf :=
  { c with
    app := { c.app with
      ledger := lineStr l b!"ledger" c.app.ledger
      baseCCY := lineStr l b!"ccy" c.app.baseCCY
      divider := lineStr l b!"divider" c.app.divider
      all := lineBool l b!"all" c.app.all }
    lang := lineStr l b!"lang" c.lang
    verbose := lineBool l b!"verbose" c.verbose
    colour := lineBool l b!"colour" c.colour
    help := lineBool l b!"help" c.help }

/-- And those of `report`. -/
def reportWith (fe : FlagEnv) (c : Conf) (l : List (Str × Str)) : Conf :=
  { appWith c l with
    report := {
      credit := lineStr l b!"credit" c.report.credit
      hidden := lineStr l b!"hidden" c.report.hidden
      convert := lineBool l b!"convert" c.report.convert
      sum := lineBool l b!"sum" c.report.sum
      typ := lineChoice fe reportTypes l b!"type" c.report.typ
      combineby := lineChoice fe splitTypes l b!"splitby" c.report.combineby }
    css := lineStr l b!"htmlcss" c.css
    reportPretty := lineBool l b!"jsonpretty" c.reportPretty }

/-- And those of `register`. -/
def registerWith (fe : FlagEnv) (c : Conf) (l : List (Str × Str)) : Conf :=
  { appWith c l with
    register := {
      beginDate := lineStr l b!"begin" c.register.beginDate
      endDate := lineStr l b!"asof" c.register.endDate
      count := lineInt fe l b!"count" c.register.count
      asc := lineBool l b!"asc" c.register.asc
      combined := lineBool l b!"combined" c.register.combined
      convert := lineBool l b!"convert" c.register.convert
      split := lineBool l b!"split" c.register.split }
    regType := lineChoice fe registerTypes l b!"type" c.regType
    zeroStart := lineBool l b!"zero" c.zeroStart }

/-- And those of `export`. -/
def exportWith (fe : FlagEnv) (c : Conf) (l : List (Str × Str)) : Conf :=
  { appWith c l with
    expType := lineChoice fe exportTypes l b!"type" c.expType
    expPretty := lineBool l b!"jsonpretty" c.expPretty }

/-- And those of `accts`. -/
def acctsWith (c : Conf) (l : List (Str × Str)) : Conf :=
  { appWith c l with json := lineBool l b!"json" c.json }

theorem bool_set {c : Conf} {v : Str} {p : Conf → Bool → Conf} (h : v ∈ yesWords ∨ v ∈ noWords) :
    (parseBool v).map (p c) = some (p c (decide (v ∈ yesWords))) := by
  rw [parseBool_yes h]; rfl

theorem num_set {fe : FlagEnv} {v : Str} (h : fe.num v ≠ none) : fe.num v = some ((fe.num v).getD 0) := by
  cases hn : fe.num v with
  | none => exact absurd hn h
  | some i => rfl

theorem enum_set (fe : FlagEnv) (n : Str) (ws : List Str) (value : Conf → Str) (p : Conf → Str → Conf) (c : Conf) (v : Str)
    (h : ∃ w ∈ ws, fe.eqf w v = true) : (enumVar fe.eqf n ws value p).set c v = some (p c ((ws.find? fun w => fe.eqf w v).getD [])) := by
  simp only [enumVar]
  rw [choice_set fe h]
  simp

theorem int_set (fe : FlagEnv) (n : Str) (value : Conf → Int) (p : Conf → Int → Conf) (c : Conf) (v : Str)
    (h : fe.num v ≠ none) : (intVar fe.num n value p).set c v = some (p c ((fe.num v).getD 0)) := by
  simp only [intVar]
  rw [num_set h]
  simp

theorem set_ccy (fe : FlagEnv) (c : Conf) (l : List (Str × Str)) (h : ∀ x ∈ l, kindOf appFlagTable x.1 ≠ none)
    (hg : ∀ x ∈ l, ∀ k, kindOf appFlagTable x.1 = some k → k.takes fe x.2) : setAll (appFlags) c l = some (appWith c l) := by
  induction l generalizing c with
  | nil => rfl
  | cons x l ih =>
    obtain ⟨n, v⟩ := x
    obtain ⟨k, hk⟩ := Option.ne_none_iff_exists'.1 (h (n, v) (by simp))
    have ht := hg (n, v) (by simp) k hk
    have ih := fun c => ih c (fun x hx => h x (by simp [hx])) (fun x hx => hg x (by simp [hx]))
    rw [setAll]
    simp only [ih]
    clear ih h hg
    obtain ⟨s, hm⟩ := kindOf_mem hk
    simp only [appFlagTable, List.cons_append, List.nil_append, List.mem_cons, List.not_mem_nil, or_false, Prod.mk.injEq] at hm
    clear hk
    casesm* _ ∨ _
    all_goals
      obtain ⟨rfl, -, rfl⟩ := hm
      rw [show longFlag (appFlags) _ = some _ from rfl]
      simp only [Kind.takes] at ht
      first
      | (simp [stringVar, appWith, lineStr_cons, lineBool_cons, lineChoice_cons, lineInt_cons]; done)
      | (simp [boolVar, parseBool_yes ht, appWith, lineStr_cons, lineBool_cons, lineChoice_cons, lineInt_cons]; done)
      | (rw [Option.bind_some, enum_set]
         · simp [appWith, lineStr_cons, lineBool_cons, lineChoice_cons, lineInt_cons]
         · exact ht)
      | (rw [Option.bind_some, int_set]
         · simp [appWith, lineStr_cons, lineBool_cons, lineChoice_cons, lineInt_cons]
         · exact ht)

theorem set_report (fe : FlagEnv) (c : Conf) (l : List (Str × Str)) (h : ∀ x ∈ l, kindOf reportFlagTable x.1 ≠ none)
    (hg : ∀ x ∈ l, ∀ k, kindOf reportFlagTable x.1 = some k → k.takes fe x.2) : setAll (reportFlags fe ++ appFlags) c l = some (reportWith fe c l) := by
  induction l generalizing c with
  | nil => rfl
  | cons x l ih =>
    obtain ⟨n, v⟩ := x
    obtain ⟨k, hk⟩ := Option.ne_none_iff_exists'.1 (h (n, v) (by simp))
    have ht := hg (n, v) (by simp) k hk
    have ih := fun c => ih c (fun x hx => h x (by simp [hx])) (fun x hx => hg x (by simp [hx]))
    rw [setAll]
    simp only [ih]
    clear ih h hg
    obtain ⟨s, hm⟩ := kindOf_mem hk
    simp only [reportFlagTable, appFlagTable, List.cons_append, List.nil_append, List.mem_cons, List.not_mem_nil, or_false, Prod.mk.injEq] at hm
    clear hk
    casesm* _ ∨ _
    all_goals
      obtain ⟨rfl, -, rfl⟩ := hm
      rw [show longFlag (reportFlags fe ++ appFlags) _ = some _ from rfl]
      simp only [Kind.takes] at ht
      first
      | (simp [stringVar, reportWith, appWith, lineStr_cons, lineBool_cons, lineChoice_cons, lineInt_cons]; done)
      | (simp [boolVar, parseBool_yes ht, reportWith, appWith, lineStr_cons, lineBool_cons, lineChoice_cons, lineInt_cons]; done)
      | (rw [Option.bind_some, enum_set]
         · simp [reportWith, appWith, lineStr_cons, lineBool_cons, lineChoice_cons, lineInt_cons]
         · exact ht)
      | (rw [Option.bind_some, int_set]
         · simp [reportWith, appWith, lineStr_cons, lineBool_cons, lineChoice_cons, lineInt_cons]
         · exact ht)

theorem set_register (fe : FlagEnv) (c : Conf) (l : List (Str × Str)) (h : ∀ x ∈ l, kindOf registerFlagTable x.1 ≠ none)
    (hg : ∀ x ∈ l, ∀ k, kindOf registerFlagTable x.1 = some k → k.takes fe x.2) : setAll (registerFlags fe ++ appFlags) c l = some (registerWith fe c l) := by
  induction l generalizing c with
  | nil => rfl
  | cons x l ih =>
    obtain ⟨n, v⟩ := x
    obtain ⟨k, hk⟩ := Option.ne_none_iff_exists'.1 (h (n, v) (by simp))
    have ht := hg (n, v) (by simp) k hk
    have ih := fun c => ih c (fun x hx => h x (by simp [hx])) (fun x hx => hg x (by simp [hx]))
    rw [setAll]
    simp only [ih]
    clear ih h hg
    obtain ⟨s, hm⟩ := kindOf_mem hk
    simp only [registerFlagTable, appFlagTable, List.cons_append, List.nil_append, List.mem_cons, List.not_mem_nil, or_false, Prod.mk.injEq] at hm
    clear hk
    casesm* _ ∨ _
    all_goals
      obtain ⟨rfl, -, rfl⟩ := hm
      rw [show longFlag (registerFlags fe ++ appFlags) _ = some _ from rfl]
      simp only [Kind.takes] at ht
      first
      | (simp [stringVar, registerWith, appWith, lineStr_cons, lineBool_cons, lineChoice_cons, lineInt_cons]; done)
      | (simp [boolVar, parseBool_yes ht, registerWith, appWith, lineStr_cons, lineBool_cons, lineChoice_cons, lineInt_cons]; done)
      | (rw [Option.bind_some, enum_set]
         · simp [registerWith, appWith, lineStr_cons, lineBool_cons, lineChoice_cons, lineInt_cons]
         · exact ht)
      | (rw [Option.bind_some, int_set]
         · simp [registerWith, appWith, lineStr_cons, lineBool_cons, lineChoice_cons, lineInt_cons]
         · exact ht)

theorem set_export (fe : FlagEnv) (c : Conf) (l : List (Str × Str)) (h : ∀ x ∈ l, kindOf exportFlagTable x.1 ≠ none)
    (hg : ∀ x ∈ l, ∀ k, kindOf exportFlagTable x.1 = some k → k.takes fe x.2) : setAll (exportFlags fe ++ appFlags) c l = some (exportWith fe c l) := by
  induction l generalizing c with
  | nil => rfl
  | cons x l ih =>
    obtain ⟨n, v⟩ := x
    obtain ⟨k, hk⟩ := Option.ne_none_iff_exists'.1 (h (n, v) (by simp))
    have ht := hg (n, v) (by simp) k hk
    have ih := fun c => ih c (fun x hx => h x (by simp [hx])) (fun x hx => hg x (by simp [hx]))
    rw [setAll]
    simp only [ih]
    clear ih h hg
    obtain ⟨s, hm⟩ := kindOf_mem hk
    simp only [exportFlagTable, appFlagTable, List.cons_append, List.nil_append, List.mem_cons, List.not_mem_nil, or_false, Prod.mk.injEq] at hm
    clear hk
    casesm* _ ∨ _
    all_goals
      obtain ⟨rfl, -, rfl⟩ := hm
      rw [show longFlag (exportFlags fe ++ appFlags) _ = some _ from rfl]
      simp only [Kind.takes] at ht
      first
      | (simp [stringVar, exportWith, appWith, lineStr_cons, lineBool_cons, lineChoice_cons, lineInt_cons]; done)
      | (simp [boolVar, parseBool_yes ht, exportWith, appWith, lineStr_cons, lineBool_cons, lineChoice_cons, lineInt_cons]; done)
      | (rw [Option.bind_some, enum_set]
         · simp [exportWith, appWith, lineStr_cons, lineBool_cons, lineChoice_cons, lineInt_cons]
         · exact ht)
      | (rw [Option.bind_some, int_set]
         · simp [exportWith, appWith, lineStr_cons, lineBool_cons, lineChoice_cons, lineInt_cons]
         · exact ht)

theorem set_accts (fe : FlagEnv) (c : Conf) (l : List (Str × Str)) (h : ∀ x ∈ l, kindOf acctsFlagTable x.1 ≠ none)
    (hg : ∀ x ∈ l, ∀ k, kindOf acctsFlagTable x.1 = some k → k.takes fe x.2) : setAll (acctsFlags ++ appFlags) c l = some (acctsWith c l) := by
  induction l generalizing c with
  | nil => rfl
  | cons x l ih =>
    obtain ⟨n, v⟩ := x
    obtain ⟨k, hk⟩ := Option.ne_none_iff_exists'.1 (h (n, v) (by simp))
    have ht := hg (n, v) (by simp) k hk
    have ih := fun c => ih c (fun x hx => h x (by simp [hx])) (fun x hx => hg x (by simp [hx]))
    rw [setAll]
    simp only [ih]
    clear ih h hg
    obtain ⟨s, hm⟩ := kindOf_mem hk
    simp only [acctsFlagTable, appFlagTable, List.cons_append, List.nil_append, List.mem_cons, List.not_mem_nil, or_false, Prod.mk.injEq] at hm
    clear hk
    casesm* _ ∨ _
    all_goals
      obtain ⟨rfl, -, rfl⟩ := hm
      rw [show longFlag (acctsFlags ++ appFlags) _ = some _ from rfl]
      simp only [Kind.takes] at ht
      first
      | (simp [stringVar, acctsWith, appWith, lineStr_cons, lineBool_cons, lineChoice_cons, lineInt_cons]; done)
      | (simp [boolVar, parseBool_yes ht, acctsWith, appWith, lineStr_cons, lineBool_cons, lineChoice_cons, lineInt_cons]; done)
      | (rw [Option.bind_some, enum_set]
         · simp [acctsWith, appWith, lineStr_cons, lineBool_cons, lineChoice_cons, lineInt_cons]
         · exact ht)
      | (rw [Option.bind_some, int_set]
         · simp [acctsWith, appWith, lineStr_cons, lineBool_cons, lineChoice_cons, lineInt_cons]
         · exact ht)

/-! ## The configuration file -/

theorem smallStr_eq : smallStr = lowerStr := by
  funext s
  unfold smallStr lowerStr
  congr 1
  funext c
  by_cases h : 65 ≤ c ∧ c ≤ 90
  · rw [if_pos h]
    obtain ⟨h1, h2⟩ := h
    interval_cases c <;> rfl
  · rw [if_neg h]
    have hb : ∀ x ∈ b!"ABCDEFGHIJKLMNOPQRSTUVWXYZ".zip b!"abcdefghijklmnopqrstuvwxyz", 65 ≤ x.1 ∧ x.1 ≤ 90 := by decide +kernel
    generalize b!"ABCDEFGHIJKLMNOPQRSTUVWXYZ".zip b!"abcdefghijklmnopqrstuvwxyz" = l at hb
    have hn : l.lookup c = none := by
      rw [List.lookup_eq_none_iff]
      intro x hx
      have := hb x hx
      simp only [beq_eq_false_iff_ne, bne_iff_ne, ne_eq]
      omega
    rw [hn]
    rfl

theorem hasMeaning_iff (k : List Str) : HasMeaning k ↔ knownKey k = true := by
  unfold HasMeaning knownKey keyPatterns
  rw [smallStr_eq]
  rcases k.map lowerStr with _ | ⟨a, _ | ⟨b, _ | ⟨c, _ | ⟨d, _ | ⟨e, l⟩⟩⟩⟩⟩
  · simp
  · simp [KeyWord.fits]
  · simp only [List.mem_cons, List.not_mem_nil, or_false, exists_eq_or_imp, exists_eq_left, List.forall₂_cons, List.forall₂_nil_right_iff,
      List.forall₂_nil_left_iff, KeyWord.fits, reduceCtorEq, and_false, false_or, and_true, or_false, List.cons_ne_nil]
    split_ifs with h1 h2 h3 h4
    · subst h1; simp
    · subst h2; simp
    · subst h3; simp
    · subst h4; simp
    · simp [h1, h2, h3, h4]
  · simp only [List.mem_cons, List.not_mem_nil, or_false, exists_eq_or_imp, exists_eq_left, List.forall₂_cons, List.forall₂_nil_right_iff,
      List.forall₂_nil_left_iff, KeyWord.fits, reduceCtorEq, and_false, false_or, and_true, or_false, List.cons_ne_nil]
    split_ifs with h1 h2 h3
    · subst h1; simp
    · subst h2; simp
    · subst h3; simp
    · simp [h1, h2, h3]
  · simp [KeyWord.fits]
  · simp

theorem fileStr_cons (k : List Str) (v : TomlVal) (l : Keys) (key : List Str) (d : Str) :
    fileStr ((k, v) :: l) key d = fileStr l key (fileStr [(k, v)] key d) := by
  cases v <;> rfl

theorem fileBool_cons (k : List Str) (v : TomlVal) (l : Keys) (key : List Str) (d : Bool) :
    fileBool ((k, v) :: l) key d = fileBool l key (fileBool [(k, v)] key d) := by
  cases v <;> rfl

theorem fileInt_cons (k : List Str) (v : TomlVal) (l : Keys) (key : List Str) (d : Int) :
    fileInt ((k, v) :: l) key d = fileInt l key (fileInt [(k, v)] key d) := by
  cases v <;> rfl

/-- The settings after the file. -/
def fileWith (c : Conf) (l : Keys) : Conf :=
  { c with
    app := {
      ledger := fileStr l [b!"ledger"] c.app.ledger
      baseCCY := fileStr l [b!"baseccy"] c.app.baseCCY
      divider := fileStr l [b!"divider"] c.app.divider
      all := fileBool l [b!"all"] c.app.all
      macros := fun m => (fileMacros l m).or (c.app.macros m) }
    lang := fileStr l [b!"lang"] c.lang
    verbose := fileBool l [b!"verbose"] c.verbose
    colour := fileBool l [b!"colour"] c.colour
    report := {
      credit := fileStr l [b!"report", b!"credit"] c.report.credit
      hidden := fileStr l [b!"report", b!"hidden"] c.report.hidden
      convert := fileBool l [b!"report", b!"convert"] c.report.convert
      sum := fileBool l [b!"report", b!"sum"] c.report.sum
      typ := fileStr l [b!"report", b!"type"] c.report.typ
      combineby := fileStr l [b!"report", b!"combineby"] c.report.combineby }
    css := fileStr l [b!"report", b!"htmlcss"] c.css
    reportPretty := fileBool l [b!"report", b!"jsonpretty"] c.reportPretty
    register := {
      beginDate := fileStr l [b!"register", b!"begindate"] c.register.beginDate
      endDate := fileStr l [b!"register", b!"enddate"] c.register.endDate
      count := fileInt l [b!"register", b!"count"] c.register.count
      asc := fileBool l [b!"register", b!"asc"] c.register.asc
      combined := fileBool l [b!"register", b!"combined"] c.register.combined
      convert := fileBool l [b!"register", b!"convert"] c.register.convert
      split := fileBool l [b!"register", b!"split"] c.register.split }
    regType := fileStr l [b!"register", b!"type"] c.regType
    zeroStart := fileBool l [b!"register", b!"zerostart"] c.zeroStart
    expType := fileStr l [b!"export", b!"type"] c.expType
    expPretty := fileBool l [b!"export", b!"jsonpretty"] c.expPretty }

theorem fileMacros_cons (k : List Str) (v : TomlVal) (l : Keys) (m : Str) :
    fileMacros ((k, v) :: l) m = (fileMacros l m).or (fileMacros [(k, v)] m) := by
  rw [fileMacros, fileMacros, fileMacros]
  rfl

theorem fileWith_cons (c : Conf) (k : List Str) (v : TomlVal) (l : Keys) :
    fileWith (fileWith c [(k, v)]) l = fileWith c ((k, v) :: l) := by
  simp only [fileWith, fileStr_cons k v l, fileBool_cons k v l, fileInt_cons k v l, fileMacros_cons k v l, Option.or_assoc]

theorem keyEntry_some {α : Type} {k : List Str} {l : List (List Str × α)} {x : α} (h : entry k l = some x) : (k, x) ∈ l := by
  induction l with
  | nil => simp [entry] at h
  | cons y l ih =>
    obtain ⟨k', y⟩ := y
    unfold entry at h
    split at h
    · next he => subst he; cases h; simp
    · exact List.mem_cons_of_mem _ (ih h)

theorem keyEntry_none {α : Type} {k : List Str} {l : List (List Str × α)} (h : entry k l = none) : k ∉ l.map (·.1) := by
  induction l with
  | nil => simp
  | cons y l ih =>
    obtain ⟨k', y⟩ := y
    unfold entry at h
    split at h
    · cases h
    · next he => simp only [List.map_cons, List.mem_cons, not_or]; exact ⟨fun h => he h.symm, ih h⟩

theorem strKeys_keys : strKeys.map (·.1) = textKeys := rfl
theorem boolKeys_keys : boolKeys.map (·.1) = switchKeys := rfl

theorem known_text {k : List Str} (h : k.map lowerStr ∈ textKeys) : knownKey k = true := by
  unfold knownKey
  simp only [textKeys, List.mem_cons, List.not_mem_nil, or_false] at h
  casesm* _ ∨ _ <;> (rw [h]; decide +kernel)

theorem known_switch {k : List Str} (h : k.map lowerStr ∈ switchKeys) : knownKey k = true := by
  unfold knownKey
  simp only [switchKeys, List.mem_cons, List.not_mem_nil, or_false] at h
  casesm* _ ∨ _ <;> (rw [h]; decide +kernel)

theorem known_count {k : List Str} (h : k.map lowerStr = [b!"register", b!"count"]) : knownKey k = true := by
  unfold knownKey
  rw [h]; decide +kernel

theorem known_macro {t n : Str} (h : lowerStr t = b!"macros") : knownKey [t, n] = true := by
  unfold knownKey
  simp [h]

/-- No macro unless the key is in the table of macros. -/
theorem macroOf_key {k : List Str} {v : TomlVal} (h : ∀ t n, k = [t, n] → lowerStr t ≠ b!"macros") : macroOf k v = none := by
  unfold macroOf
  split
  · next t n x => rw [smallStr_eq, if_neg (h t n rfl)]
  · rfl

theorem sameKey_of {k key : List Str} (h : k.map lowerStr = key) (key' : List Str) : sameKey k key' = decide (key = key') := by
  unfold sameKey; rw [smallStr_eq, h]

/-- Another key's value of a kind changes nothing. -/
theorem sameKey_not {k : List Str} {ks : List (List Str)} (h : k.map lowerStr ∉ ks) {key : List Str} (hk : key ∈ ks) : sameKey k key = false := by
  unfold sameKey
  rw [decide_eq_false_iff_not, smallStr_eq]
  rintro rfl
  exact h hk

theorem str_other (k : List Str) (v : TomlVal) (key : List Str) (d : Str) (h : (∀ s, v ≠ .str s) ∨ sameKey k key = false) :
    fileStr [(k, v)] key d = d := by
  cases v with
  | str s =>
    rcases h with h | h
    · exact absurd rfl (h s)
    · simp [fileStr, h]
  | _ => rfl

theorem bool_other (k : List Str) (v : TomlVal) (key : List Str) (d : Bool) (h : (∀ s, v ≠ .bool s) ∨ sameKey k key = false) :
    fileBool [(k, v)] key d = d := by
  cases v with
  | bool s =>
    rcases h with h | h
    · exact absurd rfl (h s)
    · simp [fileBool, h]
  | _ => rfl

theorem int_other (k : List Str) (v : TomlVal) (key : List Str) (d : Int) (h : (∀ s, v ≠ .int s) ∨ sameKey k key = false) :
    fileInt [(k, v)] key d = d := by
  cases v with
  | int s =>
    rcases h with h | h
    · exact absurd rfl (h s)
    · simp [fileInt, h]
  | _ => rfl

/-- An entry that is no text, switch, number or macro of ours changes nothing. -/
theorem fileWith_other (c : Conf) (k : List Str) (v : TomlVal) (h1 : (∀ s, v ≠ .str s) ∨ k.map lowerStr ∉ textKeys)
    (h2 : (∀ s, v ≠ .bool s) ∨ k.map lowerStr ∉ switchKeys) (h3 : (∀ s, v ≠ .int s) ∨ k.map lowerStr ≠ [b!"register", b!"count"])
    (h4 : macroOf k v = none) : fileWith c [(k, v)] = c := by
  have hs : ∀ key ∈ textKeys, ∀ d, fileStr [(k, v)] key d = d := fun key hk d => str_other k v key d (h1.imp_right fun h => sameKey_not h hk)
  have hb : ∀ key ∈ switchKeys, ∀ d, fileBool [(k, v)] key d = d := fun key hk d => bool_other k v key d (h2.imp_right fun h => sameKey_not h hk)
  have hi : ∀ d, fileInt [(k, v)] [b!"register", b!"count"] d = d := fun d => int_other k v _ d (h3.imp_right fun h => by
    unfold sameKey; rw [smallStr_eq]; simpa using h)
  have hm : ∀ m, fileMacros [(k, v)] m = none := by intro m; rw [fileMacros, h4]; rfl
  simp only [textKeys, List.forall_mem_cons] at hs
  simp only [switchKeys, List.forall_mem_cons] at hb
  simp only [fileWith, hs, hb, hi, hm, Option.none_or]

theorem two_key {t n : Str} {a b : Str} (h : [t, n].map lowerStr = [a, b]) : lowerStr t = a := by simp at h; exact h.1

theorem macro_not_listed {k : List Str} {ks : List (List Str)} (hks : ∀ x ∈ ks, x.head? ≠ some b!"macros" ∨ x.length ≠ 2) (h : k.map lowerStr ∈ ks) :
    ∀ t n, k = [t, n] → lowerStr t ≠ b!"macros" := by
  rintro t n rfl hm
  rcases hks _ h with h | h
  · simp [hm] at h
  · simp at h

theorem macro_not_text {k : List Str} (h : k.map lowerStr ∈ textKeys) : ∀ t n, k = [t, n] → lowerStr t ≠ b!"macros" :=
  macro_not_listed (by decide +kernel) h

theorem macro_not_switch {k : List Str} (h : k.map lowerStr ∈ switchKeys) : ∀ t n, k = [t, n] → lowerStr t ≠ b!"macros" :=
  macro_not_listed (by decide +kernel) h

theorem macro_not_count {k : List Str} (h : k.map lowerStr = [b!"register", b!"count"]) : ∀ t n, k = [t, n] → lowerStr t ≠ b!"macros" :=
  macro_not_listed (ks := [[b!"register", b!"count"]]) (by decide +kernel) (by simp [h])

theorem text_not_switch {key : List Str} (h : key ∈ textKeys) : key ∉ switchKeys := by revert key; decide +kernel
theorem text_not_count {key : List Str} (h : key ∈ textKeys) : key ≠ [b!"register", b!"count"] := by revert key; decide +kernel
theorem switch_not_count {key : List Str} (h : key ∈ switchKeys) : key ≠ [b!"register", b!"count"] := by revert key; decide +kernel

/-- The same in terms of the program's own table of keys. -/
def KeyOk (k : List Str) (v : TomlVal) : Prop :=
  knownKey k = true ∧
  (k.map lowerStr ∈ textKeys → ∃ s, v = .str s) ∧ (k.map lowerStr ∈ switchKeys → ∃ b, v = .bool b) ∧
  (k.map lowerStr = [b!"register", b!"count"] → ∃ i, v = .int i) ∧ (∀ t n, k = [t, n] → lowerStr t = b!"macros" → ∃ l, v = .strs l)

theorem keyGood_iff (k : List Str) (v : TomlVal) : KeyGood k v ↔ KeyOk k v := by
  unfold KeyGood KeyOk
  rw [hasMeaning_iff, smallStr_eq]

/-- One key. -/
theorem set_toml_one (c : Conf) (k : List Str) (v : TomlVal) :
    (KeyOk k v → setKey1 c k v = some (fileWith c [(k, v)])) ∧ (¬ KeyOk k v → setKey1 c k v = none) := by
  unfold setKey1
  simp only
  cases hs : entry (k.map lowerStr) strKeys with
  | some f =>
    have hf := keyEntry_some hs
    have hk : k.map lowerStr ∈ textKeys := by rw [← strKeys_keys]; exact List.mem_map_of_mem (f := (·.1)) hf
    have hgood : KeyOk k v ↔ ∃ s, v = .str s :=
      ⟨fun h => h.2.1 hk, fun h => ⟨known_text hk, fun _ => h, fun h' => absurd h' (text_not_switch hk), fun h' => absurd h' (text_not_count hk),
        fun t n h1 h2 => absurd h2 (macro_not_text hk t n h1)⟩⟩
    rw [hgood]
    cases v with
    | str s =>
      refine ⟨fun _ => ?_, fun h => absurd ⟨s, rfl⟩ h⟩
      simp only [Option.some.injEq]
      have hm : ∀ m, fileMacros [(k, .str s)] m = none := by intro m; rw [fileMacros, macroOf_key (macro_not_text hk)]; rfl
      simp only [strKeys, List.mem_cons, List.not_mem_nil, or_false, Prod.mk.injEq] at hf
      casesm* _ ∨ _
      all_goals
        obtain ⟨h1, rfl⟩ := hf
        simp only [fileWith, fileStr, fileBool, fileInt, hm, sameKey_of h1, Option.none_or]
        simp
    | _ => exact ⟨fun h => by simp at h, fun _ => rfl⟩
  | none =>
    have hk : k.map lowerStr ∉ textKeys := by rw [← strKeys_keys]; exact keyEntry_none hs
    cases hb : entry (k.map lowerStr) boolKeys with
    | some f =>
      have hf := keyEntry_some hb
      have hk' : k.map lowerStr ∈ switchKeys := by rw [← boolKeys_keys]; exact List.mem_map_of_mem (f := (·.1)) hf
      have hgood : KeyOk k v ↔ ∃ s, v = .bool s :=
        ⟨fun h => h.2.2.1 hk', fun h => ⟨known_switch hk', fun h' => absurd h' hk, fun _ => h, fun h' => absurd h' (switch_not_count hk'),
          fun t n h1 h2 => absurd h2 (macro_not_switch hk' t n h1)⟩⟩
      rw [hgood]
      cases v with
      | bool s =>
        refine ⟨fun _ => ?_, fun h => absurd ⟨s, rfl⟩ h⟩
        simp only [Option.some.injEq]
        have hm : ∀ m, fileMacros [(k, .bool s)] m = none := by intro m; rw [fileMacros, macroOf_key (macro_not_switch hk')]; rfl
        simp only [boolKeys, List.mem_cons, List.not_mem_nil, or_false, Prod.mk.injEq] at hf
        casesm* _ ∨ _
        all_goals
          obtain ⟨h1, rfl⟩ := hf
          simp only [fileWith, fileStr, fileBool, fileInt, hm, sameKey_of h1, Option.none_or]
          simp
      | _ => exact ⟨fun h => by simp at h, fun _ => rfl⟩
    | none =>
      have hk' : k.map lowerStr ∉ switchKeys := by rw [← boolKeys_keys]; exact keyEntry_none hb
      simp only
      split
      · next hc =>
        have hgood : KeyOk k v ↔ ∃ s, v = .int s :=
          ⟨fun h => h.2.2.2.1 hc, fun h => ⟨known_count hc, fun h' => absurd h' hk, fun h' => absurd h' hk', fun _ => h,
            fun t n h1 h2 => absurd h2 (macro_not_count hc t n h1)⟩⟩
        rw [hgood]
        cases v with
        | int s =>
          refine ⟨fun _ => ?_, fun h => absurd ⟨s, rfl⟩ h⟩
          simp only [Option.some.injEq]
          have hm : ∀ m, fileMacros [(k, .int s)] m = none := by intro m; rw [fileMacros, macroOf_key (macro_not_count hc)]; rfl
          simp only [fileWith, fileStr, fileBool, fileInt, hm, sameKey_of hc, Option.none_or]
          simp
        | _ => exact ⟨fun h => by simp at h, fun _ => rfl⟩
      · next hc =>
        have hrest : (∀ t n, k = [t, n] → lowerStr t ≠ b!"macros") →
            (KeyOk k v → (if knownKey k then some c else none) = some (fileWith c [(k, v)])) ∧
            (¬ KeyOk k v → (if knownKey k then some c else none) = none) := by
          intro hn
          have hgood : KeyOk k v ↔ knownKey k = true :=
            ⟨fun h => h.1, fun h => ⟨h, fun h' => absurd h' hk, fun h' => absurd h' hk', fun h' => absurd h' hc, fun t n h1 h2 => absurd h2 (hn t n h1)⟩⟩
          rw [hgood, fileWith_other c k v (Or.inr hk) (Or.inr hk') (Or.inr hc) (macroOf_key hn)]
          exact ⟨fun h => by rw [if_pos h], fun h => by rw [if_neg h]⟩
        split
        · next t n =>
          split
          · next hm =>
            have hgood : KeyOk [t, n] v ↔ ∃ s, v = .strs s :=
              ⟨fun h => h.2.2.2.2 t n rfl hm, fun h => ⟨known_macro hm, fun h' => absurd h' hk, fun h' => absurd h' hk', fun h' => absurd h' hc,
                fun _ _ _ _ => h⟩⟩
            rw [hgood]
            cases v with
            | strs s =>
              refine ⟨fun _ => ?_, fun h => absurd ⟨s, rfl⟩ h⟩
              have : fileMacros [([t, n], .strs s)] = fun m => if m = n then some s else none := by
                funext m
                rw [fileMacros, macroOf, smallStr_eq, if_pos hm]
                simp only [Option.bind_some, fileMacros, Option.none_or, eq_comm]
              simp only [fileWith, fileStr, fileBool, fileInt, this]
              congr 3
              funext m
              by_cases h : m = n <;> simp [h]
            | _ => exact ⟨fun h => by simp at h, fun _ => rfl⟩
          · next hm =>
            refine hrest ?_
            rintro t' n' h
            simp at h
            rw [← h.1]
            exact hm
        · next hno =>
          refine hrest ?_
          rintro t n rfl
          exact (hno t n rfl).elim

/-- One key. -/
theorem set_toml1 (c : Conf) (k : List Str) (v : TomlVal) :
    (KeyGood k v → setKey1 c k v = some (fileWith c [(k, v)])) ∧ (¬ KeyGood k v → setKey1 c k v = none) := by
  rw [keyGood_iff]
  exact set_toml_one c k v

/-- All the keys. -/
theorem set_toml (c : Conf) (keys : Keys) :
    ((∀ x ∈ keys, KeyGood x.1 x.2) → setKeys c keys = some (fileWith c keys)) ∧ (¬ (∀ x ∈ keys, KeyGood x.1 x.2) → setKeys c keys = none) := by
  induction keys generalizing c with
  | nil =>
    refine ⟨fun _ => ?_, fun h => absurd (by simp) h⟩
    simp [setKeys, fileWith, fileStr, fileBool, fileInt, fileMacros]
  | cons x keys ih =>
    obtain ⟨k, v⟩ := x
    simp only [List.forall_mem_cons, setKeys]
    by_cases hx : KeyGood k v
    · rw [(set_toml1 c k v).1 hx, Option.bind_some]
      constructor
      · intro h
        rw [(ih _).1 h.2, fileWith_cons]
      · intro h
        exact (ih _).2 fun h' => h ⟨hx, h'⟩
    · rw [(set_toml1 c k v).2 hx]
      exact ⟨fun h => absurd h.1 hx, fun _ => rfl⟩

/-! ## The program -/

theorem string_declare (n : Str) (s : Option Nat) (v : Conf → Str) (p : Conf → Str → Conf) (c : Conf) : (stringVar n s v p).declare c = p c (v c) := rfl
theorem bool_declare (n : Str) (s : Option Nat) (v : Conf → Bool) (p : Conf → Bool → Conf) (c : Conf) : (boolVar n s v p).declare c = p c (v c) := rfl
theorem int_declare (num : Str → Option Int) (n : Str) (v : Conf → Int) (p : Conf → Int → Conf) (c : Conf) : (intVar num n v p).declare c = p c (v c) := rfl
theorem enum_declare (eqf : Str → Str → Bool) (n : Str) (ws : List Str) (v : Conf → Str) (p : Conf → Str → Conf) (c : Conf) :
    (enumVar eqf n ws v p).declare c = c := rfl

theorem declareAll_eq (fe : FlagEnv) (c : Conf) : declareAll fe c = { c with json := false, help := false } := by
  unfold declareAll appFlags acctsFlags reportFlags registerFlags exportFlags
  simp only [List.cons_append, List.nil_append, List.foldl_cons, List.foldl_nil, string_declare, bool_declare, int_declare, enum_declare]

theorem flags_known_line {t : Table} (ht : TableOk t) (l : CmdLine) (hf : ∀ p ∈ l.parts, p.Fits t) : ∀ x ∈ l.flags t, kindOf t x.1 ≠ none := by
  intro x hx
  obtain ⟨p, hp, hx⟩ := List.mem_flatMap.1 hx
  exact flags_known ht p (hf p hp) x hx

/-- The settings when the flags are read. -/
def startConf (env : Option Str) (keys : Keys) : Conf := { fileWith (defaultConf env) keys with json := false, help := false }

theorem main_known (w : World) (env : Option Str) (keys : Keys) (other : List Str → Conf → Exit) (name : Str) (args : List Str) (k : Cmd)
    (hk : ∀ x ∈ keys, KeyGood x.1 x.2) (hn : findCmd name = some k) :
    mainCmd w env (some keys) other (name :: args) = k.execute w name args (startConf env keys) := by
  unfold mainCmd
  rw [Option.bind_some, (set_toml _ _).1 hk]
  simp only [hn, declareAll_eq]
  rfl

theorem execute_line (w : World) (name : Str) (l : CmdLine) (k : Cmd) {t : Table} (hl : Linked w.flags (k.flags w.flags) t)
    (hg : l.Good w.flags t) (c c' : Conf) (hs : setAll (k.flags w.flags) c (l.flags t) = some c') :
    k.execute w name l.text c = if c'.help then .done 0 [.text (w.usage name)] else if k.takes l.words.length = false then .done 1 []
      else (k.run w c' l.words).exit := by
  unfold Cmd.execute
  rw [parse_line hl l hg.1, hs]
  rfl

theorem app_settings (env : Option Str) (keys : Keys) (l : List (Str × Str)) : (appWith (startConf env keys) l).app = appOf keys l := by
  simp only [appWith, startConf, fileWith, appOf, defaultConf, Option.or_none]

/-- C134, `report`: the settings it works with are those of the command line, or else of the configuration file, or else the built-in ones; the
arguments are the words of the line that are no flags. -/
theorem c134_report (w : World) (env : Option Str) (keys : Keys) (other : List Str → Conf → Exit) (name : Str) (l : CmdLine)
    (hn : name ∈ [b!"report", b!"trans", b!"transactions"]) (hk : ∀ x ∈ keys, KeyGood x.1 x.2) (hl : l.Good w.flags reportFlagTable)
    (hh : asksHelp (l.flags reportFlagTable) = false) :
    mainCmd w env (some keys) other (name :: l.text) =
      ((reportFull w.files w.depth w.ops w.fuel (appOf keys (l.flags reportFlagTable)) (reportOf w.flags keys (l.flags reportFlagTable)) w.order
        (w.lang (langOf env keys (l.flags reportFlagTable))) w.print { w.screen with colour := colourOf keys (l.flags reportFlagTable) }
        (cssOf keys (l.flags reportFlagTable)) l.words).bind fun x => .ok [x]).exit := by
  have hfind : findCmd name = some .report := by unfold findCmd; rw [if_pos hn]
  have hlk := report_linked w.flags
  rw [main_known w env keys other name _ .report hk hfind,
    execute_line w name l .report hlk hl _ _ (set_report w.flags _ _ (flags_known_line hlk.ok l hl.1) hl.2)]
  have hhelp : (reportWith w.flags (startConf env keys) (l.flags reportFlagTable)).help = false := hh
  rw [hhelp]
  simp only [Bool.false_eq_true, if_false, Cmd.takes, Bool.true_eq_false, Cmd.run]
  rw [show (reportWith w.flags (startConf env keys) (l.flags reportFlagTable)).app = appOf keys (l.flags reportFlagTable) from app_settings env keys _]
  rfl

/-- C134, `register`. -/
theorem c134_register (w : World) (env : Option Str) (keys : Keys) (other : List Str → Conf → Exit) (l : CmdLine) (args : List Str) (acct : Str)
    (hk : ∀ x ∈ keys, KeyGood x.1 x.2) (hl : l.Good w.flags registerFlagTable)
    (hh : asksHelp (l.flags registerFlagTable) = false) (ha : l.words = args ++ [acct]) :
    mainCmd w env (some keys) other (b!"register" :: l.text) =
      (registerFull w.files w.depth w.ops w.fuel (appOf keys (l.flags registerFlagTable)) (registerOf w.flags keys (l.flags registerFlagTable))
        (w.lang (langOf env keys (l.flags registerFlagTable))) w.print { w.screen with colour := colourOf keys (l.flags registerFlagTable) }
        (regTypeOf w.flags keys (l.flags registerFlagTable)) args acct).exit := by
  have hfind : findCmd b!"register" = some .register := rfl
  have hlk := register_linked w.flags
  rw [main_known w env keys other _ _ .register hk hfind,
    execute_line w _ l .register hlk hl _ _ (set_register w.flags _ _ (flags_known_line hlk.ok l hl.1) hl.2)]
  have hhelp : (registerWith w.flags (startConf env keys) (l.flags registerFlagTable)).help = false := hh
  rw [hhelp, ha]
  simp only [Bool.false_eq_true, if_false, Cmd.takes, Cmd.run, List.dropLast_concat, List.getLast?_concat, Option.getD_some, List.length_append,
    List.length_singleton, Nat.le_add_left, decide_true, Bool.true_eq_false]
  rw [show (registerWith w.flags (startConf env keys) (l.flags registerFlagTable)).app = appOf keys (l.flags registerFlagTable) from app_settings env keys _]
  rfl

/-- C134, `export`. -/
theorem c134_export (w : World) (env : Option Str) (keys : Keys) (other : List Str → Conf → Exit) (l : CmdLine)
    (hk : ∀ x ∈ keys, KeyGood x.1 x.2) (hl : l.Good w.flags exportFlagTable) (hh : asksHelp (l.flags exportFlagTable) = false) :
    mainCmd w env (some keys) other (b!"export" :: l.text) =
      ((exportCmd w.files w.depth w.ops w.fuel (appOf keys (l.flags exportFlagTable)) (w.lang (langOf env keys (l.flags exportFlagTable))) w.print
        (expTypeOf w.flags keys (l.flags exportFlagTable)) l.words).bind fun x => .ok [x]).exit := by
  have hfind : findCmd b!"export" = some .export := rfl
  have hlk := export_linked w.flags
  rw [main_known w env keys other _ _ .export hk hfind,
    execute_line w _ l .export hlk hl _ _ (set_export w.flags _ _ (flags_known_line hlk.ok l hl.1) hl.2)]
  have hhelp : (exportWith w.flags (startConf env keys) (l.flags exportFlagTable)).help = false := hh
  rw [hhelp]
  simp only [Bool.false_eq_true, if_false, Cmd.takes, Bool.true_eq_false, Cmd.run]
  rw [show (exportWith w.flags (startConf env keys) (l.flags exportFlagTable)).app = appOf keys (l.flags exportFlagTable) from app_settings env keys _]
  rfl

/-- C134, `accts`. -/
theorem c134_accts (w : World) (env : Option Str) (keys : Keys) (other : List Str → Conf → Exit) (name : Str) (l : CmdLine)
    (hn : name ∈ [b!"accts", b!"accounts"]) (hk : ∀ x ∈ keys, KeyGood x.1 x.2) (hl : l.Good w.flags acctsFlagTable)
    (hh : asksHelp (l.flags acctsFlagTable) = false) (ha : l.words.length ≤ 1) :
    mainCmd w env (some keys) other (name :: l.text) =
      ((acctsCmd w.files w.depth w.ops (appOf keys (l.flags acctsFlagTable)) l.words.head?).bind fun names =>
        if lineBool (l.flags acctsFlagTable) b!"json" false then .ok [.json (acctsJSON names)]
        else .orCrash ((acctsText w.screen.prt w.screen.width (colourOf keys (l.flags acctsFlagTable)) names).map fun x => [.text x.flatten])).exit := by
  have hfind : findCmd name = some .accts := by
    simp only [List.mem_cons, List.not_mem_nil, or_false] at hn
    rcases hn with rfl | rfl <;> rfl
  have hlk := accts_linked w.flags
  rw [main_known w env keys other _ _ .accts hk hfind,
    execute_line w _ l .accts hlk hl _ _ (set_accts w.flags _ _ (flags_known_line hlk.ok l hl.1) hl.2)]
  have hhelp : (acctsWith (startConf env keys) (l.flags acctsFlagTable)).help = false := hh
  rw [hhelp]
  simp only [Bool.false_eq_true, if_false, Cmd.takes, Cmd.run, ha, decide_true, Bool.true_eq_false]
  rw [show (acctsWith (startConf env keys) (l.flags acctsFlagTable)).app = appOf keys (l.flags acctsFlagTable) from app_settings env keys _]
  rfl

/-- C134, `ccy`. -/
theorem c134_ccy (w : World) (env : Option Str) (keys : Keys) (other : List Str → Conf → Exit) (l : CmdLine)
    (hk : ∀ x ∈ keys, KeyGood x.1 x.2) (hl : l.Good w.flags appFlagTable) (hh : asksHelp (l.flags appFlagTable) = false) (ha : l.words = []) :
    mainCmd w env (some keys) other (b!"ccy" :: l.text) =
      ((ccyCmd w.files w.depth w.ops (appOf keys (l.flags appFlagTable)) w.ccyOrder).bind fun s => .ok [.text s]).exit := by
  have hfind : findCmd b!"ccy" = some .ccy := rfl
  have hlk := ccy_linked w.flags
  rw [main_known w env keys other _ _ .ccy hk hfind,
    execute_line w _ l .ccy hlk hl _ _ (set_ccy w.flags _ _ (flags_known_line hlk.ok l hl.1) hl.2)]
  have hhelp : (appWith (startConf env keys) (l.flags appFlagTable)).help = false := hh
  rw [hhelp, ha]
  simp only [Bool.false_eq_true, if_false, Cmd.takes, Cmd.run, List.length_nil, decide_true, Bool.true_eq_false]
  rw [show (appWith (startConf env keys) (l.flags appFlagTable)).app = appOf keys (l.flags appFlagTable) from app_settings env keys _]

/-- Every command has its table. -/
theorem command_linked (fe : FlagEnv) {names : List Str} {t : Table} (h : (names, t) ∈ commandTables) {name : Str} (hn : name ∈ names) :
    ∃ k, findCmd name = some k ∧ Linked fe (k.flags fe) t ∧
      ∀ c l, (∀ x ∈ l, kindOf t x.1 ≠ none) → (∀ x ∈ l, ∀ k, kindOf t x.1 = some k → k.takes fe x.2) →
        c.help = false → ∃ c', setAll (k.flags fe) c l = some c' ∧ c'.help = asksHelp l := by
  simp only [commandTables, List.mem_cons, List.not_mem_nil, or_false, Prod.mk.injEq] at h
  rcases h with ⟨rfl, rfl⟩ | ⟨rfl, rfl⟩ | ⟨rfl, rfl⟩ | ⟨rfl, rfl⟩ | ⟨rfl, rfl⟩
  · refine ⟨.report, by unfold findCmd; rw [if_pos hn], report_linked fe, fun c l h1 h2 h3 => ⟨_, set_report fe c l h1 h2, ?_⟩⟩
    show lineBool l _ c.help = _
    rw [h3]; rfl
  · simp only [List.mem_singleton] at hn; subst hn
    refine ⟨.register, rfl, register_linked fe, fun c l h1 h2 h3 => ⟨_, set_register fe c l h1 h2, ?_⟩⟩
    show lineBool l _ c.help = _
    rw [h3]; rfl
  · simp only [List.mem_singleton] at hn; subst hn
    refine ⟨.export, rfl, export_linked fe, fun c l h1 h2 h3 => ⟨_, set_export fe c l h1 h2, ?_⟩⟩
    show lineBool l _ c.help = _
    rw [h3]; rfl
  · refine ⟨.accts, ?_, accts_linked fe, fun c l h1 h2 h3 => ⟨_, set_accts fe c l h1 h2, ?_⟩⟩
    · simp only [List.mem_cons, List.not_mem_nil, or_false] at hn
      rcases hn with rfl | rfl <;> rfl
    · show lineBool l _ c.help = _
      rw [h3]; rfl
  · simp only [List.mem_singleton] at hn; subst hn
    refine ⟨.ccy, rfl, ccy_linked fe, fun c l h1 h2 h3 => ⟨_, set_ccy fe c l h1 h2, ?_⟩⟩
    show lineBool l _ c.help = _
    rw [h3]; rfl

/-- C134, lines that cannot be read with the flags of the command: the program ends with status 1 and no output, whatever the rest. -/
theorem c134_refused (w : World) (env : Option Str) (keys : Keys) (other : List Str → Conf → Exit) (names : List Str) (t : Table) (name : Str)
    (args : List Str) (hc : (names, t) ∈ commandTables) (hn : name ∈ names) (h : ¬ ∃ l : CmdLine, l.text = args ∧ l.Good w.flags t) :
    mainCmd w env (some keys) other (name :: args) = .done 1 [] := by
  by_cases hk : ∀ x ∈ keys, KeyGood x.1 x.2
  · obtain ⟨k, hf, hlk, _⟩ := command_linked w.flags hc hn
    rw [main_known w env keys other name args k hk hf]
    unfold Cmd.execute
    have := (parse_iff hlk args (startConf env keys)).not.2 h
    simp only [Option.isSome_iff_ne_none, ne_eq, not_not] at this
    rw [this]
  · unfold mainCmd
    rw [Option.bind_some, (set_toml _ _).2 hk]

/-- C134, help: the usage text and status 0, whatever the ledger. -/
theorem c134_help (w : World) (env : Option Str) (keys : Keys) (other : List Str → Conf → Exit) (names : List Str) (t : Table) (name : Str)
    (l : CmdLine) (hc : (names, t) ∈ commandTables) (hn : name ∈ names) (hk : ∀ x ∈ keys, KeyGood x.1 x.2) (hl : l.Good w.flags t)
    (hh : asksHelp (l.flags t) = true) :
    mainCmd w env (some keys) other (name :: l.text) = .done 0 [.text (w.usage name)] := by
  obtain ⟨k, hf, hlk, hset⟩ := command_linked w.flags hc hn
  obtain ⟨c', hs, hhelp⟩ := hset (startConf env keys) (l.flags t) (flags_known_line hlk.ok l hl.1) hl.2 rfl
  rw [main_known w env keys other name _ k hk hf, execute_line w name l k hlk hl _ _ hs, hhelp, hh]
  rfl

/-- C134, a configuration file with a key there is no setting for, or a value of the wrong kind: status 1, whatever the command line. -/
theorem c134_bad_file (w : World) (env : Option Str) (keys : Keys) (other : List Str → Conf → Exit) (args : List Str)
    (hk : ¬ ∀ x ∈ keys, KeyGood x.1 x.2) : mainCmd w env (some keys) other args = .done 1 [] := by
  unfold mainCmd
  rw [Option.bind_some, (set_toml _ _).2 hk]

/-- C134, a configuration file that cannot be loaded. -/
theorem c134_no_file (w : World) (env : Option Str) (other : List Str → Conf → Exit) (args : List Str) :
    mainCmd w env none other args = .done 1 [] := rfl

/-- C134, the number of arguments: `register` needs one at least, `accts` takes one at most, `ccy` none. -/
theorem c134_count (w : World) (env : Option Str) (keys : Keys) (other : List Str → Conf → Exit) (names : List Str) (t : Table) (name : Str)
    (l : CmdLine) (hc : (names, t) ∈ commandTables) (hn : name ∈ names) (hl : l.Good w.flags t) (hh : asksHelp (l.flags t) = false)
    (ha : (name = b!"register" ∧ l.words = []) ∨ (name ∈ [b!"accts", b!"accounts"] ∧ 2 ≤ l.words.length) ∨ (name = b!"ccy" ∧ l.words ≠ [])) :
    mainCmd w env (some keys) other (name :: l.text) = .done 1 [] := by
  by_cases hk : ∀ x ∈ keys, KeyGood x.1 x.2
  · obtain ⟨k, hf, hlk, hset⟩ := command_linked w.flags hc hn
    obtain ⟨c', hs, hhelp⟩ := hset (startConf env keys) (l.flags t) (flags_known_line hlk.ok l hl.1) hl.2 rfl
    rw [main_known w env keys other name _ k hk hf, execute_line w name l k hlk hl _ _ hs, hhelp, hh]
    simp only [Bool.false_eq_true, if_false]
    rw [if_pos]
    rcases ha with ⟨rfl, ha⟩ | ⟨hna, ha⟩ | ⟨rfl, ha⟩
    · have : findCmd b!"register" = some .register := rfl
      rw [this] at hf; cases hf
      simp [Cmd.takes, ha]
    · have : findCmd name = some .accts := by
        simp only [List.mem_cons, List.not_mem_nil, or_false] at hna
        rcases hna with rfl | rfl <;> rfl
      rw [this] at hf; cases hf
      simp [Cmd.takes]; omega
    · have : findCmd b!"ccy" = some .ccy := rfl
      rw [this] at hf; cases hf
      simpa [Cmd.takes] using ha
  · exact c134_bad_file w env keys other _ hk

/-- The status: 0 exactly if the command ended well. -/
theorem exit_ok (x : CmdEnd (List Exported)) (out : List Exported) : x.exit = .done 0 out ↔ x = .ok out := by
  cases x <;> simp [CmdEnd.exit]

/-! ## Concrete lines -/

/-- Case ignored for letters, and no numbers. -/
def demoFlagEnv : FlagEnv := ⟨asciiFold, fun s => if s = b!"-3" then some (-3) else none⟩

/-- `-l x.ledger fl --type=json --convert=false Asset -- -x`. -/
def demoCmdLine : CmdLine := ⟨[.letters [] (some (108, b!"x.ledger", .next)), .word b!"fl", .eq b!"type" b!"json", .eq b!"convert" b!"false", .word b!"Asset"],
  some [b!"-x"]⟩

example : demoCmdLine.text = [b!"-l", b!"x.ledger", b!"fl", b!"--type=json", b!"--convert=false", b!"Asset", b!"--", b!"-x"] := by decide +kernel

theorem demoCmdLine_good : demoCmdLine.Good demoFlagEnv reportFlagTable := by
  constructor
  · intro p hp
    simp only [demoCmdLine, List.mem_cons, List.not_mem_nil, or_false] at hp
    rcases hp with rfl | rfl | rfl | rfl | rfl
    · exact ⟨by simp, b!"ledger", .text, rfl, by simp⟩
    · intro h; simp at h
    · show kindOf reportFlagTable b!"type" ≠ none
      simp [kindOf, reportFlagTable, appFlagTable]
    · show kindOf reportFlagTable b!"convert" ≠ none
      simp [kindOf, reportFlagTable, appFlagTable]
    · intro h; simp at h
  · intro x hx k hk
    have : demoCmdLine.flags reportFlagTable = [(b!"ledger", b!"x.ledger"), (b!"type", b!"json"), (b!"convert", b!"false")] := by decide +kernel
    rw [this] at hx
    simp only [List.mem_cons, List.not_mem_nil, or_false] at hx
    rcases hx with rfl | rfl | rfl
    · cases (show kindOf reportFlagTable b!"ledger" = some .text from rfl).symm.trans hk; trivial
    · cases (show kindOf reportFlagTable b!"type" = some (.choice _) from rfl).symm.trans hk
      exact ⟨b!"Json", by decide +kernel, by decide +kernel⟩
    · cases (show kindOf reportFlagTable b!"convert" = some .switch from rfl).symm.trans hk
      right; decide +kernel

/-- `ledger = "main2"`, `[Report] convert = true, sum = true`, a macro. -/
def demoToml : Keys := [([b!"ledger"], .str b!"main2"), ([b!"Report", b!"convert"], .bool true), ([b!"Report", b!"sum"], .bool true),
  ([b!"macros", b!"q"], .strs [b!"fl", b!"A"])]

theorem demoToml_good : ∀ x ∈ demoToml, KeyGood x.1 x.2 := by
  intro x hx
  simp only [demoToml, List.mem_cons, List.not_mem_nil, or_false] at hx
  rcases hx with rfl | rfl | rfl | rfl
  · exact ⟨(hasMeaning_iff _).2 (by decide +kernel), fun _ => ⟨_, rfl⟩, fun h => absurd h (by decide +kernel), fun h => absurd h (by decide +kernel), fun t n h => by simp at h⟩
  · exact ⟨(hasMeaning_iff _).2 (by decide +kernel), fun h => absurd h (by decide +kernel), fun _ => ⟨_, rfl⟩, fun h => absurd h (by decide +kernel), fun t n h h' => by
      simp only [List.cons.injEq, and_true] at h; rw [← h.1] at h'; exact absurd h' (by decide +kernel)⟩
  · exact ⟨(hasMeaning_iff _).2 (by decide +kernel), fun h => absurd h (by decide +kernel), fun _ => ⟨_, rfl⟩, fun h => absurd h (by decide +kernel), fun t n h h' => by
      simp only [List.cons.injEq, and_true] at h; rw [← h.1] at h'; exact absurd h' (by decide +kernel)⟩
  · exact ⟨(hasMeaning_iff _).2 (by decide +kernel), fun h => absurd h (by decide +kernel), fun h => absurd h (by decide +kernel), fun h => absurd h (by decide +kernel),
      fun t n h h' => ⟨_, rfl⟩⟩

/-- The line decides over the file (`ledger`, `convert`), the file over the built-in settings (`sum`). -/
example : (appOf demoToml (demoCmdLine.flags reportFlagTable)).ledger = b!"x.ledger" ∧
    (reportOf demoFlagEnv demoToml (demoCmdLine.flags reportFlagTable)).convert = false ∧
    (reportOf demoFlagEnv demoToml (demoCmdLine.flags reportFlagTable)).sum = true ∧
    (reportOf demoFlagEnv demoToml (demoCmdLine.flags reportFlagTable)).typ = b!"Json" ∧
    (appOf demoToml (demoCmdLine.flags reportFlagTable)).macros b!"q" = some [b!"fl", b!"A"] ∧
    (appOf demoToml (demoCmdLine.flags reportFlagTable)).divider = b!":" ∧
    demoCmdLine.words = [b!"fl", b!"Asset", b!"-x"] := by decide +kernel

/-- What cannot be read: an unknown flag, a value that is no choice, a flag without its value. -/
example : (parseArgs (reportFlags demoFlagEnv ++ appFlags) 9 [b!"--sums"] (defaultConf none)).isSome = false ∧
    (parseArgs (reportFlags demoFlagEnv ++ appFlags) 9 [b!"--type", b!"xml"] (defaultConf none)).isSome = false ∧
    (parseArgs (reportFlags demoFlagEnv ++ appFlags) 9 [b!"--ledger"] (defaultConf none)).isSome = false := by decide +kernel

end Verif
