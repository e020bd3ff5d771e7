import Verif.Spec.MainImport
import Verif.Props.Main
import Verif.Props.CLIConfig
import Mathlib.Data.List.TakeWhile

/-! # C136: an import definition of the configuration file is the import command with its options set -/

namespace Verif
open Spec

/-! ## The flags -/

/-- The flags by which of `--code` and `--format` there are. -/
def impFlagsB (code fmt : Bool) : List (FlagOf ImpState) :=
  [boolVar b!"dedup" (some 100) (·.d.dedup) fun s v => { s with d := { s.d with dedup := v } },
    boolVar b!"reclassify" (some 114) (·.d.reclassify) fun s v => { s with d := { s.d with reclassify := v } }] ++
  (if code then [markFlag (stringVar b!"code" none (·.d.code) fun s v => { s with d := { s.d with code := v } })] else []) ++
  (if fmt then [markFlag formatVar] else []) ++
  [markFlag (stringVar b!"acct" (some 97) (·.d.acct) fun s v => { s with d := { s.d with acct := v } }),
    markFlag (stringVar b!"cacct" (some 99) (·.d.cacct) fun s v => { s with d := { s.d with cacct := v } })] ++
  appFlags.map liftFlag

theorem impFlags_eq (d : ImpDef) : impFlags d = impFlagsB (decide (d.code = [])) (decide (d.fmt.typ = [])) := by
  unfold impFlags impFlagsB
  simp only [decide_eq_true_eq]

/-- And the table. -/
def importTableB (code fmt : Bool) : Table :=
  [(b!"dedup", some 100, .switch), (b!"reclassify", some 114, .switch)] ++ (if code then [(b!"code", none, .text)] else []) ++
  (if fmt then [(b!"format", none, .form fun v => cliSet v ≠ none)] else []) ++
  [(b!"acct", some 97, .text), (b!"cacct", some 99, .text)] ++ appFlagTable

theorem importTable_eq (d : ImpDef) : importFlagTable d = importTableB (decide (d.code = [])) (decide (d.fmt.typ = [])) := by
  unfold importFlagTable importTableB
  simp only [decide_eq_true_eq]

theorem lift_like {δ : Type} {fe : FlagEnv} {f : Flag} {x : Str × Option Nat × Kind} (h : FlagLike fe f x) : FlagLike fe (liftFlag (δ := δ) f) x where
  name := h.name
  short := h.short
  switch := h.switch
  valued := h.valued
  set := fun s v => by
    simp only [liftFlag, Option.isSome_map]
    exact h.set _ v

theorem mark_like {δ : Type} {fe : FlagEnv} {f : FlagOf (CmdState δ)} {x : Str × Option Nat × Kind} (h : FlagLike fe f x) : FlagLike fe (markFlag f) x where
  name := h.name
  short := h.short
  switch := h.switch
  valued := h.valued
  set := fun s v => by
    simp only [markFlag, Option.isSome_map]
    exact h.set _ v

theorem format_like (fe : FlagEnv) : FlagLike fe formatVar (b!"format", none, .form fun v => cliSet v ≠ none) where
  name := rfl
  short := rfl
  switch := by simp
  valued := fun _ => rfl
  set := fun s v => by
    simp only [formatVar, Option.isSome_map, Kind.takes]
    exact Option.isSome_iff_ne_none

theorem lifted_like {δ : Type} {fe : FlagEnv} {fs : List Flag} {t : Table} (h : List.Forall₂ (FlagLike fe) fs t) :
    List.Forall₂ (FlagLike fe) (fs.map (liftFlag (δ := δ))) t := by
  induction h with
  | nil => exact .nil
  | cons hx _ ih => exact .cons (lift_like hx) ih

theorem import_linked (fe : FlagEnv) (code fmt : Bool) : Linked fe (impFlagsB code fmt) (importTableB code fmt) where
  like := by
    unfold impFlagsB importTableB
    refine append_like (append_like (append_like (append_like ?_ ?_) ?_) ?_) (lifted_like (app_like fe))
    · exact .cons (boolVar_like ..) (.cons (boolVar_like ..) .nil)
    · cases code
      · exact .nil
      · exact .cons (mark_like (stringVar_like ..)) .nil
    · cases fmt
      · exact .nil
      · exact .cons (mark_like (format_like fe)) .nil
    · exact .cons (mark_like (stringVar_like ..)) (.cons (mark_like (stringVar_like ..)) .nil)
  ok := by
    constructor
    · have : ∀ x ∈ (importTableB code fmt).map (·.1), x ≠ [] ∧ x.head? ≠ some 45 ∧ 61 ∉ x := by
        cases code <;> cases fmt <;> simp [importTableB, appFlagTable]
      intro x hx
      exact this _ (List.mem_map_of_mem hx)
    · have : ∀ x ∈ (importTableB code fmt).map (·.2.1), x ≠ some 45 ∧ x ≠ some 61 ∧ x ≠ some 116 := by
        cases code <;> cases fmt <;> simp [importTableB, appFlagTable]
      intro x hx
      exact this _ (List.mem_map_of_mem (f := fun x => x.2.1) hx)
    · cases code <;> cases fmt <;> simp [importTableB, appFlagTable]

/-- The flags that can be required. -/
def needs : List Str := [b!"code", b!"format", b!"acct", b!"cacct"]

/-- The settings after the flags of the line. -/
def importWith (s : ImpState) (l : List (Str × Str)) : ImpState where
  conf := appWith s.conf l
  d := importOf l s.d
  given := ((l.map (·.1)).filter fun n => decide (n ∈ needs)).reverse ++ s.given

theorem lineFormat_cons (m v : Str) (l : List (Str × Str)) (d : CLIConfig) :
    lineFormat ((m, v) :: l) d = lineFormat l (if m = b!"format" then (cliSet v).getD ⟨[], []⟩ else d) := by
  unfold lineFormat
  rw [lastOf]
  cases lastOf b!"format" l with
  | some x => rfl
  | none => by_cases h : m = b!"format" <;> simp [h, Option.or]

theorem set_import (fe : FlagEnv) (code fmt : Bool) (s : ImpState) (l : List (Str × Str)) (h : ∀ x ∈ l, kindOf (importTableB code fmt) x.1 ≠ none)
    (hg : ∀ x ∈ l, ∀ k, kindOf (importTableB code fmt) x.1 = some k → k.takes fe x.2) :
    setAll (impFlagsB code fmt) s l = some (importWith s l) := by
  induction l generalizing s with
  | nil => rfl
  | cons x l ih =>
    obtain ⟨n, v⟩ := x
    obtain ⟨k, hk⟩ := Option.ne_none_iff_exists'.1 (h (n, v) (by simp))
    have ht := hg (n, v) (by simp) k hk
    have ih := fun c => ih c (fun x hx => h x (by simp [hx])) (fun x hx => hg x (by simp [hx]))
    rw [setAll]
    simp only [ih]
    clear ih h hg
    obtain ⟨s', hm⟩ := kindOf_mem hk
    clear hk
    cases code <;> cases fmt
    all_goals
      simp only [importTableB, appFlagTable, List.cons_append, List.nil_append, List.mem_cons, List.not_mem_nil, or_false, Prod.mk.injEq,
        if_true, Bool.false_eq_true, if_false] at hm
      casesm* _ ∨ _
    all_goals
      obtain ⟨rfl, -, rfl⟩ := hm
      rw [show longFlag (impFlagsB _ _) _ = some _ from rfl]
      simp only [Kind.takes] at ht
      first
      | (simp [stringVar, liftFlag, markFlag, importWith, importOf, appWith, needs, lineStr_cons, lineBool_cons, lineFormat_cons, List.filter_cons]; done)
      | (simp [boolVar, liftFlag, markFlag, parseBool_yes ht, importWith, importOf, appWith, needs, lineStr_cons, lineBool_cons, lineFormat_cons, List.filter_cons]; done)
      | (obtain ⟨y, hy⟩ := Option.ne_none_iff_exists'.1 ht
         simp [formatVar, markFlag, hy, importWith, importOf, appWith, needs, lineStr_cons, lineBool_cons, lineFormat_cons, List.filter_cons])

/-! ## The definitions of the file -/

/-- Some keys of a definition read into it. -/
def defWith (d : ImpDef) (p : Keys) : ImpDef where
  fmt := ⟨fileStr p [b!"configtype"] d.fmt.typ, (p.filterMap paramOf).foldl (fun m x => m.put x.1 x.2) d.fmt.params⟩
  code := fileStr p [b!"code"] d.code
  acct := fileStr p [b!"account"] d.acct
  cacct := fileStr p [b!"counteraccount"] d.cacct
  ccy := fileStr p [b!"ccy"] d.ccy
  dedup := fileBool p [b!"dedup"] d.dedup
  reclassify := fileBool p [b!"reclassify"] d.reclassify

theorem defWith_nil (d : ImpDef) : defWith d [] = d := rfl

theorem defWith_cons (d : ImpDef) (x : List Str × TomlVal) (p : Keys) : defWith (defWith d [x]) p = defWith d (x :: p) := by
  obtain ⟨k, v⟩ := x
  simp only [defWith, fileStr_cons k v p, fileBool_cons k v p]
  cases h : paramOf (k, v) <;> simp [h]

theorem same1 (x k : Str) : sameKey [x] [k] = decide (lowerStr x = k) := by
  unfold sameKey
  rw [smallStr_eq]
  simp

theorem same2 (x y k : Str) : sameKey [x, y] [k] = false := by
  unfold sameKey
  simp

theorem no_param (x : Str) (v : TomlVal) : List.filterMap paramOf [([x], v)] = [] := by cases v <;> rfl

/-- One key of a definition. -/
theorem impField_eq (d : ImpDef) (f : List Str) (v : TomlVal) :
    (DefKeyGood f v → impField d f v = some (defWith d [(f, v)])) ∧ (¬ DefKeyGood f v → impField d f v = none) := by
  unfold DefKeyGood
  rw [smallStr_eq]
  constructor
  · rintro (⟨x, s, rfl, rfl, h⟩ | ⟨x, b, rfl, rfl, h⟩ | ⟨t, k, s, rfl, rfl, h⟩)
    · simp only [List.mem_cons, List.not_mem_nil, or_false] at h
      rcases h with h | h | h | h | h | h | h <;>
        simp [impField, defWith, fileStr, fileBool, same1, h, no_param]
    · simp only [List.mem_cons, List.not_mem_nil, or_false] at h
      rcases h with h | h <;> simp [impField, defWith, fileStr, fileBool, same1, h, no_param]
    · simp [impField, defWith, fileStr, fileBool, same2, h, paramOf, smallStr_eq]
  · intro h
    simp only [not_or, not_exists, not_and] at h
    unfold impField
    split
    · next f s =>
      have := h.1 f s rfl rfl
      simp only [List.mem_cons, List.not_mem_nil, or_false, not_or] at this
      simp [this]
    · next f b =>
      have := h.2.1 f b rfl rfl
      simp only [List.mem_cons, List.not_mem_nil, or_false, not_or] at this
      simp [this]
    · next p k s => rw [if_neg (h.2.2 p k s rfl rfl)]
    · rfl

theorem getDef_put {δ : Type} (n m : Str) (d : δ) (ds : List (Str × δ)) : getDef m (putDef n d ds) = if n = m then some d else getDef m ds := by
  induction ds with
  | nil => simp [putDef, getDef]
  | cons x ds ih =>
    obtain ⟨a, e⟩ := x
    simp only [putDef, getDef]
    split
    · next h =>
      subst h
      simp only [getDef]
      split <;> rfl
    · next h =>
      simp only [getDef, ih]
      split
      · next h' => subst h'; rw [if_neg (fun h'' => h h''.symm)]
      · rfl

theorem putDef_names {δ : Type} (n : Str) (d : δ) (ds : List (Str × δ)) (h : (ds.map (·.1)).Nodup) : ((putDef n d ds).map (·.1)).Nodup := by
  have hm : ∀ ds : List (Str × δ), ∀ m, m ∈ (putDef n d ds).map (·.1) → m = n ∨ m ∈ ds.map (·.1) := by
    intro ds
    induction ds with
    | nil => simp [putDef]
    | cons x ds ih =>
      obtain ⟨a, e⟩ := x
      intro m
      simp only [putDef]
      split
      · simp only [List.map_cons, List.mem_cons]; tauto
      · simp only [List.map_cons, List.mem_cons]
        rintro (h | h)
        · exact Or.inr (Or.inl h)
        · rcases ih m h with h | h
          · exact Or.inl h
          · exact Or.inr (Or.inr h)
  induction ds with
  | nil => simp [putDef]
  | cons x ds ih =>
    obtain ⟨a, e⟩ := x
    simp only [List.map_cons, List.nodup_cons] at h
    simp only [putDef]
    split
    · simpa using h
    · next hne =>
      simp only [List.map_cons, List.nodup_cons]
      refine ⟨fun hin => ?_, ih h.2⟩
      rcases hm ds a hin with h' | h'
      · exact hne h'
      · exact h.1 h'

theorem tablePart_cons (table : Str) (k : List Str) (v : TomlVal) (l : Keys) (n : Str) :
    tablePart table ((k, v) :: l) n = (match k with
      | t :: m :: f => if lowerStr t = table ∧ m = n then [(f, v)] else []
      | _ => []) ++ tablePart table l n := by
  unfold tablePart
  rw [smallStr_eq, List.filterMap_cons]
  rcases k with _ | ⟨t, _ | ⟨m, f⟩⟩
  · rfl
  · rfl
  · simp only
    split
    · next h =>
      rw [if_neg (by intro h'; rw [if_pos h'] at h; cases h)]
      rfl
    · next x h =>
      split at h
      · next h' => rw [if_pos h']; cases h; rfl
      · cases h

/-- All definitions of a table. -/
theorem readDefs_eq {δ : Type} (table : Str) (zero : δ) (field : δ → List Str → TomlVal → Option δ) (good : List Str → TomlVal → Prop)
    (wth : δ → Keys → δ) (hfield : ∀ d f v, (good f v → field d f v = some (wth d [(f, v)])) ∧ (¬ good f v → field d f v = none))
    (hcons : ∀ d x p, wth (wth d [x]) p = wth d (x :: p)) (ds : List (Str × δ)) (keys : Keys) (hn : (ds.map (·.1)).Nodup) :
    ((∀ n, ∀ x ∈ tablePart table keys n, good x.1 x.2) → ∃ ds', readDefs table zero field ds keys = some ds' ∧ (ds'.map (·.1)).Nodup ∧
      ∀ n, getDef n ds' = if tablePart table keys n = [] then getDef n ds else some (wth ((getDef n ds).getD zero) (tablePart table keys n))) ∧
    (¬ (∀ n, ∀ x ∈ tablePart table keys n, good x.1 x.2) → readDefs table zero field ds keys = none) := by
  induction keys generalizing ds with
  | nil => exact ⟨fun _ => ⟨ds, rfl, hn, fun n => by simp [tablePart]⟩, fun h => absurd (fun n x hx => by simp [tablePart] at hx) h⟩
  | cons x keys ih =>
    obtain ⟨k, v⟩ := x
    have skip : (∀ n, tablePart table ((k, v) :: keys) n = tablePart table keys n) →
        readDefs table zero field ds ((k, v) :: keys) = readDefs table zero field ds keys →
        ((∀ n, ∀ x ∈ tablePart table ((k, v) :: keys) n, good x.1 x.2) → ∃ ds', readDefs table zero field ds ((k, v) :: keys) = some ds' ∧
          (ds'.map (·.1)).Nodup ∧
          ∀ n, getDef n ds' = if tablePart table ((k, v) :: keys) n = [] then getDef n ds
            else some (wth ((getDef n ds).getD zero) (tablePart table ((k, v) :: keys) n))) ∧
        (¬ (∀ n, ∀ x ∈ tablePart table ((k, v) :: keys) n, good x.1 x.2) → readDefs table zero field ds ((k, v) :: keys) = none) := by
      intro h1 h2
      simp only [h1, h2]
      exact ih ds hn
    rcases k with _ | ⟨t, _ | ⟨m, f⟩⟩
    · exact skip (fun n => by rw [tablePart_cons]; rfl) rfl
    · exact skip (fun n => by rw [tablePart_cons]; rfl) rfl
    · by_cases ht : lowerStr t = table
      · have hstep : readDefs table zero field ds ((t :: m :: f, v) :: keys) =
            (field ((getDef m ds).getD zero) f v).bind fun d => readDefs table zero field (putDef m d ds) keys := by
          rw [readDefs]; simp only [ht, if_true]
        have hpart : ∀ n, tablePart table ((t :: m :: f, v) :: keys) n = (if m = n then [(f, v)] else []) ++ tablePart table keys n := by
          intro n
          rw [tablePart_cons]
          simp only [ht, true_and]
        rw [hstep]
        simp only [hpart]
        by_cases hg : good f v
        · rw [(hfield _ f v).1 hg, Option.bind_some]
          obtain ⟨ih1, ih2⟩ := ih (putDef m (wth ((getDef m ds).getD zero) [(f, v)]) ds) (putDef_names _ _ _ hn)
          constructor
          · intro h
            obtain ⟨ds', h1, h2, h3⟩ := ih1 (fun n x hx => h n x (by simp [hx]))
            refine ⟨ds', h1, h2, fun n => ?_⟩
            rw [h3 n, getDef_put]
            by_cases hmn : m = n
            · subst hmn
              simp only [if_true, Option.getD_some, List.cons_append, List.nil_append, reduceCtorEq, if_false, hcons]
              split
              · next he => rw [he]
              · rfl
            · simp only [hmn, if_false, List.nil_append]
          · intro h
            refine ih2 fun h' => h fun n x hx => ?_
            rcases List.mem_append.1 hx with hx | hx
            · split at hx
              · simp only [List.mem_singleton] at hx; subst hx; exact hg
              · simp at hx
            · exact h' n x hx
        · rw [(hfield _ f v).2 hg]
          exact ⟨fun h => absurd (h m (f, v) (by simp)) hg, fun _ => rfl⟩
      · exact skip (fun n => by rw [tablePart_cons]; simp [ht]) (by rw [readDefs]; simp only [ht, if_false])

/-- All import definitions. -/
theorem impDefs_eq (keys : Keys) :
    ((∀ n, ∀ x ∈ defPart keys n, DefKeyGood x.1 x.2) → ∃ ds', impDefs keys = some ds' ∧ (ds'.map (·.1)).Nodup ∧
      ∀ n, getDef n ds' = if defPart keys n = [] then none else some (defWith ImpDef.zero (defPart keys n))) ∧
    (¬ (∀ n, ∀ x ∈ defPart keys n, DefKeyGood x.1 x.2) → impDefs keys = none) := by
  have := readDefs_eq b!"importdefs" ImpDef.zero impField DefKeyGood defWith impField_eq defWith_cons [] keys (by simp)
  exact this

/-- Some keys of a generate definition read into it. -/
def genWith (d : GenDef) (p : Keys) : GenDef := ⟨fileStr p [b!"code"] d.code, fileBool p [b!"dedup"] d.dedup⟩

theorem genWith_cons (d : GenDef) (x : List Str × TomlVal) (p : Keys) : genWith (genWith d [x]) p = genWith d (x :: p) := by
  obtain ⟨k, v⟩ := x
  simp only [genWith, fileStr_cons k v p, fileBool_cons k v p]

theorem genField_eq (d : GenDef) (f : List Str) (v : TomlVal) :
    (GenKeyGood f v → genField d f v = some (genWith d [(f, v)])) ∧ (¬ GenKeyGood f v → genField d f v = none) := by
  unfold GenKeyGood
  rw [smallStr_eq]
  constructor
  · rintro (⟨x, s, rfl, rfl, h⟩ | ⟨x, b, rfl, rfl, h⟩)
    · simp only [List.mem_cons, List.not_mem_nil, or_false] at h
      rcases h with h | h <;> simp [genField, genWith, fileStr, fileBool, same1, h]
    · simp [genField, genWith, fileStr, fileBool, same1, h]
  · intro h
    simp only [not_or, not_exists, not_and] at h
    unfold genField
    split
    · next f s =>
      have := h.1 f s rfl rfl
      simp only [List.mem_cons, List.not_mem_nil, or_false, not_or] at this
      simp [this]
    · next f b =>
      have := h.2 f b rfl rfl
      simp [this]
    · rfl

/-- All generate definitions. -/
theorem genDefs_eq (keys : Keys) :
    ((∀ n, ∀ x ∈ genPart keys n, GenKeyGood x.1 x.2) → ∃ ds', genDefs keys = some ds' ∧ (ds'.map (·.1)).Nodup ∧
      ∀ n, getDef n ds' = if genPart keys n = [] then none else some (genWith GenDef.zero (genPart keys n))) ∧
    (¬ (∀ n, ∀ x ∈ genPart keys n, GenKeyGood x.1 x.2) → genDefs keys = none) := by
  have := readDefs_eq b!"generate" GenDef.zero genField GenKeyGood genWith genField_eq genWith_cons [] keys (by simp)
  exact this

theorem params_get (l : List (Str × Str)) (m : Params) (k : Str) :
    Params.get (l.foldl (fun (m : Params) x => m.put x.1 x.2) m) k = ((l.reverse ++ m).find? (fun kv => decide (kv.1 = k))).map (·.2) := by
  induction l generalizing m with
  | nil => rfl
  | cons x l ih =>
    rw [List.foldl_cons, ih, List.reverse_cons, List.append_assoc, List.find?_append, List.find?_append]
    cases h : List.find? (fun kv => decide (kv.1 = k)) l.reverse with
    | some y => rfl
    | none =>
      simp only [Option.none_or, List.singleton_append, List.find?_cons]
      have := get_put m x.1 x.2 k
      unfold Params.get at this
      rw [this]
      by_cases hx : x.1 = k <;> simp [hx]

/-- The definition read is the one the file says; the parameters may be in another order. -/
theorem defWith_defOf (keys : Keys) (n : Str) :
    SameFormat (defWith ImpDef.zero (defPart keys n)).fmt (defOf keys n).fmt ∧
      { defWith ImpDef.zero (defPart keys n) with fmt := (defOf keys n).fmt } = defOf keys n := by
  refine ⟨⟨rfl, fun k => ?_⟩, rfl⟩
  simp only [defWith, ImpDef.zero, defOf]
  rw [params_get]
  simp [Params.get]

/-! ## The program -/

theorem reader_congr (dec : Str → Option (Json × Str)) (spl : Nat → Str → Option (List (List Str))) {f g : CLIConfig} (h : SameFormat f g) :
    importReader dec spl f = importReader dec spl g := by
  unfold importReader CLIConfig.str CLIConfig.bool
  rw [h.1, h.2, h.2]

theorem sources_fmt (im : ImpWorld) (today : Int) (d : ImpDef) (g : CLIConfig) (rd : Str → ReadRes SVal) (b args : List Str) :
    sourcesOf im today { d with fmt := g } rd b args = sourcesOf im today d rd b args := by
  induction args generalizing b with
  | nil => rfl
  | cons f fs ih => rw [sourcesOf, sourcesOf, ih]; rfl

/-- The order of the parameters does not matter. -/
theorem import_congr (w : World) (im : ImpWorld) (a : AppConf) (lang : Str) (d : ImpDef) (g : CLIConfig) (args : List Str) (h : SameFormat g d.fmt) :
    importFull w im a lang { d with fmt := g } args = importFull w im a lang d args := by
  unfold importFull
  by_cases hc : d.ccy = []
  · simp only [hc, if_true]
    rw [reader_congr _ _ h]
    cases importReader im.decode im.split d.fmt with
    | none => rfl
    | some rd =>
      simp only
      rw [show ({ fmt := g, code := d.code, acct := d.acct, cacct := d.cacct, ccy := a.baseCCY, dedup := d.dedup, reclassify := d.reclassify } : ImpDef) =
        { ({ d with ccy := a.baseCCY } : ImpDef) with fmt := g } from rfl, sources_fmt]
  · simp only [hc, if_false]
    rw [reader_congr _ _ h]
    cases importReader im.decode im.split d.fmt with
    | none => rfl
    | some rd =>
      simp only
      rw [show ({ fmt := g, code := d.code, acct := d.acct, cacct := d.cacct, ccy := d.ccy, dedup := d.dedup, reclassify := d.reclassify } : ImpDef) =
        { d with fmt := g } from rfl, sources_fmt]

theorem given_iff (s : ImpState) (hs : s.given = []) (l : List (Str × Str)) {n : Str} (hn : n ∈ needs) : n ∈ (importWith s l).given ↔ Given l n := by
  simp only [importWith, hs, List.append_nil, List.mem_reverse, List.mem_filter, decide_eq_true_eq, hn, and_true, List.mem_map, Given]
  constructor
  · rintro ⟨⟨m, v⟩, h, rfl⟩; exact ⟨v, h⟩
  · rintro ⟨v, h⟩; exact ⟨(n, v), h, rfl⟩

theorem required_iff (s : ImpState) (hs : s.given = []) (d : ImpDef) (l : List (Str × Str)) :
    ((impRequired d).all fun n => decide (n ∈ (importWith s l).given)) = true ↔ Complete l d := by
  have h1 := given_iff s hs l (n := b!"code") (by decide +kernel)
  have h2 := given_iff s hs l (n := b!"format") (by decide +kernel)
  have h3 := given_iff s hs l (n := b!"acct") (by decide +kernel)
  have h4 := given_iff s hs l (n := b!"cacct") (by decide +kernel)
  unfold Complete
  rw [← h1, ← h2, ← h3, ← h4]
  unfold impRequired
  simp only [List.all_append, Bool.and_eq_true]
  have aux : ∀ (p : Prop) [Decidable p] (n : Str) (g : List Str), ((if p then [n] else []).all fun n => decide (n ∈ g)) = true ↔ (p → n ∈ g) := by
    intro p _ n g
    by_cases hp : p <;> simp [hp]
  rw [aux, aux, aux, aux]
  tauto

/-- A line that can be read. -/
theorem import_line (w : World) (im : ImpWorld) (name : Str) (d : ImpDef) (c : Conf) (l : CmdLine) (hg : l.Good w.flags (importFlagTable d)) :
    impExecute w im name d l.text c =
      if (appWith c (l.flags (importFlagTable d))).help then .done 0 [.text (w.usage name)]
      else if l.words = [] then .done 1 []
      else if ((impRequired d).all fun n => decide (n ∈ (importWith ⟨c, d, []⟩ (l.flags (importFlagTable d))).given)) then
        importFull w im (appWith c (l.flags (importFlagTable d))).app (appWith c (l.flags (importFlagTable d))).lang
          (importOf (l.flags (importFlagTable d)) d) l.words
      else .done 1 [] := by
  have hlk : Linked w.flags (impFlags d) (importFlagTable d) := by
    rw [impFlags_eq, importTable_eq]
    exact import_linked ..
  have hset : setAll (impFlags d) ⟨c, d, []⟩ (l.flags (importFlagTable d)) = some (importWith ⟨c, d, []⟩ (l.flags (importFlagTable d))) := by
    have h1 := flags_known_line hlk.ok l hg.1
    have h2 := hg.2
    rw [impFlags_eq]
    rw [importTable_eq] at h1 h2 ⊢
    exact set_import w.flags _ _ _ _ h1 h2
  unfold impExecute
  rw [parse_line hlk l hg.1, hset]
  rfl

/-- A line that cannot be read. -/
theorem import_refused (w : World) (im : ImpWorld) (name : Str) (d : ImpDef) (c : Conf) (args : List Str)
    (h : ¬ ∃ l : CmdLine, l.text = args ∧ l.Good w.flags (importFlagTable d)) : impExecute w im name d args c = .done 1 [] := by
  have hlk : Linked w.flags (impFlags d) (importFlagTable d) := by
    rw [impFlags_eq, importTable_eq]
    exact import_linked ..
  unfold impExecute
  have := (parse_iff hlk args ⟨c, d, []⟩).not.2 h
  simp only [Option.isSome_iff_ne_none, ne_eq, not_not] at this
  rw [this]

theorem getDef_mem {δ : Type} {n : Str} {d : δ} {ds : List (Str × δ)} (h : getDef n ds = some d) : (n, d) ∈ ds := by
  induction ds with
  | nil => cases h
  | cons x ds ih =>
    obtain ⟨m, e⟩ := x
    simp only [getDef] at h
    split at h
    · next hm => cases h; subst hm; simp
    · simp [ih h]

theorem mem_getDef {δ : Type} {n : Str} {d : δ} {ds : List (Str × δ)} (hn : (ds.map (·.1)).Nodup) (h : (n, d) ∈ ds) : getDef n ds = some d := by
  induction ds with
  | nil => cases h
  | cons x ds ih =>
    obtain ⟨m, e⟩ := x
    simp only [List.map_cons, List.nodup_cons] at hn
    simp only [getDef]
    rcases List.mem_cons.1 h with h | h
    · cases h; simp
    · have : m ≠ n := by
        rintro rfl
        exact hn.1 (List.mem_map_of_mem (f := (·.1)) h)
      rw [if_neg this]
      exact ih hn.2 h

theorem cmdName_plain {n : Str} (h : 32 ∉ n) : cmdName n = n := by
  unfold cmdName
  rw [List.takeWhile_eq_self_iff]
  intro c hc
  simp only [decide_eq_true_eq]
  rintro rfl
  exact h hc

/-- The command of a definition. -/
theorem find_def {δ : Type} {order : List (Str × δ) → List (Str × δ)} (hw : ∀ l, (order l).Perm l) {part : Str → Keys} {wth : Keys → δ}
    {defs : List (Str × δ)} (hn : (defs.map (·.1)).Nodup) (hd : ∀ n, getDef n defs = if part n = [] then none else some (wth (part n)))
    (hb : ∀ m, part m ≠ [] → 32 ∉ m) (n : Str) :
    (order defs).find? (fun x => decide (cmdName x.1 = n)) = if part n = [] then none else some (n, wth (part n)) := by
  have hdef : ∀ x ∈ defs, x.2 = wth (part x.1) ∧ part x.1 ≠ [] := by
    rintro ⟨m, d⟩ hx
    have h := mem_getDef hn hx
    rw [hd m] at h
    split at h
    · cases h
    · next hne => cases h; exact ⟨rfl, hne⟩
  have hname : ∀ x ∈ order defs, cmdName x.1 = x.1 := by
    intro x hx
    exact cmdName_plain (hb _ (hdef x ((hw defs).mem_iff.1 hx)).2)
  cases hfind : (order defs).find? (fun x => decide (cmdName x.1 = n)) with
  | none =>
    rw [List.find?_eq_none] at hfind
    split
    · rfl
    · next hne =>
      exfalso
      have hmem := getDef_mem (show getDef n defs = some _ by rw [hd n, if_neg hne])
      have hin := (hw defs).mem_iff.2 hmem
      exact hfind _ hin (by simp [hname _ hin])
  | some x =>
    have hin := List.mem_of_find?_eq_some hfind
    have hx := List.find?_some hfind
    simp only [decide_eq_true_eq] at hx
    rw [hname x hin] at hx
    obtain ⟨h1, h2⟩ := hdef x ((hw defs).mem_iff.1 hin)
    subst hx
    rw [if_neg h2, ← h1]

/-- The command of a definition, on any arguments. -/
theorem defs_def {δ : Type} {order : List (Str × δ) → List (Str × δ)} (hw : ∀ l, (order l).Perm l) {part : Str → Keys} {wth : Keys → δ}
    {defs : List (Str × δ)} (h1 : (defs.map (·.1)).Nodup) (h2 : ∀ n, getDef n defs = if part n = [] then none else some (wth (part n)))
    (hb : ∀ m, part m ≠ [] → 32 ∉ m) (cmd : Str) (dflt : δ) (execute : Str → δ → List Str → Conf → Exit) (other : List Str → Conf → Exit)
    (n : Str) (rest : List Str) (c : Conf) (hd : part n ≠ []) (hn : n ≠ [] ∧ n.head? ≠ some 45) :
    defsMain cmd dflt execute (order defs) other (cmd :: n :: rest) c = execute n (wth (part n)) rest c := by
  rw [defsMain]
  have hfind := find_def hw h1 h2 hb n
  rw [if_neg hd] at hfind
  have hno : ¬ (n = [] ∨ n.head? = some 45) := by rintro (h | h); exacts [hn.1 h, hn.2 h]
  simp only [if_true, List.head?_cons, List.tail_cons, hfind]
  rw [if_neg hno]

/-- The plain command. -/
theorem defs_plain {δ : Type} {order : List (Str × δ) → List (Str × δ)} (hw : ∀ l, (order l).Perm l) {part : Str → Keys} {wth : Keys → δ}
    {defs : List (Str × δ)} (h1 : (defs.map (·.1)).Nodup) (h2 : ∀ n, getDef n defs = if part n = [] then none else some (wth (part n)))
    (hb : ∀ m, part m ≠ [] → 32 ∉ m) (cmd : Str) (dflt : δ) (execute : Str → δ → List Str → Conf → Exit) (other : List Str → Conf → Exit)
    (args : List Str) (c : Conf) (hno : ∀ a ∈ args, part a = []) :
    defsMain cmd dflt execute (order defs) other (cmd :: args) c = execute cmd dflt args c := by
  rw [defsMain]
  have hfind := find_def hw h1 h2 hb
  have hnone : ∀ a ∈ args, (order defs).find? (fun x => decide (cmdName x.1 = a)) = none := by
    intro a ha
    rw [hfind a, if_pos (hno a ha)]
  have hany : (args.any fun a => (order defs).any fun x => decide (cmdName x.1 = a)) = false := by
    rw [Bool.eq_false_iff]
    intro h
    obtain ⟨a, ha, h⟩ := List.any_eq_true.1 h
    obtain ⟨x, hx, h⟩ := List.any_eq_true.1 h
    have := List.find?_eq_none.1 (hnone a ha) x hx
    exact this h
  simp only [if_true, hany, Bool.false_eq_true, if_false]
  cases args with
  | nil => rfl
  | cons n rest =>
    simp only [List.head?_cons, hnone n (by simp)]
    split <;> rfl

/-- The program with a good file: its definitions. -/
theorem goledger_defs (w : World) (im : ImpWorld) (env : Option Str) (keys : Keys) (other : List Str → Conf → Exit)
    (hf : FileGood keys) : ∃ defs gens, (defs.map (·.1)).Nodup ∧ (gens.map (·.1)).Nodup ∧
      (∀ n, getDef n defs = if defPart keys n = [] then none else some (defWith ImpDef.zero (defPart keys n))) ∧
      (∀ n, getDef n gens = if genPart keys n = [] then none else some (genWith GenDef.zero (genPart keys n))) ∧
      ∀ cmd rest, findCmd cmd = none → goledgerMain w im env (some keys) other (cmd :: rest) =
        defsMain b!"import" ImpDef.dflt (impExecute w im) (im.order defs)
          (defsMain b!"generate" GenDef.dflt (genExecute w im) (im.genOrder gens) other) (cmd :: rest) (startConf env keys) := by
  obtain ⟨defs, h1, h2, h3⟩ := (impDefs_eq keys).1 hf.2.1
  obtain ⟨gens, g1, g2, g3⟩ := (genDefs_eq keys).1 hf.2.2
  refine ⟨defs, gens, h2, g2, h3, g3, fun cmd rest hcmd => ?_⟩
  unfold goledgerMain
  rw [Option.bind_some, Option.bind_some, h1, g1]
  unfold mainCmd
  rw [Option.bind_some, (set_toml _ _).1 hf.1]
  simp only [hcmd, declareAll_eq]
  rfl

/-- The import of a definition, on any arguments. -/
theorem goledger_def (w : World) (im : ImpWorld) (env : Option Str) (keys : Keys) (other : List Str → Conf → Exit) (n : Str) (rest : List Str)
    (hw : WalksMap im) (hf : FileGood keys) (hd : Defined keys n) (hn : n ≠ [] ∧ n.head? ≠ some 45) (hb : ∀ m, Defined keys m → 32 ∉ m) :
    goledgerMain w im env (some keys) other (b!"import" :: n :: rest) =
      impExecute w im n (defWith ImpDef.zero (defPart keys n)) rest (startConf env keys) := by
  obtain ⟨defs, gens, h1, -, h2, -, h3⟩ := goledger_defs w im env keys other hf
  rw [h3 _ _ (by decide +kernel)]
  exact defs_def hw.1 h1 h2 hb _ _ _ _ _ _ _ hd hn

/-- The plain import. -/
theorem goledger_plain (w : World) (im : ImpWorld) (env : Option Str) (keys : Keys) (other : List Str → Conf → Exit) (args : List Str)
    (hw : WalksMap im) (hf : FileGood keys) (hb : ∀ m, Defined keys m → 32 ∉ m) (hno : ∀ a ∈ args, ¬ Defined keys a) :
    goledgerMain w im env (some keys) other (b!"import" :: args) = impExecute w im b!"import" plainDef args (startConf env keys) := by
  obtain ⟨defs, gens, h1, -, h2, -, h3⟩ := goledger_defs w im env keys other hf
  rw [h3 _ _ (by decide +kernel)]
  exact defs_plain hw.1 h1 h2 hb _ _ _ _ _ _ fun a ha => not_not.1 (hno a ha)

/-- The generate of a definition, on any arguments. -/
theorem goledger_genDef (w : World) (im : ImpWorld) (env : Option Str) (keys : Keys) (other : List Str → Conf → Exit) (n : Str) (rest : List Str)
    (hw : WalksMap im) (hf : FileGood keys) (hd : GenDefined keys n) (hn : n ≠ [] ∧ n.head? ≠ some 45) (hb : ∀ m, GenDefined keys m → 32 ∉ m) :
    goledgerMain w im env (some keys) other (b!"generate" :: n :: rest) =
      genExecute w im n (genWith GenDef.zero (genPart keys n)) rest (startConf env keys) := by
  obtain ⟨defs, gens, -, h1, -, h2, h3⟩ := goledger_defs w im env keys other hf
  rw [h3 _ _ (by decide +kernel), defsMain, if_neg (by decide)]
  exact defs_def hw.2 h1 h2 hb _ _ _ _ _ _ _ hd hn

/-- The plain generate. -/
theorem goledger_gen (w : World) (im : ImpWorld) (env : Option Str) (keys : Keys) (other : List Str → Conf → Exit) (args : List Str)
    (hw : WalksMap im) (hf : FileGood keys) (hb : ∀ m, GenDefined keys m → 32 ∉ m) (hno : ∀ a ∈ args, ¬ GenDefined keys a) :
    goledgerMain w im env (some keys) other (b!"generate" :: args) = genExecute w im b!"generate" plainGen args (startConf env keys) := by
  obtain ⟨defs, gens, -, h1, -, h2, h3⟩ := goledger_defs w im env keys other hf
  rw [h3 _ _ (by decide +kernel), defsMain, if_neg (by decide)]
  exact defs_plain hw.2 h1 h2 hb _ _ _ _ _ _ fun a ha => not_not.1 (hno a ha)

theorem import_app (env : Option Str) (keys : Keys) (l : List (Str × Str)) : (appWith (startConf env keys) l).lang = langOf env keys l := rfl

/-- C136: `import NAME …` works with what the command line says, or else the definition NAME of the configuration file; the files are the words
of the line.  (For names without blanks.) -/
theorem c136_definition_partial (w : World) (im : ImpWorld) (env : Option Str) (keys : Keys) (other : List Str → Conf → Exit) (n : Str) (l : CmdLine)
    (hw : WalksMap im) (hf : FileGood keys) (hd : Defined keys n) (hn : NameGood n) (hb : ∀ m, Defined keys m → 32 ∉ m)
    (hl : l.Good w.flags (importFlagTable (defOf keys n))) (hh : asksHelp (l.flags (importFlagTable (defOf keys n))) = false)
    (ha : l.words ≠ []) (hc : Complete (l.flags (importFlagTable (defOf keys n))) (defOf keys n)) :
    goledgerMain w im env (some keys) other (b!"import" :: n :: l.text) =
      importFull w im (appOf keys (l.flags (importFlagTable (defOf keys n)))) (langOf env keys (l.flags (importFlagTable (defOf keys n))))
        (importOf (l.flags (importFlagTable (defOf keys n))) (defOf keys n)) l.words := by
  obtain ⟨hs, he⟩ := defWith_defOf keys n
  have ht : importFlagTable (defWith ImpDef.zero (defPart keys n)) = importFlagTable (defOf keys n) := rfl
  rw [goledger_def w im env keys other n _ hw hf hd hn.2 hb, import_line w im n (defWith ImpDef.zero (defPart keys n)) _ l hl, ht]
  have hhelp : (appWith (startConf env keys) (l.flags (importFlagTable (defOf keys n)))).help = false := hh
  rw [hhelp, if_neg (by simp), if_neg ha, if_pos ((required_iff _ rfl (defWith ImpDef.zero (defPart keys n)) _).2 hc), app_settings, import_app]
  have hlf : SameFormat (importOf (l.flags (importFlagTable (defOf keys n))) (defWith ImpDef.zero (defPart keys n))).fmt
      (importOf (l.flags (importFlagTable (defOf keys n))) (defOf keys n)).fmt := by
    simp only [importOf, lineFormat]
    split
    · exact hs
    · exact ⟨rfl, fun _ => rfl⟩
  exact import_congr w im _ _ (importOf (l.flags (importFlagTable (defOf keys n))) (defOf keys n)) _ l.words hlf

/-- C136, without a definition: the settings are those of the line, with deduplication and reclassification unless these are turned off. -/
theorem c136_plain (w : World) (im : ImpWorld) (env : Option Str) (keys : Keys) (other : List Str → Conf → Exit) (l : CmdLine)
    (hw : WalksMap im) (hf : FileGood keys) (hb : ∀ m, Defined keys m → 32 ∉ m) (hno : ∀ a ∈ l.text, ¬ Defined keys a)
    (hl : l.Good w.flags (importFlagTable plainDef)) (hh : asksHelp (l.flags (importFlagTable plainDef)) = false)
    (ha : l.words ≠ []) (hc : Complete (l.flags (importFlagTable plainDef)) plainDef) :
    goledgerMain w im env (some keys) other (b!"import" :: l.text) =
      importFull w im (appOf keys (l.flags (importFlagTable plainDef))) (langOf env keys (l.flags (importFlagTable plainDef)))
        (importOf (l.flags (importFlagTable plainDef)) plainDef) l.words := by
  rw [goledger_plain w im env keys other _ hw hf hb hno, import_line w im _ _ _ l hl]
  have hhelp : (appWith (startConf env keys) (l.flags (importFlagTable plainDef))).help = false := hh
  rw [hhelp, if_neg (by simp), if_neg ha, if_pos ((required_iff _ rfl _ _).2 hc), app_settings, import_app]

/-- C136, something missing: no file, or a required option neither in the definition nor on the line: status 1, nothing is read or printed. -/
theorem c136_missing (w : World) (im : ImpWorld) (env : Option Str) (keys : Keys) (other : List Str → Conf → Exit) (n : Str) (l : CmdLine)
    (hw : WalksMap im) (hf : FileGood keys) (hd : Defined keys n) (hn : NameGood n) (hb : ∀ m, Defined keys m → 32 ∉ m)
    (hl : l.Good w.flags (importFlagTable (defOf keys n))) (hh : asksHelp (l.flags (importFlagTable (defOf keys n))) = false)
    (hc : l.words = [] ∨ ¬ Complete (l.flags (importFlagTable (defOf keys n))) (defOf keys n)) :
    goledgerMain w im env (some keys) other (b!"import" :: n :: l.text) = .done 1 [] := by
  have ht : importFlagTable (defWith ImpDef.zero (defPart keys n)) = importFlagTable (defOf keys n) := rfl
  rw [goledger_def w im env keys other n _ hw hf hd hn.2 hb, import_line w im n (defWith ImpDef.zero (defPart keys n)) _ l hl, ht]
  have hhelp : (appWith (startConf env keys) (l.flags (importFlagTable (defOf keys n)))).help = false := hh
  rw [hhelp, if_neg (by simp)]
  rcases hc with hc | hc
  · rw [if_pos hc]
  · split
    · rfl
    · rw [if_neg]
      intro h
      exact hc ((required_iff _ rfl _ _).1 h)

/-- C136, a line that cannot be read with the flags of the definition's command: status 1. -/
theorem c136_refused (w : World) (im : ImpWorld) (env : Option Str) (keys : Keys) (other : List Str → Conf → Exit) (n : Str) (args : List Str)
    (hw : WalksMap im) (hf : FileGood keys) (hd : Defined keys n) (hn : NameGood n) (hb : ∀ m, Defined keys m → 32 ∉ m)
    (h : ¬ ∃ l : CmdLine, l.text = args ∧ l.Good w.flags (importFlagTable (defOf keys n))) :
    goledgerMain w im env (some keys) other (b!"import" :: n :: args) = .done 1 [] := by
  rw [goledger_def w im env keys other n _ hw hf hd hn.2 hb]
  exact import_refused w im n _ _ args h

/-- C136, a definition with a key there is no option for, or a value of the wrong kind: no command works. -/
theorem c136_bad_file (w : World) (im : ImpWorld) (env : Option Str) (keys : Keys) (other : List Str → Conf → Exit) (args : List Str)
    (hf : ¬ FileGood keys) : goledgerMain w im env (some keys) other args = .done 1 [] := by
  unfold goledgerMain
  rw [Option.bind_some, Option.bind_some]
  by_cases hd : ∀ n, ∀ x ∈ defPart keys n, DefKeyGood x.1 x.2
  · by_cases hg : ∀ n, ∀ x ∈ genPart keys n, GenKeyGood x.1 x.2
    · obtain ⟨defs, h1, -⟩ := (impDefs_eq keys).1 hd
      obtain ⟨gens, g1, -⟩ := (genDefs_eq keys).1 hg
      rw [h1, g1]
      simp only
      exact c134_bad_file w env keys _ args fun hk => hf ⟨hk, hd, hg⟩
    · rw [(genDefs_eq keys).2 hg]
      cases impDefs keys <;> rfl
  · rw [(impDefs_eq keys).2 hd]

/-! ## The same as the options written out -/

theorem lastOf_append (n : Str) (a b : List (Str × Str)) : lastOf n (a ++ b) = (lastOf n b).or (lastOf n a) := by
  induction a with
  | nil => simp [lastOf]
  | cons x a ih =>
    obtain ⟨m, v⟩ := x
    rw [List.cons_append, lastOf, lastOf, ih, Option.or_assoc]

theorem lineStr_append (a b : List (Str × Str)) (n d : Str) : lineStr (a ++ b) n d = lineStr b n (lineStr a n d) := by
  unfold lineStr
  rw [lastOf_append]
  cases lastOf n b <;> rfl

theorem lineBool_append (a b : List (Str × Str)) (n : Str) (d : Bool) : lineBool (a ++ b) n d = lineBool b n (lineBool a n d) := by
  unfold lineBool
  rw [lastOf_append]
  cases lastOf n b <;> rfl

theorem lineFormat_append (a b : List (Str × Str)) (d : CLIConfig) : lineFormat (a ++ b) d = lineFormat b (lineFormat a d) := by
  unfold lineFormat
  rw [lastOf_append]
  cases lastOf b!"format" b <;> rfl

theorem letters_same (cb fb : Bool) (c : Nat) : ofLetter (importTableB cb fb) c = ofLetter (importTableB true true) c := by
  cases cb <;> cases fb <;> simp [importTableB, appFlagTable, ofLetter]

theorem kinds_more (cb fb : Bool) (n : Str) (k : Kind) (h : kindOf (importTableB cb fb) n = some k) : kindOf (importTableB true true) n = some k := by
  refine kindOf_of_mem (import_linked ⟨fun _ _ => true, fun _ => none⟩ true true).ok.nodup (s := (kindOf_mem h).choose) ?_
  have := (kindOf_mem h).choose_spec
  revert this
  generalize (kindOf_mem h).choose = s
  intro hm
  cases cb <;> cases fb <;>
    simp only [importTableB, List.mem_append, List.mem_cons, List.not_mem_nil, or_false, if_true, Bool.false_eq_true, if_false, false_or] at hm ⊢ <;> tauto

theorem fits_more (cb fb : Bool) (p : LinePart) (h : p.Fits (importTableB cb fb)) : p.Fits (importTableB true true) := by
  have hsw : ∀ c, IsSwitch (importTableB cb fb) c ↔ IsSwitch (importTableB true true) c := fun c => by unfold IsSwitch; rw [letters_same]
  have hva : ∀ c, IsValued (importTableB cb fb) c ↔ IsValued (importTableB true true) c := fun c => by unfold IsValued; rw [letters_same]
  cases p with
  | word s => exact h
  | eq n v =>
    obtain ⟨k, hk⟩ := Option.ne_none_iff_exists'.1 h
    show kindOf _ _ ≠ none
    rw [kinds_more cb fb n k hk]; simp
  | next n v =>
    obtain ⟨k, hk, hne⟩ := h
    exact ⟨k, kinds_more cb fb n k hk, hne⟩
  | alone n => exact kinds_more cb fb n _ h
  | testing bs s => exact fun c hc => (hsw c).1 (h c hc)
  | letters bs last =>
    rcases last with _ | ⟨c, v, _ | _ | _⟩ <;> simp only [LinePart.Fits, hsw, hva, letters_same cb fb] at h ⊢ <;> exact h

theorem flags_more (cb fb : Bool) (l : CmdLine) : l.flags (importTableB cb fb) = l.flags (importTableB true true) := by
  unfold CmdLine.flags
  congr 1
  funext p
  cases p <;> simp only [LinePart.flags, letterName, letters_same cb fb]

theorem good_more (f : FlagEnv) (cb fb : Bool) (l : CmdLine) (h : l.Good f (importTableB cb fb)) : l.Good f (importTableB true true) := by
  refine ⟨fun p hp => fits_more cb fb p (h.1 p hp), fun x hx k hk => ?_⟩
  rw [← flags_more cb fb] at hx
  obtain ⟨k', hk'⟩ := Option.ne_none_iff_exists'.1 (flags_known_line (import_linked f cb fb).ok l h.1 x hx)
  have := kinds_more cb fb _ _ hk'
  rw [this] at hk
  cases hk
  exact h.2 x hx k hk'

/-- C136: `import NAME …` is `import --format=… --code=… --acct=… --cacct=… --dedup=… --reclassify=… …` with the options as the definition says
them.  (The definition's currency cannot be given on the line.) -/
theorem c136_written_out (w : World) (im : ImpWorld) (env : Option Str) (keys : Keys) (other : List Str → Conf → Exit) (n : Str) (l : CmdLine)
    (hw : WalksMap im) (hf : FileGood keys) (hd : Defined keys n) (hn : NameGood n) (hb : ∀ m, Defined keys m → 32 ∉ m)
    (format : Str) (fmt : CLIConfig) (hfmt : cliSet format = some fmt) (hsame : SameFormat fmt (defOf keys n).fmt)
    (hfull : (defOf keys n).code ≠ [] ∧ (defOf keys n).fmt.typ ≠ [] ∧ (defOf keys n).acct ≠ [] ∧ (defOf keys n).cacct ≠ [])
    (hccy : (defOf keys n).ccy = [])
    (hl : l.Good w.flags (importFlagTable (defOf keys n))) (hh : asksHelp (l.flags (importFlagTable (defOf keys n))) = false)
    (hno : ∀ a ∈ (CmdLine.mk (writtenOut (defOf keys n) format ++ l.parts) l.rest).text, ¬ Defined keys a) :
    goledgerMain w im env (some keys) other (b!"import" :: n :: l.text) =
      goledgerMain w im env (some keys) other (b!"import" :: (CmdLine.mk (writtenOut (defOf keys n) format ++ l.parts) l.rest).text) := by
  generalize hdn : defOf keys n = d at *
  have htp : importFlagTable plainDef = importTableB true true := rfl
  have htd : importFlagTable d = importTableB false false := by rw [importTable_eq]; simp [hfull]
  rw [htd] at hl hh
  have hflags : (CmdLine.mk (writtenOut d format ++ l.parts) l.rest).flags (importTableB true true) =
      [(b!"format", format), (b!"code", d.code), (b!"acct", d.acct), (b!"cacct", d.cacct), (b!"dedup", if d.dedup then b!"true" else b!"false"),
        (b!"reclassify", if d.reclassify then b!"true" else b!"false")] ++ l.flags (importTableB false false) := by
    rw [flags_more false false]
    simp [CmdLine.flags, writtenOut, LinePart.flags]
  have hgl := good_more w.flags false false l hl
  have hgood : (CmdLine.mk (writtenOut d format ++ l.parts) l.rest).Good w.flags (importFlagTable plainDef) := by
    rw [htp]
    constructor
    · intro p hp
      rcases List.mem_append.1 hp with hp | hp
      · simp only [writtenOut, List.mem_cons, List.not_mem_nil, or_false] at hp
        rcases hp with rfl | rfl | rfl | rfl | rfl | rfl <;> exact Option.ne_none_iff_exists'.2 ⟨_, rfl⟩
      · exact hgl.1 p hp
    · intro x hx k hk
      rw [hflags] at hx
      rcases List.mem_append.1 hx with hx | hx
      · simp only [List.mem_cons, List.not_mem_nil, or_false] at hx
        rcases hx with rfl | rfl | rfl | rfl | rfl | rfl <;> cases hk
        · show cliSet format ≠ none
          rw [hfmt]; simp
        · trivial
        · trivial
        · trivial
        · cases d.dedup <;> simp [Kind.takes, yesWords, noWords]
        · cases d.reclassify <;> simp [Kind.takes, yesWords, noWords]
      · rw [flags_more false false] at hx
        exact hgl.2 x hx k hk
  have hwords : (CmdLine.mk (writtenOut d format ++ l.parts) l.rest).words = l.words := by
    simp [CmdLine.words, writtenOut, LinePart.words]
  have hcompl : Complete (l.flags (importTableB false false)) d :=
    ⟨fun h => absurd h hfull.1, fun h => absurd h hfull.2.1, fun h => absurd h hfull.2.2.1, fun h => absurd h hfull.2.2.2⟩
  have hcompl' : Complete ((CmdLine.mk (writtenOut d format ++ l.parts) l.rest).flags (importTableB true true)) plainDef := by
    rw [hflags]
    exact ⟨fun _ => ⟨d.code, by simp⟩, fun _ => ⟨format, by simp⟩, fun _ => ⟨d.acct, by simp⟩, fun _ => ⟨d.cacct, by simp⟩⟩
  have hhelp' : asksHelp ((CmdLine.mk (writtenOut d format ++ l.parts) l.rest).flags (importTableB true true)) = false := by
    rw [hflags, asksHelp, lineBool_append]
    exact hh
  by_cases ha : l.words = []
  · subst hdn
    rw [c136_missing w im env keys other n l hw hf hd hn hb (by rw [htd]; exact hl) (by rw [htd]; exact hh) (Or.inl ha)]
    rw [goledger_plain w im env keys other _ hw hf hb hno, import_line w im _ _ _ _ hgood, htp]
    have hhelp : (appWith (startConf env keys) ((CmdLine.mk (writtenOut (defOf keys n) format ++ l.parts) l.rest).flags (importTableB true true))).help =
      false := hhelp'
    rw [hhelp, if_neg (by simp), if_pos (by rw [hwords]; exact ha)]
  · have h1 := c136_definition_partial w im env keys other n l hw hf hd hn hb (by rw [hdn, htd]; exact hl) (by rw [hdn, htd]; exact hh) ha
      (by rw [hdn, htd]; exact hcompl)
    have h2 := c136_plain w im env keys other _ hw hf hb hno hgood hhelp' (by rw [hwords]; exact ha) hcompl'
    rw [h1, h2, hdn, htd, htp, hflags, hwords]
    have happ : ∀ p, (p = [(b!"format", format), (b!"code", d.code), (b!"acct", d.acct), (b!"cacct", d.cacct),
        (b!"dedup", if d.dedup then b!"true" else b!"false"), (b!"reclassify", if d.reclassify then b!"true" else b!"false")]) →
        appOf keys (p ++ l.flags (importTableB false false)) = appOf keys (l.flags (importTableB false false)) ∧
        langOf env keys (p ++ l.flags (importTableB false false)) = langOf env keys (l.flags (importTableB false false)) ∧
        importOf (p ++ l.flags (importTableB false false)) plainDef =
          { importOf (l.flags (importTableB false false)) d with fmt := lineFormat (l.flags (importTableB false false)) fmt } := by
      rintro p rfl
      refine ⟨?_, ?_, ?_⟩
      · unfold appOf
        simp only [lineStr_append, lineBool_append]
        rfl
      · unfold langOf
        rw [lineStr_append]
        rfl
      · unfold importOf
        simp only [lineStr_append, lineBool_append, lineFormat_append, hccy]
        have hd1 : ∀ b : Bool, decide ((if b then b!"true" else b!"false") ∈ yesWords) = b := by intro b; cases b <;> decide +kernel
        have e1 : ∀ b : Bool, decide ((if b = true then [116, 114, 117, 101] else [102, 97, 108, 115, 101]) ∈ yesWords) = b := hd1
        simp [lineStr, lineBool, lineFormat, lastOf, plainDef, hfmt, Option.or, e1]
    obtain ⟨e1, e2, e3⟩ := happ _ rfl
    rw [e1, e2, e3]
    refine (import_congr w im _ _ (importOf (l.flags (importTableB false false)) d) _ l.words ?_).symm
    simp only [importOf, lineFormat]
    split
    · exact hsame
    · exact ⟨rfl, fun _ => rfl⟩

end Verif
