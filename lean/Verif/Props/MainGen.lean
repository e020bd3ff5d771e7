import Verif.Props.MainImport2
import Verif.Props.GenerateCmd

/-! # C139: a generate definition of the configuration file is the generate command with its options set -/

namespace Verif
open Spec

/-- The flags by whether there is `--code`. -/
def genFlagsB (code : Bool) : List (FlagOf (CmdState GenDef)) :=
  [boolVar b!"dedup" (some 100) (·.d.dedup) fun s v => { s with d := { s.d with dedup := v } }] ++
  (if code then [markFlag (stringVar b!"code" none (·.d.code) fun s v => { s with d := { s.d with code := v } })] else []) ++
  appFlags.map liftFlag

theorem genFlags_eq (d : GenDef) : genFlags d = genFlagsB (decide (d.code = [])) := by
  unfold genFlags genFlagsB
  simp only [decide_eq_true_eq]

/-- And the table. -/
def genTableB (code : Bool) : Table :=
  [(b!"dedup", some 100, .switch)] ++ (if code then [(b!"code", none, .text)] else []) ++ appFlagTable

theorem genTable_eq (d : GenDef) : genFlagTable d = genTableB (decide (d.code = [])) := by
  unfold genFlagTable genTableB
  simp only [decide_eq_true_eq]

theorem gen_linked (fe : FlagEnv) (code : Bool) : Linked fe (genFlagsB code) (genTableB code) where
  like := by
    unfold genFlagsB genTableB
    refine append_like (append_like ?_ ?_) (lifted_like (app_like fe))
    · exact .cons (boolVar_like ..) .nil
    · cases code
      · exact .nil
      · exact .cons (mark_like (stringVar_like ..)) .nil
  ok := by
    constructor
    · have : ∀ x ∈ (genTableB code).map (·.1), x ≠ [] ∧ x.head? ≠ some 45 ∧ 61 ∉ x := by
        cases code <;> simp [genTableB, appFlagTable]
      intro x hx
      exact this _ (List.mem_map_of_mem hx)
    · have : ∀ x ∈ (genTableB code).map (·.2.1), x ≠ some 45 ∧ x ≠ some 61 ∧ x ≠ some 116 := by
        cases code <;> simp [genTableB, appFlagTable]
      intro x hx
      exact this _ (List.mem_map_of_mem (f := fun x => x.2.1) hx)
    · cases code <;> simp [genTableB, appFlagTable]

/-- The settings after the flags of the line. -/
def genStateWith (s : CmdState GenDef) (l : List (Str × Str)) : CmdState GenDef where
  conf := appWith s.conf l
  d := generateOf l s.d
  given := ((l.map (·.1)).filter fun n => decide (n = b!"code")).reverse ++ s.given

theorem set_gen (fe : FlagEnv) (code : Bool) (s : CmdState GenDef) (l : List (Str × Str)) (h : ∀ x ∈ l, kindOf (genTableB code) x.1 ≠ none)
    (hg : ∀ x ∈ l, ∀ k, kindOf (genTableB code) x.1 = some k → k.takes fe x.2) :
    setAll (genFlagsB code) s l = some (genStateWith s l) := by
  induction l generalizing s with
  | nil => rfl
  | cons x l ih =>
    obtain ⟨n, v⟩ := x
    obtain ⟨k, hk⟩ := Option.ne_none_iff_exists'.1 (h (n, v) (by simp))
    have ht := hg (n, v) (by simp) k hk
    have ih := fun c => ih c (fun x hx => h x (by simp [hx])) (fun x hx => hg x (by simp [hx]))
    rw [setAll]
    simp only [ih]
    clear ih h hg
    obtain ⟨s', hm⟩ := kindOf_mem hk
    clear hk
    cases code
    all_goals
      simp only [genTableB, appFlagTable, List.cons_append, List.nil_append, List.mem_cons, List.not_mem_nil, or_false, Prod.mk.injEq,
        if_true, Bool.false_eq_true, if_false] at hm
      casesm* _ ∨ _
    all_goals
      obtain ⟨rfl, -, rfl⟩ := hm
      rw [show longFlag (genFlagsB _) _ = some _ from rfl]
      simp only [Kind.takes] at ht
      first
      | (simp [stringVar, liftFlag, markFlag, genStateWith, generateOf, appWith, lineStr_cons, lineBool_cons, List.filter_cons]; done)
      | (simp [boolVar, liftFlag, markFlag, parseBool_yes ht, genStateWith, generateOf, appWith, lineStr_cons, lineBool_cons, List.filter_cons]; done)

open Classical in
/-- A line that can be read. -/
theorem gen_line (w : World) (im : ImpWorld) (name : Str) (d : GenDef) (c : Conf) (l : CmdLine) (hg : l.Good w.flags (genFlagTable d)) :
    genExecute w im name d l.text c =
      if (appWith c (l.flags (genFlagTable d))).help then .done 0 [.text (w.usage name)]
      else if l.words ≠ [] then .done 1 []
      else if d.code = [] ∧ ¬ Given (l.flags (genFlagTable d)) b!"code" then .done 1 []
      else generateFull w im (appWith c (l.flags (genFlagTable d))).app (appWith c (l.flags (genFlagTable d))).lang
        (generateOf (l.flags (genFlagTable d)) d) := by
  have hlk : Linked w.flags (genFlags d) (genFlagTable d) := by
    rw [genFlags_eq, genTable_eq]
    exact gen_linked ..
  have hset : setAll (genFlags d) ⟨c, d, []⟩ (l.flags (genFlagTable d)) = some (genStateWith ⟨c, d, []⟩ (l.flags (genFlagTable d))) := by
    have h1 := flags_known_line hlk.ok l hg.1
    have h2 := hg.2
    rw [genFlags_eq]
    rw [genTable_eq] at h1 h2 ⊢
    exact set_gen w.flags _ _ _ h1 h2
  have hreq : ((genRequired d).all fun n => decide (n ∈ (genStateWith ⟨c, d, []⟩ (l.flags (genFlagTable d))).given)) = true ↔
      ¬ (d.code = [] ∧ ¬ Given (l.flags (genFlagTable d)) b!"code") := by
    have hgiven : b!"code" ∈ (genStateWith ⟨c, d, []⟩ (l.flags (genFlagTable d))).given ↔ Given (l.flags (genFlagTable d)) b!"code" := by
      simp only [genStateWith, List.append_nil, List.mem_reverse, List.mem_filter, decide_eq_true_eq, and_true, List.mem_map, Given]
      constructor
      · rintro ⟨⟨m, v⟩, h, rfl⟩; exact ⟨v, h⟩
      · rintro ⟨v, h⟩; exact ⟨(b!"code", v), h, rfl⟩
    unfold genRequired
    by_cases hc : d.code = []
    · simp only [hc, if_true, List.all_cons, List.all_nil, Bool.and_true, decide_eq_true_eq, true_and, not_not]
      exact hgiven
    · simp [hc]
  unfold genExecute
  rw [parse_line hlk l hg.1, hset]
  by_cases h : d.code = [] ∧ ¬ Given (l.flags (genFlagTable d)) b!"code"
  · rw [if_pos h]
    have h' : ((genRequired d).all fun n => decide (n ∈ (genStateWith ⟨c, d, []⟩ (l.flags (genFlagTable d))).given)) = false := by
      rw [Bool.eq_false_iff]
      exact fun h' => hreq.1 h' h
    show (if (appWith c (l.flags (genFlagTable d))).help then _ else if l.words ≠ [] then _ else
      if ((genRequired d).all fun n => decide (n ∈ (genStateWith ⟨c, d, []⟩ (l.flags (genFlagTable d))).given)) = true then _ else _) = _
    rw [h']
    rfl
  · rw [if_neg h]
    show (if (appWith c (l.flags (genFlagTable d))).help then _ else if l.words ≠ [] then _ else
      if ((genRequired d).all fun n => decide (n ∈ (genStateWith ⟨c, d, []⟩ (l.flags (genFlagTable d))).given)) = true then _ else _) = _
    rw [hreq.2 h]
    rfl

/-- A line that cannot be read. -/
theorem gen_refused (w : World) (im : ImpWorld) (name : Str) (d : GenDef) (c : Conf) (args : List Str)
    (h : ¬ ∃ l : CmdLine, l.text = args ∧ l.Good w.flags (genFlagTable d)) : genExecute w im name d args c = .done 1 [] := by
  have hlk : Linked w.flags (genFlags d) (genFlagTable d) := by
    rw [genFlags_eq, genTable_eq]
    exact gen_linked ..
  unfold genExecute
  have := (parse_iff hlk args ⟨c, d, []⟩).not.2 h
  simp only [Option.isSome_iff_ne_none, ne_eq, not_not] at this
  rw [this]

/-- C139: `generate NAME …` works with what the command line says, or else the definition NAME of the configuration file.  (For names without
blanks.) -/
theorem c139_definition_partial (w : World) (im : ImpWorld) (env : Option Str) (keys : Keys) (other : List Str → Conf → Exit) (n : Str) (l : CmdLine)
    (hw : WalksMap im) (hf : FileGood keys) (hd : GenDefined keys n) (hn : NameGood n) (hb : ∀ m, GenDefined keys m → 32 ∉ m)
    (hl : l.Good w.flags (genFlagTable (genOf keys n))) (hh : asksHelp (l.flags (genFlagTable (genOf keys n))) = false)
    (ha : l.words = []) (hc : (genOf keys n).code = [] → Given (l.flags (genFlagTable (genOf keys n))) b!"code") :
    goledgerMain w im env (some keys) other (b!"generate" :: n :: l.text) =
      generateFull w im (appOf keys (l.flags (genFlagTable (genOf keys n)))) (langOf env keys (l.flags (genFlagTable (genOf keys n))))
        (generateOf (l.flags (genFlagTable (genOf keys n))) (genOf keys n)) := by
  rw [goledger_genDef w im env keys other n _ hw hf hd hn.2 hb, show genWith GenDef.zero (genPart keys n) = genOf keys n from rfl,
    gen_line w im n (genOf keys n) _ l hl]
  have hhelp : (appWith (startConf env keys) (l.flags (genFlagTable (genOf keys n)))).help = false := hh
  rw [hhelp, if_neg (by simp), if_neg (by simp [ha]), if_neg (by rintro ⟨h1, h2⟩; exact h2 (hc h1)), app_settings, import_app]

/-- C139, without a definition. -/
theorem c139_plain (w : World) (im : ImpWorld) (env : Option Str) (keys : Keys) (other : List Str → Conf → Exit) (l : CmdLine)
    (hw : WalksMap im) (hf : FileGood keys) (hb : ∀ m, GenDefined keys m → 32 ∉ m) (hno : ∀ a ∈ l.text, ¬ GenDefined keys a)
    (hl : l.Good w.flags (genFlagTable plainGen)) (hh : asksHelp (l.flags (genFlagTable plainGen)) = false)
    (ha : l.words = []) (hc : Given (l.flags (genFlagTable plainGen)) b!"code") :
    goledgerMain w im env (some keys) other (b!"generate" :: l.text) =
      generateFull w im (appOf keys (l.flags (genFlagTable plainGen))) (langOf env keys (l.flags (genFlagTable plainGen)))
        (generateOf (l.flags (genFlagTable plainGen)) plainGen) := by
  rw [goledger_gen w im env keys other _ hw hf hb hno, gen_line w im _ _ _ l hl]
  have hhelp : (appWith (startConf env keys) (l.flags (genFlagTable plainGen))).help = false := hh
  rw [hhelp, if_neg (by simp), if_neg (by simp [ha]), if_neg (by rintro ⟨-, h2⟩; exact h2 hc), app_settings, import_app]

/-- C139, a word on the line, or no code in the definition and on the line: status 1, nothing is read or printed. -/
theorem c139_missing (w : World) (im : ImpWorld) (env : Option Str) (keys : Keys) (other : List Str → Conf → Exit) (n : Str) (l : CmdLine)
    (hw : WalksMap im) (hf : FileGood keys) (hd : GenDefined keys n) (hn : NameGood n) (hb : ∀ m, GenDefined keys m → 32 ∉ m)
    (hl : l.Good w.flags (genFlagTable (genOf keys n))) (hh : asksHelp (l.flags (genFlagTable (genOf keys n))) = false)
    (hc : l.words ≠ [] ∨ ((genOf keys n).code = [] ∧ ¬ Given (l.flags (genFlagTable (genOf keys n))) b!"code")) :
    goledgerMain w im env (some keys) other (b!"generate" :: n :: l.text) = .done 1 [] := by
  rw [goledger_genDef w im env keys other n _ hw hf hd hn.2 hb, show genWith GenDef.zero (genPart keys n) = genOf keys n from rfl,
    gen_line w im n (genOf keys n) _ l hl]
  have hhelp : (appWith (startConf env keys) (l.flags (genFlagTable (genOf keys n)))).help = false := hh
  rw [hhelp, if_neg (by simp)]
  rcases hc with hc | hc
  · rw [if_pos hc]
  · rw [if_pos hc]
    split <;> rfl

/-- C139, a line that cannot be read with the flags of the definition's command: status 1. -/
theorem c139_refused (w : World) (im : ImpWorld) (env : Option Str) (keys : Keys) (other : List Str → Conf → Exit) (n : Str) (args : List Str)
    (hw : WalksMap im) (hf : FileGood keys) (hd : GenDefined keys n) (hn : NameGood n) (hb : ∀ m, GenDefined keys m → 32 ∉ m)
    (h : ¬ ∃ l : CmdLine, l.text = args ∧ l.Good w.flags (genFlagTable (genOf keys n))) :
    goledgerMain w im env (some keys) other (b!"generate" :: n :: args) = .done 1 [] := by
  rw [goledger_genDef w im env keys other n _ hw hf hd hn.2 hb]
  exact gen_refused w im n _ _ args h

/-- C139, the script: a call of `add` that leaves out the account, the currency or the counter-account means the account `acct`, the currency
`ccy` and the counter-account `cacct`: the same as when the script writes them out. -/
theorem c139_defaults (w : World) (im : ImpWorld) (a : AppConf) (lang : Str) (d : GenDef) :
    generateFull w im a lang d =
      generateFull w { im with gen := fun c b => ⟨(im.gen c b).msgs, (im.gen c b).acts.map (actWritten b!"acct" b!"ccy" b!"cacct"), (im.gen c b).ok⟩ }
        a lang d := by
  unfold generateFull
  congr 2
  funext b
  unfold genScript
  simp only
  split
  · rfl
  · simp only [List.map_map]
    congr 1
    refine List.map_congr_left fun x _ => ?_
    cases x <;> simp [actWritten, addWritten, RawAct.fill, RawAdd.fill]

/-- C139: `generate NAME …` is `generate --code=… --dedup=… …` with the options as the definition says them. -/
theorem c139_written_out (w : World) (im : ImpWorld) (env : Option Str) (keys : Keys) (other : List Str → Conf → Exit) (n : Str) (l : CmdLine)
    (hw : WalksMap im) (hf : FileGood keys) (hd : GenDefined keys n) (hn : NameGood n) (hb : ∀ m, GenDefined keys m → 32 ∉ m)
    (hfull : (genOf keys n).code ≠ [])
    (hl : l.Good w.flags (genFlagTable (genOf keys n))) (hh : asksHelp (l.flags (genFlagTable (genOf keys n))) = false)
    (hno : ∀ a ∈ (CmdLine.mk (genWrittenOut (genOf keys n) ++ l.parts) l.rest).text, ¬ GenDefined keys a) :
    goledgerMain w im env (some keys) other (b!"generate" :: n :: l.text) =
      goledgerMain w im env (some keys) other (b!"generate" :: (CmdLine.mk (genWrittenOut (genOf keys n) ++ l.parts) l.rest).text) := by
  have hletters : ∀ c, ofLetter (genTableB false) c = ofLetter (genTableB true) c := by
    intro c; simp [genTableB, appFlagTable, ofLetter]
  have hkinds : ∀ n k, kindOf (genTableB false) n = some k → kindOf (genTableB true) n = some k := by
    intro n k h
    refine kindOf_of_mem (gen_linked ⟨fun _ _ => true, fun _ => none⟩ true).ok.nodup (s := (kindOf_mem h).choose) ?_
    have := (kindOf_mem h).choose_spec
    revert this
    generalize (kindOf_mem h).choose = s
    intro hm
    simp only [genTableB, List.mem_append, List.mem_cons, List.not_mem_nil, or_false, if_true, Bool.false_eq_true, if_false, false_or] at hm ⊢
    tauto
  have hfits : ∀ p : LinePart, p.Fits (genTableB false) → p.Fits (genTableB true) := by
    intro p h
    have hsw : ∀ c, IsSwitch (genTableB false) c ↔ IsSwitch (genTableB true) c := fun c => by unfold IsSwitch; rw [hletters]
    have hva : ∀ c, IsValued (genTableB false) c ↔ IsValued (genTableB true) c := fun c => by unfold IsValued; rw [hletters]
    cases p with
    | word s => exact h
    | eq n v =>
      obtain ⟨k, hk⟩ := Option.ne_none_iff_exists'.1 h
      show kindOf _ _ ≠ none
      rw [hkinds n k hk]; simp
    | next n v =>
      obtain ⟨k, hk, hne⟩ := h
      exact ⟨k, hkinds n k hk, hne⟩
    | alone n => exact hkinds n _ h
    | testing bs s => exact fun c hc => (hsw c).1 (h c hc)
    | letters bs last =>
      rcases last with _ | ⟨c, v, _ | _ | _⟩ <;> simp only [LinePart.Fits, hsw, hva, hletters] at h ⊢ <;> exact h
  have hflags : ∀ l : CmdLine, l.flags (genTableB false) = l.flags (genTableB true) := by
    intro l
    unfold CmdLine.flags
    congr 1
  generalize hdn : genOf keys n = d at *
  have htp : genFlagTable plainGen = genTableB true := rfl
  have htd : genFlagTable d = genTableB false := by rw [genTable_eq]; simp [hfull]
  rw [htd] at hl hh
  have hgl : l.Good w.flags (genTableB true) := by
    refine ⟨fun p hp => hfits p (hl.1 p hp), fun x hx k hk => ?_⟩
    rw [← hflags] at hx
    obtain ⟨k', hk'⟩ := Option.ne_none_iff_exists'.1 (flags_known_line (gen_linked w.flags false).ok l hl.1 x hx)
    have := hkinds _ _ hk'
    rw [this] at hk
    cases hk
    exact hl.2 x hx _ hk'
  have hfl : (CmdLine.mk (genWrittenOut d ++ l.parts) l.rest).flags (genTableB true) =
      [(b!"code", d.code), (b!"dedup", if d.dedup then b!"true" else b!"false")] ++ l.flags (genTableB false) := by
    rw [hflags]
    simp [CmdLine.flags, genWrittenOut, LinePart.flags]
  have hgood : (CmdLine.mk (genWrittenOut d ++ l.parts) l.rest).Good w.flags (genFlagTable plainGen) := by
    rw [htp]
    constructor
    · intro p hp
      rcases List.mem_append.1 hp with hp | hp
      · simp only [genWrittenOut, List.mem_cons, List.not_mem_nil, or_false] at hp
        rcases hp with rfl | rfl <;> exact Option.ne_none_iff_exists'.2 ⟨_, rfl⟩
      · exact hgl.1 p hp
    · intro x hx k hk
      rw [hfl] at hx
      rcases List.mem_append.1 hx with hx | hx
      · simp only [List.mem_cons, List.not_mem_nil, or_false] at hx
        rcases hx with rfl | rfl <;> cases hk
        · trivial
        · cases d.dedup <;> simp [Kind.takes, yesWords, noWords]
      · rw [hflags] at hx
        exact hgl.2 x hx k hk
  have hwords : (CmdLine.mk (genWrittenOut d ++ l.parts) l.rest).words = l.words := by
    simp [CmdLine.words, genWrittenOut, LinePart.words]
  have hhelp' : asksHelp ((CmdLine.mk (genWrittenOut d ++ l.parts) l.rest).flags (genTableB true)) = false := by
    rw [hfl, asksHelp, lineBool_append]
    exact hh
  by_cases ha : l.words = []
  · have h1 := c139_definition_partial w im env keys other n l hw hf hd hn hb (by rw [hdn, htd]; exact hl) (by rw [hdn, htd]; exact hh) ha
      (by rw [hdn]; exact fun h => absurd h hfull)
    have h2 := c139_plain w im env keys other _ hw hf hb hno hgood hhelp' (by rw [hwords]; exact ha) (by rw [htp, hfl]; exact ⟨d.code, by simp⟩)
    rw [h1, h2, hdn, htd, htp, hfl]
    have e1 : ∀ b : Bool, decide ((if b = true then [116, 114, 117, 101] else [102, 97, 108, 115, 101]) ∈ yesWords) = b := by
      intro b; cases b <;> decide +kernel
    have happ : ∀ p, (p = [(b!"code", d.code), (b!"dedup", if d.dedup then b!"true" else b!"false")]) →
        appOf keys (p ++ l.flags (genTableB false)) = appOf keys (l.flags (genTableB false)) ∧
        langOf env keys (p ++ l.flags (genTableB false)) = langOf env keys (l.flags (genTableB false)) ∧
        generateOf (p ++ l.flags (genTableB false)) plainGen = generateOf (l.flags (genTableB false)) d := by
      rintro p rfl
      refine ⟨?_, ?_, ?_⟩
      · unfold appOf
        simp only [lineStr_append, lineBool_append]
        rfl
      · unfold langOf
        rw [lineStr_append]
        rfl
      · unfold generateOf
        simp only [lineStr_append, lineBool_append]
        simp [lineStr, lineBool, lastOf, plainGen, Option.or, e1]
    obtain ⟨f1, f2, f3⟩ := happ _ rfl
    rw [f1, f2, f3]
  · subst hdn
    rw [c139_missing w im env keys other n l hw hf hd hn hb (by rw [htd]; exact hl) (by rw [htd]; exact hh) (Or.inl ha)]
    rw [goledger_gen w im env keys other _ hw hf hb hno, gen_line w im _ _ _ _ hgood, htp]
    have hhelp : (appWith (startConf env keys) ((CmdLine.mk (genWrittenOut (genOf keys n) ++ l.parts) l.rest).flags (genTableB true))).help =
      false := hhelp'
    rw [hhelp, if_neg (by simp), if_pos (by rw [hwords]; exact ha)]

/-! ## Examples, and where it fails -/

/-- A generate definition `rent`. -/
def rentToml : Keys := [([b!"ledger"], .str b!"a"), ([b!"baseCCY"], .str b!"E"), ([b!"Generate", b!"rent", b!"Code"], .str b!"X"), ([b!"generate", b!"rent", b!"description"], .str b!"Y"),
  ([b!"generate", b!"two", b!"dedup"], .bool true)]

theorem rentToml_good : FileGood rentToml := fileGood_of (by decide +kernel) (by decide +kernel) (by decide +kernel)

theorem rent_names (m : Str) (h : GenDefined rentToml m) : m = b!"rent" ∨ m = b!"two" := by
  by_contra hc
  simp only [not_or] at hc
  refine h ?_
  have h1 := Ne.symm hc.1
  have h2 := Ne.symm hc.2
  simp [genPart, tablePart, rentToml, h1, h2]

theorem rent_noBlank (m : Str) (h : GenDefined rentToml m) : 32 ∉ m := by
  rcases rent_names m h with rfl | rfl <;> decide

/-- `-d`. -/
def rentLine : CmdLine := ⟨[.letters [100] none], none⟩

theorem rentLine_good : rentLine.Good zeroWorld.flags (genFlagTable (genOf rentToml b!"rent")) := by
  rw [show genFlagTable (genOf rentToml b!"rent") = genTableB false from by
    rw [genTable_eq]
    rw [show decide ((genOf rentToml b!"rent").code = []) = false from by decide +kernel]]
  constructor
  · intro p hp
    simp only [rentLine, List.mem_cons, List.not_mem_nil, or_false] at hp
    subst hp
    refine ⟨by simp, ?_⟩
    intro c hc
    simp only [List.mem_singleton] at hc
    subst hc
    exact ⟨_, rfl⟩
  · intro x hx k hk
    have hx : x = (b!"dedup", b!"true") := by
      have : rentLine.flags (genTableB false) = [(b!"dedup", b!"true")] := by decide +kernel
      rw [this] at hx
      simpa using hx
    subst hx
    cases (show kindOf (genTableB false) b!"dedup" = some .switch from rfl).symm.trans hk
    left; decide +kernel

example : goledgerMain zeroWorld bankWorld none (some rentToml) (fun _ _ => .never) [b!"generate", b!"rent", b!"-d"] =
    generateFull zeroWorld bankWorld (appOf rentToml [(b!"dedup", b!"true")]) (langOf none rentToml [(b!"dedup", b!"true")]) ⟨b!"X", true⟩ := by
  have := c139_definition_partial zeroWorld bankWorld none rentToml (fun _ _ => .never) b!"rent" rentLine bank_walks rentToml_good
    (by unfold GenDefined; decide +kernel) (by unfold NameGood; decide) rent_noBlank rentLine_good (by decide +kernel) (by decide +kernel)
    (fun h => absurd h (by decide +kernel))
  exact this

/-- What it prints: the message, and the payment between `acct` and `cacct`. -/
example : (goledgerMain zeroWorld bankWorld none (some rentToml) (fun _ _ => .never) [b!"generate", b!"rent", b!"-d"]).text? =
    some b!"; X\n2020/02/01 X\n  acct  ccy 5.00\n  cacct  ccy -5.00\n\n" := by decide +kernel

example : goledgerMain zeroWorld bankWorld none (some rentToml) (fun _ _ => .never) [b!"generate", b!"rent", b!"-d"] =
    goledgerMain zeroWorld bankWorld none (some rentToml) (fun _ _ => .never) [b!"generate", b!"--code=X", b!"--dedup=false", b!"-d"] :=
  c139_written_out zeroWorld bankWorld none rentToml (fun _ _ => .never) b!"rent" rentLine bank_walks rentToml_good
    (by unfold GenDefined; decide +kernel) (by unfold NameGood; decide) rent_noBlank (by decide +kernel) rentLine_good (by decide +kernel)
    (by
      intro m hm hd
      rcases rent_names m hd with rfl | rfl <;> revert hm <;> decide +kernel)

/-- `--code=Y` -/
def genCodeLine : CmdLine := ⟨[.eq b!"code" b!"Y"], none⟩

theorem genCodeLine_good : genCodeLine.Good zeroWorld.flags (genFlagTable plainGen) := by
  rw [show genFlagTable plainGen = genTableB true from rfl]
  constructor
  · intro p hp
    simp only [genCodeLine, List.mem_cons, List.not_mem_nil, or_false] at hp
    subst hp
    exact Option.ne_none_iff_exists'.2 ⟨_, rfl⟩
  · intro x hx k hk
    simp [genCodeLine, CmdLine.flags, LinePart.flags] at hx
    subst hx
    cases (show kindOf (genTableB true) b!"code" = some .text from rfl).symm.trans hk; trivial

/-- C139 is false in full: the code of a definition cannot be replaced on the line; the program refuses `--code`. -/
theorem c139_code_fails : ¬ ∀ (w : World) (im : ImpWorld) (env : Option Str) (keys : Keys) (other : List Str → Conf → Exit) (n : Str) (l : CmdLine),
    WalksMap im → FileGood keys → GenDefined keys n → NameGood n → (∀ m, GenDefined keys m → 32 ∉ m) →
    l.Good w.flags (genFlagTable plainGen) → asksHelp (l.flags (genFlagTable plainGen)) = false → l.words = [] →
    ((genOf keys n).code = [] → Given (l.flags (genFlagTable plainGen)) b!"code") →
    goledgerMain w im env (some keys) other (b!"generate" :: n :: l.text) =
      generateFull w im (appOf keys (l.flags (genFlagTable plainGen))) (langOf env keys (l.flags (genFlagTable plainGen)))
        (generateOf (l.flags (genFlagTable plainGen)) (genOf keys n)) := by
  intro h
  have := h zeroWorld bankWorld none rentToml (fun _ _ => .never) b!"rent" genCodeLine bank_walks rentToml_good
    (by unfold GenDefined; decide +kernel) (by unfold NameGood; decide) rent_noBlank genCodeLine_good (by decide +kernel) (by decide +kernel)
    (fun h => absurd h (by decide +kernel))
  have := congrArg Exit.text? this
  revert this
  decide +kernel

end Verif
