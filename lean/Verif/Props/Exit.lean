import Verif.Spec.Exit
import Verif.Props.MainGen

/-! # C140: a ledger that cannot be loaded ends every command with a non-zero status and without output -/

namespace Verif
open Spec

/-- Every command first loads the ledger. -/
theorem run_loads (w : World) (c : Conf) (args : List Str) (k : Cmd) :
    ∃ f : Book → CmdEnd (List Exported), k.run w c args = (loadCmd w.files w.depth w.ops.srt c.app).bind f := by
  have assoc : ∀ {α β γ : Type} (x : CmdEnd α) (f : α → CmdEnd β) (g : β → CmdEnd γ), (x.bind f).bind g = x.bind fun a => (f a).bind g := by
    intro α β γ x f g
    cases x <;> rfl
  cases k
  · exact ⟨_, by simp only [Cmd.run, reportFull, assoc]; rfl⟩
  · exact ⟨_, by simp only [Cmd.run, registerFull, assoc]; rfl⟩
  · exact ⟨_, by simp only [Cmd.run, exportCmd, assoc]; rfl⟩
  · exact ⟨_, by simp only [Cmd.run, acctsCmd, assoc]; rfl⟩
  · exact ⟨_, by simp only [Cmd.run, ccyCmd, assoc]; rfl⟩

/-- What is left to show about a run of a command: it is refused with status 1, or asks for help, or goes on with the ledger. -/
inductive AfterLoad (help : Bool) (b : LoadOutcome) : Exit → Prop
  | refused : AfterLoad help b (.done 1 [])
  | help (out : List Exported) (h : help = true) : AfterLoad help b (.done 0 out)
  | err (h : b = .err ∨ b = .fatal) (out : List Exported) (ho : ∀ p ∈ out, p = .text []) : AfterLoad help b (.done 1 out)
  | crash (h : b = .crash) (out : List Exported) (ho : ∀ p ∈ out, p = .text []) : AfterLoad help b (.done 2 out)
  | running (h : b = .running) : AfterLoad help b .never
  | loaded (bk : Book) (h : b = .ok bk) (x : Exit) (hx : ∀ s out, x = .done s out → s ≤ 2) : AfterLoad help b x

theorem load_cases (le : Env) (depth : Nat) (srt : List Posting → List Posting) (a : AppConf) (f : Book → CmdEnd (List Exported)) (help : Bool) :
    AfterLoad help (loadBook srt le depth a.ledger) (((loadCmd le depth srt a).bind f).exit) := by
  unfold loadCmd
  cases h : loadBook srt le depth a.ledger with
  | ok b =>
    refine .loaded b rfl _ fun s out hx => ?_
    have : (f b).exit = .done s out := hx
    cases hf : f b <;> rw [hf] at this <;> simp only [CmdEnd.exit, Exit.done.injEq, reduceCtorEq] at this <;> omega
  | err => exact .err (.inl rfl) _ (by simp)
  | fatal => exact .err (.inr rfl) _ (by simp)
  | crash => exact .crash rfl _ (by simp)
  | running => exact .running rfl

theorem printed_status (p : Printed) (s : Nat) (out : List Exported) (h : p.exit = .done s out) : s ≤ 2 := by
  unfold Printed.exit at h
  split at h <;> cases h <;> omega

theorem import_after (w : World) (im : ImpWorld) (a : AppConf) (lang : Str) (d : ImpDef) (args : List Str) (help : Bool) :
    AfterLoad help (loadBook w.ops.srt w.files w.depth a.ledger) (importFull w im a lang d args) := by
  unfold importFull
  generalize (if d.ccy = [] then { d with ccy := a.baseCCY } else d) = d
  simp only
  split
  · exact .refused
  · unfold importCmd loadCmd
    cases h : loadBook w.ops.srt w.files w.depth a.ledger with
    | ok b => exact .loaded b rfl _ fun s out hx => printed_status _ _ _ hx
    | err => exact .err (.inl rfl) _ (by simp)
    | fatal => exact .err (.inr rfl) _ (by simp)
    | crash => exact .crash rfl _ (by simp)
    | running => exact .running rfl

theorem generate_after (w : World) (im : ImpWorld) (a : AppConf) (lang : Str) (d : GenDef) (help : Bool) :
    AfterLoad help (loadBook w.ops.srt w.files w.depth a.ledger) (generateFull w im a lang d) := by
  unfold generateFull generateCmd loadCmd
  cases h : loadBook w.ops.srt w.files w.depth a.ledger with
  | ok b => exact .loaded b rfl _ fun s out hx => printed_status _ _ _ hx
  | err => exact .err (.inl rfl) _ (by simp)
  | fatal => exact .err (.inr rfl) _ (by simp)
  | crash => exact .crash rfl _ (by simp)
  | running => exact .running rfl

theorem app_of_run (fe : FlagEnv) {names : List Str} {t : Table} (h : (names, t) ∈ commandTables) {name : Str} (hn : name ∈ names) :
    ∃ k, findCmd name = some k ∧ Linked fe (k.flags fe) t ∧
      ∀ env keys l, (∀ x ∈ l, kindOf t x.1 ≠ none) → (∀ x ∈ l, ∀ k, kindOf t x.1 = some k → k.takes fe x.2) →
        ∃ c', setAll (k.flags fe) (startConf env keys) l = some c' ∧ c'.help = asksHelp l ∧ c'.app = appOf keys l := by
  simp only [commandTables, List.mem_cons, List.not_mem_nil, or_false, Prod.mk.injEq] at h
  rcases h with ⟨rfl, rfl⟩ | ⟨rfl, rfl⟩ | ⟨rfl, rfl⟩ | ⟨rfl, rfl⟩ | ⟨rfl, rfl⟩
  · exact ⟨.report, by unfold findCmd; rw [if_pos hn], report_linked fe, fun env keys l h1 h2 => ⟨_, set_report fe _ l h1 h2, rfl, app_settings env keys l⟩⟩
  · simp only [List.mem_singleton] at hn; subst hn
    exact ⟨.register, rfl, register_linked fe, fun env keys l h1 h2 => ⟨_, set_register fe _ l h1 h2, rfl, app_settings env keys l⟩⟩
  · simp only [List.mem_singleton] at hn; subst hn
    exact ⟨.export, rfl, export_linked fe, fun env keys l h1 h2 => ⟨_, set_export fe _ l h1 h2, rfl, app_settings env keys l⟩⟩
  · refine ⟨.accts, ?_, accts_linked fe, fun env keys l h1 h2 => ⟨_, set_accts fe _ l h1 h2, rfl, app_settings env keys l⟩⟩
    simp only [List.mem_cons, List.not_mem_nil, or_false] at hn
    rcases hn with rfl | rfl <;> rfl
  · simp only [List.mem_singleton] at hn; subst hn
    exact ⟨.ccy, rfl, ccy_linked fe, fun env keys l h1 h2 => ⟨_, set_ccy fe _ l h1 h2, rfl, app_settings env keys l⟩⟩

/-- The commands that do not take definitions. -/
theorem goledger_known (w : World) (im : ImpWorld) (env : Option Str) (keys : Keys) (other : List Str → Conf → Exit) (hf : FileGood keys)
    (name : Str) (k : Cmd) (hn : findCmd name = some k) (args : List Str) :
    goledgerMain w im env (some keys) other (name :: args) = k.execute w name args (startConf env keys) := by
  obtain ⟨defs, h1, -⟩ := (impDefs_eq keys).1 hf.2.1
  obtain ⟨gens, g1, -⟩ := (genDefs_eq keys).1 hf.2.2
  unfold goledgerMain
  rw [Option.bind_some, Option.bind_some, h1, g1]
  exact main_known w env keys _ name args k hf.1 hn

theorem command_after (w : World) (im : ImpWorld) (env : Option Str) (keys : Keys) (other : List Str → Conf → Exit) (hw : WalksMap im)
    (hf : FileGood keys) (hb : NoBlanks keys) (head : List Str) (l : CmdLine) (t : Table) (hc : LedgerCommand keys head l t) (hl : l.Good w.flags t) :
    AfterLoad (asksHelp (l.flags t)) (loadBook w.ops.srt w.files w.depth (appOf keys (l.flags t)).ledger)
      (goledgerMain w im env (some keys) other (head ++ l.text)) := by
  cases hc with
  | command names t name l hc hn =>
    obtain ⟨k, hfind, hlk, hset⟩ := app_of_run w.flags hc hn
    obtain ⟨c', hs, hhelp, happ⟩ := hset env keys (l.flags t) (flags_known_line hlk.ok l hl.1) hl.2
    show AfterLoad _ _ (goledgerMain w im env (some keys) other (name :: l.text))
    rw [goledger_known w im env keys other hf name k hfind, execute_line w name l k hlk hl _ _ hs, hhelp]
    by_cases hh : asksHelp (l.flags t) = true
    · rw [if_pos hh]; exact .help _ hh
    · rw [if_neg hh]
      split
      · exact .refused
      · obtain ⟨f, hrun⟩ := run_loads w c' l.words k
        rw [hrun, happ]
        exact load_cases ..
  | «import» l hno =>
    show AfterLoad _ _ (goledgerMain w im env (some keys) other (b!"import" :: l.text))
    rw [goledger_plain w im env keys other _ hw hf hb.1 hno, import_line w im _ _ _ l hl]
    by_cases hh : asksHelp (l.flags (importFlagTable plainDef)) = true
    · rw [if_pos (show (appWith (startConf env keys) _).help = true from hh)]; exact .help _ hh
    · rw [if_neg (show ¬ (appWith (startConf env keys) _).help = true from hh)]
      split
      · exact .refused
      · split
        · rw [app_settings]; exact import_after ..
        · exact .refused
  | importDef n l hd hn =>
    show AfterLoad _ _ (goledgerMain w im env (some keys) other (b!"import" :: n :: l.text))
    rw [goledger_def w im env keys other n _ hw hf hd hn.2 hb.1,
      import_line w im n (defWith ImpDef.zero (defPart keys n)) _ l hl,
      show importFlagTable (defWith ImpDef.zero (defPart keys n)) = importFlagTable (defOf keys n) from rfl]
    by_cases hh : asksHelp (l.flags (importFlagTable (defOf keys n))) = true
    · rw [if_pos (show (appWith (startConf env keys) _).help = true from hh)]; exact .help _ hh
    · rw [if_neg (show ¬ (appWith (startConf env keys) _).help = true from hh)]
      split
      · exact .refused
      · split
        · rw [app_settings]; exact import_after ..
        · exact .refused
  | generate l hno =>
    show AfterLoad _ _ (goledgerMain w im env (some keys) other (b!"generate" :: l.text))
    rw [goledger_gen w im env keys other _ hw hf hb.2 hno, gen_line w im _ _ _ l hl]
    by_cases hh : asksHelp (l.flags (genFlagTable plainGen)) = true
    · rw [if_pos (show (appWith (startConf env keys) _).help = true from hh)]; exact .help _ hh
    · rw [if_neg (show ¬ (appWith (startConf env keys) _).help = true from hh)]
      split
      · exact .refused
      · split
        · exact .refused
        · rw [app_settings]; exact generate_after ..
  | generateDef n l hd hn =>
    show AfterLoad _ _ (goledgerMain w im env (some keys) other (b!"generate" :: n :: l.text))
    rw [goledger_genDef w im env keys other n _ hw hf hd hn.2 hb.2,
      gen_line w im n (genWith GenDef.zero (genPart keys n)) _ l hl,
      show genFlagTable (genWith GenDef.zero (genPart keys n)) = genFlagTable (genOf keys n) from rfl]
    by_cases hh : asksHelp (l.flags (genFlagTable (genOf keys n))) = true
    · rw [if_pos (show (appWith (startConf env keys) _).help = true from hh)]; exact .help _ hh
    · rw [if_neg (show ¬ (appWith (startConf env keys) _).help = true from hh)]
      split
      · exact .refused
      · split
        · exact .refused
        · rw [app_settings]; exact generate_after ..

/-- C140: if the ledger (of the command line, or else of the configuration file, or else `main.ledger`) or a file it includes is missing or
refused, every command ends with status 1 and prints nothing. -/
theorem c140_refused (w : World) (im : ImpWorld) (env : Option Str) (keys : Keys) (other : List Str → Conf → Exit) (hw : WalksMap im)
    (hf : FileGood keys) (hb : NoBlanks keys) (head : List Str) (l : CmdLine) (t : Table) (hc : LedgerCommand keys head l t) (hl : l.Good w.flags t)
    (hh : asksHelp (l.flags t) = false)
    (hbad : loadBook w.ops.srt w.files w.depth (appOf keys (l.flags t)).ledger = .err ∨
      loadBook w.ops.srt w.files w.depth (appOf keys (l.flags t)).ledger = .fatal) :
    EndsSilently 1 (goledgerMain w im env (some keys) other (head ++ l.text)) := by
  have h := command_after w im env keys other hw hf hb head l t hc hl
  generalize goledgerMain w im env (some keys) other (head ++ l.text) = x at h
  cases h with
  | refused => exact ⟨[], rfl, by simp⟩
  | help out h => rw [hh] at h; cases h
  | err h out ho => exact ⟨out, rfl, ho⟩
  | crash h out ho => rw [h] at hbad; rcases hbad with hbad | hbad <;> cases hbad
  | running h => rw [h] at hbad; rcases hbad with hbad | hbad <;> cases hbad
  | loaded bk h => rw [h] at hbad; rcases hbad with hbad | hbad <;> cases hbad

/-- C140: in particular if there is no such file. -/
theorem c140_missing (w : World) (im : ImpWorld) (env : Option Str) (keys : Keys) (other : List Str → Conf → Exit) (hw : WalksMap im)
    (hf : FileGood keys) (hb : NoBlanks keys) (head : List Str) (l : CmdLine) (t : Table) (hc : LedgerCommand keys head l t) (hl : l.Good w.flags t)
    (hh : asksHelp (l.flags t) = false) (hd : w.depth ≠ 0) (hno : w.files.files (appOf keys (l.flags t)).ledger = none) :
    EndsSilently 1 (goledgerMain w im env (some keys) other (head ++ l.text)) := by
  refine c140_refused w im env keys other hw hf hb head l t hc hl hh (.inr ?_)
  obtain ⟨n, hn⟩ := Nat.exists_eq_succ_of_ne_zero hd
  unfold loadBook parseFile
  rw [hn, parseFileLocal, hno]

/-- C140: if the last transaction does not balance (see C59), the status is not 0 either, and nothing is printed. -/
theorem c140_unbalanced (w : World) (im : ImpWorld) (env : Option Str) (keys : Keys) (other : List Str → Conf → Exit) (hw : WalksMap im)
    (hf : FileGood keys) (hb : NoBlanks keys) (head : List Str) (l : CmdLine) (t : Table) (hc : LedgerCommand keys head l t) (hl : l.Good w.flags t)
    (hh : asksHelp (l.flags t) = false) (hbad : loadBook w.ops.srt w.files w.depth (appOf keys (l.flags t)).ledger = .crash) :
    EndsSilently 1 (goledgerMain w im env (some keys) other (head ++ l.text)) ∨
      EndsSilently 2 (goledgerMain w im env (some keys) other (head ++ l.text)) := by
  have h := command_after w im env keys other hw hf hb head l t hc hl
  generalize goledgerMain w im env (some keys) other (head ++ l.text) = x at h
  cases h with
  | refused => exact .inl ⟨[], rfl, by simp⟩
  | help out h => rw [hh] at h; cases h
  | err h out ho => exact .inl ⟨out, rfl, ho⟩
  | crash h out ho => exact .inr ⟨out, rfl, ho⟩
  | running h => rw [h] at hbad; cases hbad
  | loaded bk h => rw [h] at hbad; cases hbad

/-- C140: status 0 (without --help) means that the ledger was loaded. -/
theorem c140_done (w : World) (im : ImpWorld) (env : Option Str) (keys : Keys) (other : List Str → Conf → Exit) (hw : WalksMap im)
    (hf : FileGood keys) (hb : NoBlanks keys) (head : List Str) (l : CmdLine) (t : Table) (hc : LedgerCommand keys head l t) (hl : l.Good w.flags t)
    (hh : asksHelp (l.flags t) = false) (out : List Exported) (h : goledgerMain w im env (some keys) other (head ++ l.text) = .done 0 out) :
    ∃ bk, loadBook w.ops.srt w.files w.depth (appOf keys (l.flags t)).ledger = .ok bk := by
  have ha := command_after w im env keys other hw hf hb head l t hc hl
  rw [h] at ha
  cases ha with
  | help out h => rw [hh] at h; cases h
  | loaded bk h => exact ⟨bk, h⟩

/-- C140: the status is 0, 1 or 2. -/
theorem c140_status (w : World) (im : ImpWorld) (env : Option Str) (keys : Keys) (other : List Str → Conf → Exit) (hw : WalksMap im)
    (hf : FileGood keys) (hb : NoBlanks keys) (head : List Str) (l : CmdLine) (t : Table) (hc : LedgerCommand keys head l t) (hl : l.Good w.flags t)
    (s : Nat) (out : List Exported) (h : goledgerMain w im env (some keys) other (head ++ l.text) = .done s out) : s ≤ 2 := by
  have ha := command_after w im env keys other hw hf hb head l t hc hl
  rw [h] at ha
  cases ha with
  | refused => omega
  | help => omega
  | err => omega
  | crash => omega
  | loaded bk _ _ hx => exact hx s out rfl

/-- C140: status 0 of `report` and `export` means that every operation was done. -/
theorem c140_operations (w : World) (im : ImpWorld) (env : Option Str) (keys : Keys) (other : List Str → Conf → Exit)
    (hf : FileGood keys) (name : Str) (t : Table)
    (hn : (name ∈ [b!"report", b!"trans", b!"transactions"] ∧ t = reportFlagTable) ∨ (name = b!"export" ∧ t = exportFlagTable))
    (l : CmdLine) (hl : l.Good w.flags t)
    (hh : asksHelp (l.flags t) = false) (out : List Exported) (h : goledgerMain w im env (some keys) other (name :: l.text) = .done 0 out) :
    ∃ bk bk', loadBook w.ops.srt w.files w.depth (appOf keys (l.flags t)).ledger = .ok bk ∧
      bookOps w.ops (fileMacros keys) w.fuel l.words bk = .ok bk' := by
  have hmain : goledgerMain w im env (some keys) other (name :: l.text) = mainCmd w env (some keys) other (name :: l.text) := by
    have : ∃ k, findCmd name = some k := by
      rcases hn with ⟨hn, -⟩ | ⟨rfl, -⟩
      · exact ⟨.report, by unfold findCmd; rw [if_pos hn]⟩
      · exact ⟨.export, rfl⟩
    obtain ⟨k, hk⟩ := this
    rw [goledger_known w im env keys other hf name k hk, main_known w env keys other name _ k hf.1 hk]
  rw [hmain] at h
  have key : ∀ {α : Type} (a : AppConf) (f : Book → CmdEnd α) (g : α → CmdEnd (List Exported)), a.macros = fileMacros keys →
      ((((loadCmd w.files w.depth w.ops.srt a).bind (opsCmd w.ops w.fuel a l.words)).bind f).bind g).exit = .done 0 out →
      ∃ bk bk', loadBook w.ops.srt w.files w.depth a.ledger = .ok bk ∧ bookOps w.ops (fileMacros keys) w.fuel l.words bk = .ok bk' := by
    intro α a f g hm h
    rw [exit_ok] at h
    unfold loadCmd opsCmd at h
    cases hb : loadBook w.ops.srt w.files w.depth a.ledger with
    | ok bk =>
      rw [hb] at h
      cases ho : bookOps w.ops a.macros w.fuel l.words bk with
      | ok bk' => exact ⟨bk, bk', rfl, by rw [← hm, ho]⟩
      | err => simp [CmdEnd.bind, ho] at h
      | panic => simp [CmdEnd.bind, ho] at h
      | diverge => simp [CmdEnd.bind, ho] at h
    | err => rw [hb] at h; cases h
    | fatal => rw [hb] at h; cases h
    | crash => rw [hb] at h; cases h
    | running => rw [hb] at h; cases h
  rcases hn with ⟨hn, rfl⟩ | ⟨rfl, rfl⟩
  · rw [c134_report w env keys other name l hn hf.1 hl hh] at h
    exact key (appOf keys (l.flags reportFlagTable)) _ _ rfl h
  · rw [c134_export w env keys other l hf.1 hl hh] at h
    exact key (appOf keys (l.flags exportFlagTable)) _ _ rfl h

/-! ## Examples -/

theorem rent_noBlanks : NoBlanks rentToml := by
  refine ⟨fun m hm => absurd ?_ hm, rent_noBlank⟩
  simp only [defPart, tablePart, rentToml, List.filterMap_cons, List.filterMap_nil]
  simp [show smallStr [71, 101, 110, 101, 114, 97, 116, 101] ≠ b!"importdefs" from by decide +kernel,
    show smallStr [103, 101, 110, 101, 114, 97, 116, 101] ≠ b!"importdefs" from by decide +kernel]

/-- `-l nowhere`. -/
def nowhereLine : CmdLine := ⟨[.letters [] (some (108, b!"nowhere", .next))], none⟩

theorem nowhereLine_good : nowhereLine.Good zeroWorld.flags appFlagTable := by
  constructor
  · intro p hp
    simp only [nowhereLine, List.mem_cons, List.not_mem_nil, or_false] at hp
    subst hp
    exact ⟨by simp, b!"ledger", .text, rfl, by simp⟩
  · intro x hx k hk
    have : nowhereLine.flags appFlagTable = [(b!"ledger", b!"nowhere")] := by decide +kernel
    rw [this] at hx
    simp only [List.mem_singleton] at hx
    subst hx
    cases (show kindOf appFlagTable b!"ledger" = some .text from rfl).symm.trans hk; trivial

example : EndsSilently 1 (goledgerMain zeroWorld bankWorld none (some rentToml) (fun _ _ => .never) [b!"ccy", b!"-l", b!"nowhere"]) :=
  c140_missing zeroWorld bankWorld none rentToml (fun _ _ => .never) bank_walks rentToml_good rent_noBlanks [b!"ccy"] nowhereLine appFlagTable
    (.command [b!"ccy"] appFlagTable b!"ccy" _ (by simp [commandTables]) (by simp)) nowhereLine_good (by decide +kernel) (by decide +kernel)
    (by decide +kernel)

/-- And the definition `rent` ends with status 0. -/
example : ∃ bk, loadBook zeroWorld.ops.srt zeroWorld.files zeroWorld.depth b!"a" = .ok bk := by
  obtain ⟨out, h⟩ : ∃ out, goledgerMain zeroWorld bankWorld none (some rentToml) (fun _ _ => .never) [b!"generate", b!"rent", b!"-d"] = .done 0 out := by
    have : (match goledgerMain zeroWorld bankWorld none (some rentToml) (fun _ _ => .never) [b!"generate", b!"rent", b!"-d"] with
      | .done 0 _ => true | _ => false) = true := by decide +kernel
    split at this
    · rename_i h; exact ⟨_, h⟩
    · cases this
  exact c140_done zeroWorld bankWorld none rentToml (fun _ _ => .never) bank_walks rentToml_good rent_noBlanks [b!"generate", b!"rent"] rentLine _
    (.generateDef b!"rent" _ (by unfold GenDefined; decide +kernel) (by unfold NameGood; decide)) rentLine_good (by decide +kernel) out h

end Verif
