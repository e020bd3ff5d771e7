import Verif.Spec.Program
import Verif.Props.MainImport2
import Verif.Props.MainGen

/-! # C107, C108 for the whole program -/

namespace Verif
open Spec

theorem importLine_full {fe : FlagEnv} {keys : Keys} {head : List Str} {l : CmdLine} {d : ImpDef} (h : ImportLine fe keys head l d) (w : World) (hw : w.flags = fe)
    (im : ImpWorld) (him : WalksMap im) (hf : FileGood keys) (hb : ∀ m, Defined keys m → 32 ∉ m) (env : Option Str) (other : List Str → Conf → Exit) :
    goledgerMain w im env (some keys) other (head ++ l.text) =
      importFull w im (appOf keys (l.flags (importFlagTable d))) (langOf env keys (l.flags (importFlagTable d))) (importOf (l.flags (importFlagTable d)) d) l.words := by
  subst hw
  cases h with
  | plain _ hno hl hh ha hc => exact c136_plain w im env keys other l him hf hb hno hl hh ha hc
  | named n _ hd hn hl hh ha hc => exact c136_definition_partial w im env keys other n l him hf hd hn hb hl hh ha hc

/-- **C107**, **C108** for the whole program (partial in the same way): `goledger import … FILES >> LEDGER` ends with status 0; the ledger then loads, with
the transactions it had and those imported; and the same command once more ends with status 0 and prints nothing but the messages of the scripts. -/
theorem c108_program_partial (w : World) (hs : IsSort w.ops.srt) (he : w.files.letter 10 = false) (hdep : w.depth ≠ 0) (hx : SoundPrint w.print)
    (im : ImpWorld) (him : WalksMap im) (keys : Keys) (hf : FileGood keys) (hb : ∀ m, Defined keys m → 32 ∉ m) (env : Option Str) (other : List Str → Conf → Exit)
    (head : List Str) (l : CmdLine) (d0 d : ImpDef) (a : AppConf) (hline : ImportLine w.flags keys head l d0) (ha : a = appOf keys (l.flags (importFlagTable d0)))
    (hd : d = (importOf (l.flags (importFlagTable d0)) d0).settled a) (heng : w.lang (langOf env keys (l.flags (importFlagTable d0))) = .english)
    (hdedup : d.dedup = true) (rd : Str → ReadRes SVal) (hrd : importReader im.decode im.split d.fmt = some rd)
    (hlike : d.reclassify = true → (⟨im.o1, im.o2, im.dist, d.acct⟩ : Reclass).Valid)
    (text : Str) (hfile : w.files.files a.ledger = some text) (h0 : 0 ∉ text) (hl : Lines text)
    (cs : List Call) (bb : Builder) (als : Aliases) (main : Book) (hload : parseFile w.files w.depth Builder.new a.ledger = .ok bb als)
    (hcs : Builder.new.calls cs = some bb) (hmain : bb.build w.ops.srt = some main)
    (hlive : ∀ n ∈ issued Builder.new cs, hasTxn (main.transactions w.ops.srt) n.1 n.2 = true)
    (bs : List Book) (hss : ScriptsGive w.ops.srt (sourcesOf im w.ops.today d rd [] l.words) bs)
    (hmsg : ∀ s ∈ sourcesOf im w.ops.today d rd [] l.words, ∀ m ∈ s.msgs, OneLineMsg m)
    (hout : ∀ out ∈ importRun w.ops.srt true (if d.reclassify then some ⟨im.o1, im.o2, im.dist, d.acct⟩ else none) main [] bs, ∀ t ∈ out,
      PrintableTxn (bookFmt .english w.print main) t ∧ ∀ p ∈ t, als.resolve p.acct = p.acct) :
    ∃ out, goledgerMain w im env (some keys) other (head ++ l.text) = .done 0 [.text out] ∧
      (∃ bk, loadBook w.ops.srt (w.appended a.ledger out).files w.depth a.ledger = .ok bk ∧ bk.prices = main.prices ∧
        ∀ x, x ∈ (reported w.ops.srt bk).map line ↔ x ∈ (reported w.ops.srt main).map line ∨
          x ∈ (importRun w.ops.srt true (if d.reclassify then some ⟨im.o1, im.o2, im.dist, d.acct⟩ else none) main [] bs).flatten.flatten.map line) ∧
      goledgerMain (w.appended a.ledger out) im env (some keys) other (head ++ l.text) =
        .done 0 [.text (printMsgs ((sourcesOf im w.ops.today d rd [] l.words).flatMap (·.msgs)))] := by
  obtain ⟨depth, hdepth⟩ := Nat.exists_eq_succ_of_ne_zero hdep
  rw [hdepth] at hload
  generalize hrc : (if d.reclassify then some (⟨im.o1, im.o2, im.dist, d.acct⟩ : Reclass) else none) = rc at *
  have hfull : ∀ w' : World, w'.ops = w.ops → w'.depth = w.depth → w'.lang = w.lang → w'.print = w.print → w'.flags = w.flags →
      goledgerMain w' im env (some keys) other (head ++ l.text) =
        (importCmd w'.files (depth + 1) w.ops.srt a .english w.print true rc (sourcesOf im w.ops.today d rd [] l.words)).exit := by
    intro w' e1 e2 e3 e4 e5
    rw [importLine_full (e5 ▸ hline) w' rfl im him hf hb env other, ← ha]
    unfold importFull
    have hd' : d = if (importOf (l.flags (importFlagTable d0)) d0).ccy = [] then { importOf (l.flags (importFlagTable d0)) d0 with ccy := a.baseCCY }
      else importOf (l.flags (importFlagTable d0)) d0 := hd
    simp only []
    rw [← hd', hrd, e1, e2, e3, e4, heng, hdedup, hrc, hdepth]
  have hval : ∀ r, rc = some r → r.Valid := by
    intro r hr
    rw [← hrc] at hr
    split at hr
    · cases hr; exact hlike ‹_›
    · cases hr
  obtain ⟨k1, bk, k2, k3, k4, _⟩ := c107_appended_partial w.ops.srt hs w.files he depth a text hfile h0 hl cs bb als main hload hcs hmain hlive w.print hx rc
    _ bs hss hmsg hout
  have k5 := c108_import_again_partial w.ops.srt hs w.files he depth a text hfile h0 hl cs bb als main hload hcs hmain hlive w.print hx rc hval _ bs hss hmsg hout
    .english w.print rc
  refine ⟨(importCmd w.files (depth + 1) w.ops.srt a .english w.print true rc (sourcesOf im w.ops.today d rd [] l.words)).text, ?_, ⟨bk, ?_, k3, k4⟩, ?_⟩
  · rw [hfull w rfl rfl rfl rfl rfl]
    unfold Printed.exit
    rw [k1]
  · rw [hdepth]; exact k2
  · rw [hfull (w.appended a.ledger _) rfl rfl rfl rfl rfl]
    show (importCmd (appendTo w.files a.ledger _) _ _ _ _ _ _ _ _).exit = _
    rw [k5]
    rfl

theorem generateLine_full {fe : FlagEnv} {keys : Keys} {head : List Str} {l : CmdLine} {d : GenDef} (h : GenerateLine fe keys head l d) (w : World)
    (hw : w.flags = fe) (im : ImpWorld) (him : WalksMap im) (hf : FileGood keys) (hb : ∀ m, GenDefined keys m → 32 ∉ m) (env : Option Str)
    (other : List Str → Conf → Exit) :
    goledgerMain w im env (some keys) other (head ++ l.text) =
      generateFull w im (appOf keys (l.flags (genFlagTable d))) (langOf env keys (l.flags (genFlagTable d))) (generateOf (l.flags (genFlagTable d)) d) := by
  subst hw
  cases h with
  | plain _ hno hl hh ha hc => exact c139_plain w im env keys other l him hf hb hno hl hh ha hc
  | named n _ hd hn hl hh ha hc => exact c139_definition_partial w im env keys other n l him hf hd hn hb hl hh ha hc

/-- **C137**, **C138** for the whole program (partial in the same way): `goledger generate … >> LEDGER` ends with status 0; the ledger then loads, with the
transactions it had and those generated; and the same command once more, if its script makes the same `add` calls, ends with status 0 and prints nothing
but the messages of the script. -/
theorem c138_program_partial (w : World) (hs : IsSort w.ops.srt) (he : w.files.letter 10 = false) (hdep : w.depth ≠ 0) (hx : SoundPrint w.print)
    (im : ImpWorld) (him : WalksMap im) (keys : Keys) (hf : FileGood keys) (hb : ∀ m, GenDefined keys m → 32 ∉ m) (env : Option Str)
    (other : List Str → Conf → Exit) (head : List Str) (l : CmdLine) (d0 d : GenDef) (a : AppConf) (hline : GenerateLine w.flags keys head l d0)
    (ha : a = appOf keys (l.flags (genFlagTable d0))) (hd : d = generateOf (l.flags (genFlagTable d0)) d0)
    (heng : w.lang (langOf env keys (l.flags (genFlagTable d0))) = .english) (hdedup : d.dedup = true)
    (text : Str) (hfile : w.files.files a.ledger = some text) (h0 : 0 ∉ text) (hl : Lines text)
    (cs : List Call) (bb : Builder) (als : Aliases) (main : Book) (hload : parseFile w.files w.depth Builder.new a.ledger = .ok bb als)
    (hcs : Builder.new.calls cs = some bb) (hmain : bb.build w.ops.srt = some main)
    (hlive : ∀ n ∈ issued Builder.new cs, hasTxn (main.transactions w.ops.srt) n.1 n.2 = true)
    (hk : KeepsDates w.ops.today (genScript im d main).acts) (hok : (genScript im d main).ok = true)
    (ts : List Txn) (hg : generate w.ops im.setString true main (genScript im d main).acts = .shown ts)
    (hmsg : ∀ m ∈ (genScript im d main).msgs, OneLineMsg m)
    (hout : ∀ t ∈ ts, PrintableTxn (bookFmt .english w.print main) t ∧ ∀ p ∈ t, als.resolve p.acct = p.acct) :
    ∃ out, goledgerMain w im env (some keys) other (head ++ l.text) = .done 0 [.text out] ∧
      ∃ bk, loadBook w.ops.srt (w.appended a.ledger out).files w.depth a.ledger = .ok bk ∧ bk.prices = main.prices ∧
        (∀ x, x ∈ (reported w.ops.srt bk).map line ↔ x ∈ (reported w.ops.srt main).map line ∨ x ∈ ts.flatten.map line) ∧
        (adds (genScript im d bk).acts = adds (genScript im d main).acts → KeepsDates w.ops.today (genScript im d bk).acts →
          EndsWell w.ops im.setString bk (genScript im d bk) →
          goledgerMain (w.appended a.ledger out) im env (some keys) other (head ++ l.text) = .done 0 [.text (printMsgs (genScript im d bk).msgs)]) := by
  obtain ⟨depth, hdepth⟩ := Nat.exists_eq_succ_of_ne_zero hdep
  rw [hdepth] at hload
  have hfull : ∀ w' : World, w'.ops = w.ops → w'.depth = w.depth → w'.lang = w.lang → w'.print = w.print → w'.flags = w.flags →
      goledgerMain w' im env (some keys) other (head ++ l.text) =
        (generateCmd w'.files (depth + 1) w.ops im.setString a .english w.print true (genScript im d)).exit := by
    intro w' e1 e2 e3 e4 e5
    rw [generateLine_full (e5 ▸ hline) w' rfl im him hf hb env other, ← ha, ← hd]
    unfold generateFull
    rw [e1, e2, e3, e4, heng, hdedup, hdepth]
  obtain ⟨k1, bk, k2, k3, k4, _⟩ := c137_appended_partial w.ops hs im.setString w.files he depth a text hfile h0 hl cs bb als main hload hcs hmain hlive w.print hx
    (genScript im d) hk hok ts hg hmsg hout
  refine ⟨(generateCmd w.files (depth + 1) w.ops im.setString a .english w.print true (genScript im d)).text, ?_, bk, ?_, k3, k4, fun hsame hk' hend => ?_⟩
  · rw [hfull w rfl rfl rfl rfl rfl]
    unfold Printed.exit
    rw [k1]
  · rw [hdepth]; exact k2
  · rw [hfull (w.appended a.ledger _) rfl rfl rfl rfl rfl]
    show (generateCmd (appendTo w.files a.ledger _) _ _ _ _ _ _ _ _).exit = _
    rw [c138_generate_again_partial w.ops hs im.setString w.files he depth a text hfile h0 hl cs bb als main hload hcs hmain hlive w.print hx
      (genScript im d) hk hok ts hg hmsg hout .english w.print bk k2 hsame hk' hend]
    rfl

/-! ## Examples -/

theorem bank_importLine : ImportLine zeroWorld.flags bankToml [b!"import", b!"bank"] bankLine (defOf bankToml b!"bank") :=
  .named _ _ (by unfold Defined; decide +kernel) bank_nameGood bankLine_good (by decide +kernel) (by decide +kernel) (by
    refine ⟨fun h => absurd h (by decide +kernel), fun h => absurd h (by decide +kernel), fun h => absurd h (by decide +kernel), fun h => absurd h (by decide +kernel)⟩)

def bankApp : AppConf := appOf bankToml (bankLine.flags (importFlagTable (defOf bankToml b!"bank")))

def bankDef : ImpDef := (importOf (bankLine.flags (importFlagTable (defOf bankToml b!"bank"))) (defOf bankToml b!"bank")).settled bankApp

theorem bank_reads : (importReader bankWorld.decode bankWorld.split bankDef.fmt).isSome = true := by decide +kernel

def bankReader : Str → ReadRes SVal := (importReader bankWorld.decode bankWorld.split bankDef.fmt).get bank_reads

def bankSources : List Source := sourcesOf bankWorld dotOps.today bankDef bankReader [] [b!"f"]

def bankText : Str := b!"2020/01/01 P\n  A 1 E\n  C -1 E\n2020/01/02 Q\n  A 2 E\n  C -2 E\n"

def bankCalls : List Call := [.newTransaction 20200101 b!"P" [], .addPosting b!"A" b!"E" 1 [], .addPosting b!"C" b!"E" (-1) [],
  .newTransaction 20200102 b!"Q" [], .addPosting b!"A" b!"E" 2 [], .addPosting b!"C" b!"E" (-2) []]

/-- The hypotheses of C108 for the whole program hold of `import bank --acct=Cash f`. -/
example : ∃ out, goledgerMain zeroWorld bankWorld none (some bankToml) (fun _ _ => .never) (b!"import" :: b!"bank" :: bankLine.text) = .done 0 [.text out] ∧
    goledgerMain (zeroWorld.appended b!"a" out) bankWorld none (some bankToml) (fun _ _ => .never) (b!"import" :: b!"bank" :: bankLine.text) =
      .done 0 [.text []] := by
  have h : (match parseFile zeroWorld.files 1 Builder.new b!"a" with
      | .ok bb als => (match bb.build insSort with
        | some main => importOkB bankText bankCalls bankSources bb als main
        | none => false)
      | _ => false) = true := by decide +kernel
  split at h <;> try cases h
  rename_i bb als hp
  split at h <;> try cases h
  rename_i main hm
  simp only [importOkB, Bool.and_eq_true, decide_eq_true_eq, List.all_eq_true, List.any_eq_true] at h
  obtain ⟨⟨⟨⟨h1, h2⟩, h3⟩, h4⟩, out, h5, h6⟩ := h
  obtain ⟨out, k1, -, k3⟩ := c108_program_partial zeroWorld insSort_isSort rfl (by decide) demoPrint_sound bankWorld bank_walks bankToml bankToml_good bank_noBlank none
    (fun _ _ => .never) [b!"import", b!"bank"] bankLine (defOf bankToml b!"bank") bankDef bankApp bank_importLine rfl rfl rfl (by decide +kernel) bankReader
    (Option.some_get _).symm (fun hr => absurd hr (by decide +kernel)) bankText (by decide +kernel) (by decide +kernel) (.inr ⟨bankText.dropLast, by decide +kernel⟩) bankCalls bb als main hp (by
      cases hc : Builder.new.calls bankCalls with
      | none => rw [hc] at h1; cases h1
      | some b => rw [hc] at h1; rw [same_of_b h1]) hm h2 (bankSources.map sourceBook) (by
      have hs : ∀ s ∈ bankSources, (match processData insSort s with | .ok _ => s.readable | _ => false) = true := by decide +kernel
      have : ∀ ss : List Source, (∀ s ∈ ss, (match processData insSort s with | .ok _ => s.readable | _ => false) = true) →
          ScriptsGive insSort ss (ss.map sourceBook) := by
        intro ss
        induction ss with
        | nil => intro _; exact .nil
        | cons s ss ih =>
          intro h
          refine .cons ?_ (ih fun x hx => h x (List.mem_cons_of_mem _ hx))
          have := h s List.mem_cons_self
          split at this
          · rename_i b hb; exact ⟨this, by unfold sourceBook; rw [hb]; exact processData_iff.1 hb⟩
          · cases this
      exact this _ hs) h3 (fun out ho t ht => ⟨printable_of_b (h4 out ho t ht).1, (h4 out ho t ht).2⟩)
  refine ⟨out, k1, k3.trans ?_⟩
  rw [show printMsgs ((sourcesOf bankWorld zeroWorld.ops.today bankDef bankReader [] bankLine.words).flatMap (·.msgs)) = [] from by decide +kernel]

theorem rent_generateLine : GenerateLine zeroWorld.flags rentToml [b!"generate", b!"rent"] rentLine (genOf rentToml b!"rent") :=
  .named _ _ (by unfold GenDefined; decide +kernel) (by unfold NameGood; decide) rentLine_good (by decide +kernel) (by decide +kernel)
    (fun h => absurd h (by decide +kernel))

def rentApp : AppConf := appOf rentToml (rentLine.flags (genFlagTable (genOf rentToml b!"rent")))

def rentDef : GenDef := generateOf (rentLine.flags (genFlagTable (genOf rentToml b!"rent"))) (genOf rentToml b!"rent")

/-- What the script of the example does, whatever the ledger. -/
def rentRun : GenRun := ⟨[b!"X"], [.read, .add ⟨b!"2020-02-01", b!"X", .int 5, b!"ccy", 1, b!"acct", .none, b!"ccy", 1, [], b!"cacct", [], []⟩], true⟩

theorem rent_script (b : Book) : genScript bankWorld rentDef b = rentRun := by
  unfold genScript
  rw [show fileOrStr bankWorld.codeFile rentDef.code = some b!"X" from by decide +kernel]
  rfl

/-- The conditions, as a test. -/
def rentOkB (bb : Builder) (als : Aliases) (main : Book) (ts : List Txn) : Bool :=
  ((Builder.new.calls bankCalls).any fun b => sameB b bb) &&
  decide (∀ n ∈ issued Builder.new bankCalls, hasTxn (main.transactions insSort) n.1 n.2 = true) &&
  (ts.all fun t => printableB (bookFmt .english demoPrint main) t && t.all fun p => decide (als.resolve p.acct = p.acct)) && !ts.isEmpty

/-- The first part of the hypotheses of C138 for the whole program, of `generate rent -d`; and what it prints, once and again. -/
example : ∃ out bk, goledgerMain zeroWorld bankWorld none (some rentToml) (fun _ _ => .never) (b!"generate" :: b!"rent" :: rentLine.text) = .done 0 [.text out] ∧
    loadBook insSort (zeroWorld.appended b!"a" out).files 1 b!"a" = .ok bk ∧
    (EndsWell dotOps bankWorld.setString bk rentRun →
      goledgerMain (zeroWorld.appended b!"a" out) bankWorld none (some rentToml) (fun _ _ => .never) (b!"generate" :: b!"rent" :: rentLine.text) =
        .done 0 [.text b!"; X\n"]) := by
  have h : (match parseFile zeroWorld.files 1 Builder.new b!"a" with
      | .ok bb als => (match bb.build insSort with
        | some main => (match generate dotOps bankWorld.setString true main rentRun.acts with
          | .shown ts => rentOkB bb als main ts
          | _ => false)
        | none => false)
      | _ => false) = true := by decide +kernel
  split at h <;> try cases h
  rename_i bb als hp
  split at h <;> try cases h
  rename_i main hm
  split at h <;> try cases h
  rename_i ts hts
  simp only [rentOkB, Bool.and_eq_true, decide_eq_true_eq, List.all_eq_true] at h
  obtain ⟨⟨⟨h1, h2⟩, h3⟩, h4⟩ := h
  have hk : KeepsDates dotOps.today rentRun.acts := by
    intro a ha x hx
    simp only [rentRun, adds, List.filterMap_cons, List.filterMap_nil, List.mem_cons, List.not_mem_nil, or_false] at ha hx
    rcases ha with rfl | rfl <;> (unfold KeepsDate; trivial)
  obtain ⟨out, k1, bk, k2, -, -, k3⟩ := c138_program_partial zeroWorld insSort_isSort rfl (by decide) demoPrint_sound bankWorld bank_walks rentToml rentToml_good
    rent_noBlank none (fun _ _ => .never) [b!"generate", b!"rent"] rentLine (genOf rentToml b!"rent") rentDef rentApp rent_generateLine rfl rfl rfl
    (by decide +kernel) bankText (by decide +kernel) (by decide +kernel) (.inr ⟨bankText.dropLast, by decide +kernel⟩) bankCalls bb als main hp (by
      cases hc : Builder.new.calls bankCalls with
      | none => rw [hc] at h1; cases h1
      | some b => rw [hc] at h1; rw [same_of_b h1]) hm h2 (by rw [rent_script]; exact hk) (by rw [rent_script]; rfl) ts (by rw [rent_script]; exact hts)
    (by rw [rent_script]; intro m hm; simp only [rentRun, List.mem_singleton] at hm; subst hm; unfold OneLineMsg; decide)
    (fun t ht => ⟨printable_of_b (h3 t ht).1, (h3 t ht).2⟩)
  simp only [rent_script] at k3
  refine ⟨out, bk, k1, k2, fun he => k3 trivial hk he⟩

example : (goledgerMain (zeroWorld.appended b!"a" b!"; X\n2020/02/01 X\n  acct  ccy 5\n  cacct  ccy -5\n\n") bankWorld none (some rentToml) (fun _ _ => .never)
    (b!"generate" :: b!"rent" :: rentLine.text)).text? = some b!"; X\n" := by decide +kernel

end Verif
