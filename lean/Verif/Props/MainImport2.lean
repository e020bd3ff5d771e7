import Verif.Props.MainImport
import Verif.Props.Zero

/-! # C136: what `add` fills in, examples, and where the definition is not the command with its options set -/

namespace Verif
open Spec

/-! ## What a script does not say -/

/-- C136, the settings in the script: a call of `add` that leaves out the account, the counter-account or the currency means those of the
definition (or of the line), and without a currency there the one of the ledger: the import is the same when the script writes them out. -/
theorem c136_defaults (w : World) (im : ImpWorld) (a : AppConf) (lang : Str) (d : ImpDef) (args : List Str) :
    importFull w im a lang d args =
      importFull w { im with exec := fun c v f => runWritten d.acct (if d.ccy = [] then a.baseCCY else d.ccy) d.cacct (im.exec c v f) } a lang d args := by
  have hfill : ∀ x y z (r : RawAdd), (addWritten x y z r).fill x y z = r.fill x y z := by
    intro x y z r
    simp [addWritten, RawAdd.fill]
  have hs : ∀ (d' : ImpDef), d'.acct = d.acct → d'.cacct = d.cacct → d'.ccy = (if d.ccy = [] then a.baseCCY else d.ccy) → ∀ rd b args,
      sourcesOf { im with exec := fun c v f => runWritten d.acct (if d.ccy = [] then a.baseCCY else d.ccy) d.cacct (im.exec c v f) } w.ops.today d' rd b args =
        sourcesOf im w.ops.today d' rd b args := by
    intro d' h1 h2 h3 rd b args
    induction args generalizing b with
    | nil => rfl
    | cons f fs ih =>
      rw [sourcesOf, sourcesOf, ih]
      congr 1
      unfold sourceOf
      simp only [h1, h2, h3, List.map_map, runWritten]
      have : ((fun r : RawAdd => (r.fill d.acct (if d.ccy = [] then a.baseCCY else d.ccy) d.cacct).args im.setString w.ops.today) ∘
          addWritten d.acct (if d.ccy = [] then a.baseCCY else d.ccy) d.cacct) =
          fun r => (r.fill d.acct (if d.ccy = [] then a.baseCCY else d.ccy) d.cacct).args im.setString w.ops.today := by
        funext r
        simp only [Function.comp, hfill]
      simp only [this]
  unfold importFull
  by_cases hc : d.ccy = []
  · simp only [hc, if_true] at hs ⊢
    split
    · rfl
    · rw [hs ⟨d.fmt, d.code, d.acct, d.cacct, a.baseCCY, d.dedup, d.reclassify⟩ rfl rfl rfl]
  · simp only [hc, if_false] at hs ⊢
    split
    · rfl
    · rw [hs d rfl rfl rfl]

/-! ## Examples -/

theorem fileGood_of {keys : Keys} (h : (impDefs keys).isSome = true) (hg : (genDefs keys).isSome = true) (h' : (setKeys (defaultConf none) keys).isSome = true) : FileGood keys := by
  constructor
  · by_contra hk
    rw [(set_toml _ _).2 hk] at h'
    simp at h'
  · constructor
    · by_contra hd
      rw [(impDefs_eq keys).2 hd] at h
      simp at h
    · by_contra hd
      rw [(genDefs_eq keys).2 hd] at hg
      simp at hg

/-- A definition `bank`, and the beginning of another. -/
def bankToml : Keys := [([b!"ledger"], .str b!"a"), ([b!"baseCCY"], .str b!"E"), ([b!"ImportDefs", b!"bank", b!"configType"], .str b!"csv"),
  ([b!"importdefs", b!"bank", b!"params", b!"header"], .str b!"true"), ([b!"importdefs", b!"bank", b!"code"], .str b!"X"),
  ([b!"importdefs", b!"bank", b!"account"], .str b!"Bank"), ([b!"importdefs", b!"card", b!"description"], .str b!"The card"),
  ([b!"importdefs", b!"bank", b!"counterAccount"], .str b!"Food"), ([b!"importdefs", b!"bank", b!"dedup"], .bool true)]

theorem bankToml_good : FileGood bankToml := fileGood_of (by decide +kernel) (by decide +kernel) (by decide +kernel)

example : Defined bankToml b!"bank" ∧ Defined bankToml b!"card" ∧ ¬ Defined bankToml b!"f" := by unfold Defined; decide +kernel

theorem bank_names (m : Str) (h : Defined bankToml m) : m = b!"bank" ∨ m = b!"card" := by
  by_contra hc
  simp only [not_or] at hc
  refine h ?_
  have h1 := Ne.symm hc.1
  have h2 := Ne.symm hc.2
  have hl : smallStr b!"ImportDefs" = b!"importdefs" := by decide +kernel
  have hl' : smallStr b!"importdefs" = b!"importdefs" := by decide +kernel
  simp [defPart, tablePart, bankToml, h1, h2]

theorem bank_noBlank (m : Str) (h : Defined bankToml m) : 32 ∉ m := by
  rcases bank_names m h with rfl | rfl <;> decide

theorem bank_nameGood : NameGood b!"bank" := by unfold NameGood; decide

/-- The world of the examples: the file `f` has one row under a heading; the script books one payment of 5, named by the code. -/
def bankWorld : ImpWorld where
  read := fun _ f => if f = b!"f" then some b!"d\n1\n" else none
  codeFile := fun _ => none
  decode := fun _ => none
  split := fun _ _ => some [[b!"d"], [b!"1"]]
  exec := fun code _ _ => ⟨[], [⟨b!"2020-02-01", code, .int 5, none, none, none, none, none, none, none, none, none, none⟩], true⟩
  setString := fun _ => none
  gen := fun code _ => ⟨[code], [.read, .add ⟨b!"2020-02-01", code, .int 5, none, none, none, none, none, none, none, none, none, none⟩], true⟩
  order := List.reverse
  genOrder := List.reverse
  o1 := id
  o2 := id
  dist := fun _ _ => 0

theorem bank_walks : WalksMap bankWorld := ⟨fun l => List.reverse_perm l, fun l => List.reverse_perm l⟩

/-- `--acct=Cash f`. -/
def bankLine : CmdLine := ⟨[.eq b!"acct" b!"Cash", .word b!"f"], none⟩

theorem bankLine_good : bankLine.Good zeroWorld.flags (importFlagTable (defOf bankToml b!"bank")) := by
  rw [show importFlagTable (defOf bankToml b!"bank") = importTableB false false from by
    rw [importTable_eq]
    rw [show decide ((defOf bankToml b!"bank").code = []) = false from by decide +kernel,
      show decide ((defOf bankToml b!"bank").fmt.typ = []) = false from by decide +kernel]]
  constructor
  · intro p hp
    simp only [bankLine, List.mem_cons, List.not_mem_nil, or_false] at hp
    rcases hp with rfl | rfl
    · exact Option.ne_none_iff_exists'.2 ⟨_, rfl⟩
    · intro h; simp at h
  · intro x hx k hk
    simp [bankLine, CmdLine.flags, LinePart.flags] at hx
    subst hx
    cases (show kindOf (importTableB false false) b!"acct" = some .text from rfl).symm.trans hk; trivial

/-- The account is that of the line, the rest that of the definition; the currency is that of the ledger. -/
example : (goledgerMain zeroWorld bankWorld none (some bankToml) (fun _ _ => .never) (b!"import" :: b!"bank" :: bankLine.text)).text? =
    some b!"2020/02/01 X\n  Cash  E 5\n  Food  E -5\n\n" := by decide +kernel

example : goledgerMain zeroWorld bankWorld none (some bankToml) (fun _ _ => .never) (b!"import" :: b!"bank" :: bankLine.text) =
    importFull zeroWorld bankWorld (appOf bankToml (bankLine.flags (importFlagTable (defOf bankToml b!"bank"))))
      (langOf none bankToml (bankLine.flags (importFlagTable (defOf bankToml b!"bank"))))
      (importOf (bankLine.flags (importFlagTable (defOf bankToml b!"bank"))) (defOf bankToml b!"bank")) [b!"f"] :=
  c136_definition_partial zeroWorld bankWorld none bankToml _ b!"bank" bankLine bank_walks bankToml_good (by unfold Defined; decide +kernel)
    bank_nameGood bank_noBlank bankLine_good (by decide +kernel) (by decide +kernel) (by
      refine ⟨fun h => absurd h (by decide +kernel), fun h => absurd h (by decide +kernel), fun h => absurd h (by decide +kernel),
        fun h => absurd h (by decide +kernel)⟩)

/-- And the same with the options of the definition written out. -/
example : goledgerMain zeroWorld bankWorld none (some bankToml) (fun _ _ => .never) [b!"import", b!"bank", b!"--acct=Cash", b!"f"] =
    goledgerMain zeroWorld bankWorld none (some bankToml) (fun _ _ => .never) [b!"import", b!"--format=csv:header", b!"--code=X", b!"--acct=Bank",
      b!"--cacct=Food", b!"--dedup=true", b!"--reclassify=false", b!"--acct=Cash", b!"f"] :=
  c136_written_out zeroWorld bankWorld none bankToml (fun _ _ => .never) b!"bank" bankLine bank_walks bankToml_good (by unfold Defined; decide +kernel)
    bank_nameGood bank_noBlank b!"csv:header" ⟨b!"csv", [(b!"header", b!"true")]⟩ rfl
    ⟨by decide +kernel, fun k => by rw [show (defOf bankToml b!"bank").fmt.params = [(b!"header", b!"true")] from by decide +kernel]⟩
    ⟨by decide +kernel, by decide +kernel, by decide +kernel, by decide +kernel⟩ (by decide +kernel) bankLine_good (by decide +kernel)
    (by
      intro m hm hd
      rcases bank_names m hd with rfl | rfl <;> revert hm <;> decide +kernel)

/-- `card` says nothing: no account. -/
example : goledgerMain zeroWorld bankWorld none (some bankToml) (fun _ _ => .never) [b!"import", b!"card", b!"f"] = .done 1 [] ∧
    goledgerMain zeroWorld bankWorld none (some bankToml) (fun _ _ => .never) [b!"import", b!"bank", b!"--code=Y", b!"f"] = .done 1 [] := by
  constructor
  · refine c136_missing zeroWorld bankWorld none bankToml _ b!"card" ⟨[.word b!"f"], none⟩ bank_walks bankToml_good (by unfold Defined; decide +kernel)
      (by unfold NameGood; decide) bank_noBlank ?_ (by decide +kernel) (Or.inr fun h => ?_)
    · exact ⟨fun p hp => by simp at hp; subst hp; intro h; simp at h, fun x hx => by simp [CmdLine.flags, LinePart.flags] at hx⟩
    · obtain ⟨v, hv⟩ := h.1 (by decide +kernel)
      simp [CmdLine.flags, LinePart.flags] at hv
  · rfl

/-! ## Where it fails -/

/-- The statement in full: whatever can be said on the line of `import` can be said on the line of a definition, whatever its name. -/
def DefinitionsWork (named : Str → Prop) (flags : ImpDef → Table) : Prop :=
  ∀ (w : World) (im : ImpWorld) (env : Option Str) (keys : Keys) (other : List Str → Conf → Exit) (n : Str) (l : CmdLine),
    WalksMap im → FileGood keys → Defined keys n → named n → (∀ m, Defined keys m → named m) →
    l.Good w.flags (flags (defOf keys n)) → asksHelp (l.flags (flags (defOf keys n))) = false →
    l.words ≠ [] → Complete (l.flags (flags (defOf keys n))) (defOf keys n) →
    goledgerMain w im env (some keys) other (b!"import" :: n :: l.text) =
      importFull w im (appOf keys (l.flags (flags (defOf keys n)))) (langOf env keys (l.flags (flags (defOf keys n))))
        (importOf (l.flags (flags (defOf keys n))) (defOf keys n)) l.words

/-- `--code=Y f` -/
def codeLine : CmdLine := ⟨[.eq b!"code" b!"Y", .word b!"f"], none⟩

theorem codeLine_good : codeLine.Good zeroWorld.flags (importFlagTable plainDef) := by
  rw [show importFlagTable plainDef = importTableB true true from rfl]
  constructor
  · intro p hp
    simp only [codeLine, List.mem_cons, List.not_mem_nil, or_false] at hp
    rcases hp with rfl | rfl
    · exact Option.ne_none_iff_exists'.2 ⟨_, rfl⟩
    · intro h; simp at h
  · intro x hx k hk
    simp [codeLine, CmdLine.flags, LinePart.flags] at hx
    subst hx
    cases (show kindOf (importTableB true true) b!"code" = some .text from rfl).symm.trans hk; trivial

/-- C136 is false in full: the code of a definition cannot be replaced on the line; the program refuses `--code`. -/
theorem c136_code_fails : ¬ DefinitionsWork NameGood (fun _ => importFlagTable plainDef) := by
  intro h
  have := h zeroWorld bankWorld none bankToml (fun _ _ => .never) b!"bank" codeLine bank_walks bankToml_good (by unfold Defined; decide +kernel)
    bank_nameGood (by intro m hm; rcases bank_names m hm with rfl | rfl <;> (unfold NameGood; decide)) codeLine_good (by decide +kernel) (by decide +kernel)
    ⟨fun h => absurd h (by decide +kernel), fun h => absurd h (by decide +kernel), fun h => absurd h (by decide +kernel),
      fun h => absurd h (by decide +kernel)⟩
  have := congrArg Exit.text? this
  revert this
  decide +kernel

/-- A definition with a blank in its name. -/
def blankToml : Keys := [([b!"ledger"], .str b!"a"), ([b!"baseCCY"], .str b!"E"), ([b!"importdefs", b!"my bank", b!"configType"], .str b!"csv"),
  ([b!"importdefs", b!"my bank", b!"code"], .str b!"X"),
  ([b!"importdefs", b!"my bank", b!"account"], .str b!"Bank"), ([b!"importdefs", b!"my bank", b!"counterAccount"], .str b!"Food")]

/-- C136 is false in full: a definition with a blank in its name is no command of that name. -/
theorem c136_name_fails : ¬ DefinitionsWork (fun n => n ≠ [] ∧ n.head? ≠ some 45) importFlagTable := by
  intro h
  have hnames : ∀ m, Defined blankToml m → m = b!"my bank" := by
    intro m hm
    by_contra hc
    refine hm ?_
    have h1 := Ne.symm hc
    simp [defPart, tablePart, blankToml, h1]
  have := h zeroWorld bankWorld none blankToml (fun _ _ => .never) b!"my bank" ⟨[.word b!"f"], none⟩ bank_walks
    (fileGood_of (by decide +kernel) (by decide +kernel) (by decide +kernel)) (by unfold Defined; decide +kernel)
    (by decide) (by intro m hm; rw [hnames m hm]; decide)
    ⟨fun p hp => by simp at hp; subst hp; intro h; simp at h, fun x hx => by simp [CmdLine.flags, LinePart.flags] at hx⟩
    (by decide +kernel) (by decide +kernel)
    ⟨fun h => absurd h (by decide +kernel), fun h => absurd h (by decide +kernel), fun h => absurd h (by decide +kernel),
      fun h => absurd h (by decide +kernel)⟩
  have := congrArg Exit.text? this
  revert this
  decide +kernel

end Verif
