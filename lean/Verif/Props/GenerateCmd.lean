import Verif.Spec.GenerateCmd
import Verif.Props.Generate
import Verif.Props.ImportCmd

/-! # C137, C138: what `generate` prints, appended to the ledger -/

namespace Verif
open Spec

/-! ## Generating is importing -/

/-- The `add` calls of a script that ends well. -/
theorem genActs_adds {e : OpEnv} {ss : Str → Option Rat} (acts : List GenAct) : ∀ s s', genActs e ss s acts = .ok s' →
    runAdds s.bb ((adds acts).map (ScriptAdd.args ss e.today)) = .ok s'.bb := by
  induction acts with
  | nil => intro s s' h; cases h; rfl
  | cons a as ih =>
    intro s s' h
    unfold genActs at h
    cases hg : genAct e ss s a with
    | err => rw [hg] at h; cases h
    | panic => rw [hg] at h; cases h
    | ok s1 =>
      rw [hg] at h
      have ih := ih s1 s' h
      cases a with
      | read => cases hg; exact ih
      | since x =>
        simp only [genAct] at hg
        split at hg
        · cases hg
        · cases hg; exact ih
      | asof x =>
        simp only [genAct] at hg
        split at hg
        · cases hg
        · cases hg; exact ih
      | map f t al =>
        simp only [genAct] at hg
        split at hg
        · cases hg; exact ih
        · cases hg
      | add x =>
        simp only [genAct] at hg
        split at hg
        · rename_i bb hbb
          cases hg
          show runAdds s.bb (x.args ss e.today :: (adds as).map _) = _
          rw [runAdds, hbb]
          exact ih
        · cases hg
        · cases hg

theorem addCall_dates {b b' : Builder} {a : AddArgs} (h : addCall b a = .ok b') (P : Int → Prop) (h0 : ∀ p ∈ b.post, P p.date) (hd : P a.date) :
    ∀ p ∈ b'.post, P p.date := by
  have hc := addCall_calls h
  have aux : ∀ (cs : List Call), (∀ c ∈ cs, ∃ x y z w, c = .addPosting x y z w) → ∀ b b' : Builder, b.calls cs = some b' → (∀ p ∈ b.post, P p.date) →
      P b.currDate → ∀ p ∈ b'.post, P p.date := by
    intro cs
    induction cs with
    | nil => intro _ b b' h hp _; cases h; exact hp
    | cons c cs ih =>
      intro hcs b b' h hp hcur
      obtain ⟨x, y, z, w, rfl⟩ := hcs c List.mem_cons_self
      refine ih (fun c hc => hcs c (List.mem_cons_of_mem _ hc)) (b.addPosting x y z w) b' h ?_ hcur
      intro p hp'
      simp only [Builder.addPosting, List.mem_append, List.mem_singleton] at hp'
      rcases hp' with hp' | rfl
      · exact hp p hp'
      · exact hcur
  unfold addBuilderCalls at hc
  split at hc
  · simp only [List.cons_append, List.nil_append] at hc
    unfold Builder.calls at hc
    cases hn : b.call (.newTransaction a.date a.desc a.note) with
    | none => rw [hn] at hc; cases hc
    | some b1 =>
      rw [hn] at hc
      have hn : b.newTransaction a.date a.desc a.note = some b1 := hn
      have hpost : b1.post = b.post := by
        unfold Builder.newTransaction at hn
        split at hn
        · cases hn
        · split at hn
          · cases hn
          · rename_i b2 hb2 _
            unfold Builder.checkAndClear at *
            cases hn
            first
            | rfl
            | (simp at *; aesop)
      refine aux _ ?_ b1 b' hc (by rw [hpost]; exact h0) (by rw [newTransaction_date hn]; exact hd)
      intro c hcm
      split at hcm <;> simp at hcm <;> aesop
  · cases hc; exact h0

theorem genActs_dates {e : OpEnv} {ss : Str → Option Rat} (P : Int → Prop) (acts : List GenAct) (hP : ∀ x ∈ adds acts, P (dateFromString e.today x.date)) :
    ∀ s s', genActs e ss s acts = .ok s' → (∀ p ∈ s.bb.post, P p.date) → ∀ p ∈ s'.bb.post, P p.date := by
  refine genActs_inv (fun s => ∀ p ∈ s.bb.post, P p.date) acts ?_
  intro s s' a ha h hp
  cases a with
  | read => cases h; exact hp
  | since x =>
    simp only [genAct] at h
    split at h
    · cases h
    · cases h; exact hp
  | asof x =>
    simp only [genAct] at h
    split at h
    · cases h
    · cases h; exact hp
  | map f t al =>
    simp only [genAct] at h
    split at h
    · cases h; exact hp
    · cases h
  | add x =>
    simp only [genAct] at h
    split at h
    · rename_i bb hbb
      cases h
      exact addCall_dates hbb P hp (hP x (List.mem_filterMap.2 ⟨_, ha, rfl⟩))
    · cases h
    · cases h

theorem genActs_ccy {e : OpEnv} {ss : Str → Option Rat} (acts : List GenAct) :
    ∀ s s', genActs e ss s acts = .ok s' → s'.main.ccy = s.main.ccy := by
  intro s0 s1 h0
  refine genActs_inv (fun s => s.main.ccy = s0.main.ccy) acts ?_ s0 s1 h0 rfl
  intro s s' a ha h hp
  have hcomp : ∀ b : Book, (b.compact e.srt).ccy = b.ccy := by intro b; unfold Book.compact; split <;> rfl
  cases a with
  | read => cases h; exact (hcomp _).trans hp
  | since x =>
    simp only [genAct] at h
    split at h
    · cases h
    · cases h
      simp only [Book.filterByDateSince]
      split <;> exact hp
  | asof x =>
    simp only [genAct] at h
    split at h
    · cases h
    · cases h
      simp only [Book.filterByDateAsof]
      split <;> exact hp
  | map f t al =>
    simp only [genAct] at h
    split at h
    · cases h
      simp only [Book.regexAccounts, Book.mapAccount]
      first
      | exact hp
      | exact (hcomp _).trans hp
    · cases h
  | add x =>
    simp only [genAct] at h
    split at h
    · cases h; exact hp
    · cases h
    · cases h

/-- Deduplication depends only on which of the transactions there are. -/
theorem dedup_congr {srt : List Posting → List Posting} (hs : IsSort srt) {b m m' : Book} (w : b.WF) (wm : m.WF) (wm' : m'.WF)
    (h : ∀ t ∈ b.trans, ∀ p ∈ t, hasTxn (m.transactions srt) p.date p.payee = hasTxn (m'.transactions srt) p.date p.payee) :
    b.removeDuplicatesOf srt m = b.removeDuplicatesOf srt m' := by
  have key : (b.removeDuplicatesOf srt m).trans = (b.removeDuplicatesOf srt m').trans := by
    rw [removeDuplicatesOf_trans hs w wm, removeDuplicatesOf_trans hs w wm']
    refine List.filter_congr fun t ht => ?_
    rw [Bool.eq_iff_iff, List.all_eq_true, List.all_eq_true]
    constructor <;> intro h1 p hp
    · rw [← h t ht p hp]; exact h1 p hp
    · rw [h t ht p hp]; exact h1 p hp
  have key : dedupLoop b.trans (m.transactions srt) = dedupLoop b.trans (m'.transactions srt) := key
  unfold Book.removeDuplicatesOf
  rw [key]

/-- A script that ends well: what it comes to. -/
theorem gen_facts {e : OpEnv} (hs : IsSort e.srt) {ss : Str → Option Rat} {main : Book} (hm : Reachable e.srt e.today main) {acts : List GenAct}
    {ts : List Txn} (hk : KeepsDates e.today acts) (h : generate e ss true main acts = .shown ts) :
    ∃ s b, genActs e ss ⟨main, Builder.new⟩ acts = .ok s ∧ s.bb.build e.srt = some b ∧ s.main.ccy = main.ccy ∧
      runAdds Builder.new ((adds acts).map (ScriptAdd.args ss e.today)) = .ok s.bb ∧
      b.removeDuplicatesOf e.srt s.main = b.removeDuplicatesOf e.srt main ∧ ts = (b.removeDuplicatesOf e.srt main).transactions e.srt := by
  unfold generate at h
  cases hg : genActs e ss ⟨main, Builder.new⟩ acts with
  | err => rw [hg] at h; cases h
  | panic => rw [hg] at h; cases h
  | ok s =>
    rw [hg] at h
    simp only at h
    cases hb : s.bb.build e.srt with
    | none => rw [hb] at h; cases h
    | some b =>
      rw [hb] at h
      simp only [if_true, GenOut.shown.injEq] at h
      obtain ⟨cs, hcs⟩ := genActs_built acts _ _ hg
      have w := (built_balanced hs hcs hb).1
      have hm' : Reachable e.srt e.today s.main :=
        genActs_inv (fun s => Reachable e.srt e.today s.main) acts (fun _ _ _ _ h1 h2 => genAct_main h1 h2) _ _ hg hm
      have hdates := genActs_dates (ss := ss) (fun d => ∃ x ∈ adds acts, dateFromString e.today x.date = d) acts (fun x hx => ⟨x, hx, rfl⟩) _ _ hg
        (by simp [Builder.new])
      have hded : b.removeDuplicatesOf e.srt s.main = b.removeDuplicatesOf e.srt main := by
        refine dedup_congr hs w (reachable_wf hs hm').1 (reachable_wf hs hm).1 fun t ht p hp => ?_
        have hpb : p ∈ b.post := by rw [← w.index]; exact List.mem_flatten.2 ⟨t, ht, hp⟩
        have hx : ∃ x ∈ adds acts, dateFromString e.today x.date = p.date := by
          rw [build_post hb] at hpb
          split at hpb
          · cases hpb
          · obtain ⟨q, hq, hkq⟩ := compactPost_key_mem hs _ p hpb
            obtain ⟨x, hx, hd⟩ := hdates q hq
            exact ⟨x, hx, by rw [hd]; exact ((key_eq_iff.1 hkq).1).symm⟩
        obtain ⟨x, hx, hd⟩ := hx
        have hinv := genActs_inv (e := e) (ss := ss) (fun s => Reachable e.srt e.today s.main ∧
            ∀ py, hasTxn (s.main.transactions e.srt) p.date py = hasTxn (main.transactions e.srt) p.date py) acts
          (fun s s' a ha h1 h2 => ⟨genAct_main h1 h2.1, fun py => by
            rw [genAct_keeps hs h1 h2.1 p.date (hd ▸ hk a ha x hx), h2.2]⟩) _ _ hg ⟨hm, fun _ => rfl⟩
        exact hinv.2 p.payee
      exact ⟨s, b, rfl, hb, genActs_ccy acts _ _ hg, genActs_adds acts _ _ hg, hded, by rw [← h, hded]⟩

/-- C137: a generating script that ends well prints what the import of a file with the same `add` calls prints. -/
theorem c137_as_import (e : OpEnv) (hs : IsSort e.srt) (ss : Str → Option Rat) (le : Env) (depth : Nat) (a : AppConf) (l : Lang) (x : PrintEnv)
    (script : Book → GenRun) (main : Book) (hload : loadBook e.srt le depth a.ledger = .ok main)
    (hk : KeepsDates e.today (script main).acts) (hend : EndsWell e ss main (script main)) :
    generateCmd le depth e ss a l x true script = importCmd le depth e.srt a l x true none [asSource ss e.today (script main)] := by
  have hm : Reachable e.srt e.today main := by
    unfold loadBook at hload
    split at hload <;> try cases hload
    rename_i bb' als' hp
    obtain ⟨cs', hc'⟩ := parseFileLocal_calls _ _ _ _ _ _ _ hp
    cases hb' : bb'.build e.srt with
    | none => rw [hb'] at hload; cases hload
    | some bk' => rw [hb'] at hload; cases hload; exact Built.reachable ⟨bb', hc', hb'⟩ e.today
  obtain ⟨hok, ts, hg⟩ := hend
  obtain ⟨s, b, h1, h2, h3, h4, h5, h6⟩ := gen_facts hs hm hk hg
  have hlc : loadCmd le depth e.srt a = .ok main := by unfold loadCmd; rw [hload]
  have hfmt : bookFmt l x s.main = bookFmt l x main := by unfold bookFmt; rw [h3]
  unfold generateCmd importCmd
  rw [hlc]
  simp only [h1, h2, hok, if_true, h5, hfmt]
  unfold importLoop
  have hp : processData e.srt (asSource ss e.today (script main)) = .ok b := processData_iff.2 ⟨hok, s.bb, h4, h2⟩
  rw [if_pos (show (asSource ss e.today (script main)).readable = true from rfl), hp]
  simp only [importOne, if_true, importLoop, asSource]
  have hda : dedupAll e.srt (b.removeDuplicatesOf e.srt main) [] = b.removeDuplicatesOf e.srt main := rfl
  rw [hda]
  generalize showTxns _ _ = o
  cases o <;> simp

theorem loadBook_reachable {srt : List Posting → List Posting} {le : Env} {depth : Nat} {fn : Str} {main : Book} (today : Int)
    (h : loadBook srt le depth fn = .ok main) : Reachable srt today main := by
  unfold loadBook at h
  split at h <;> try cases h
  rename_i bb' als' hp
  obtain ⟨cs', hc'⟩ := parseFileLocal_calls _ _ _ _ _ _ _ hp
  cases hb' : bb'.build srt with
  | none => rw [hb'] at h; cases h
  | some bk' => rw [hb'] at h; cases h; exact Built.reachable ⟨bb', hc', hb'⟩ today

theorem gen_gives {e : OpEnv} (hs : IsSort e.srt) {ss : Str → Option Rat} {main : Book} (hm : Reachable e.srt e.today main) {r : GenRun}
    {ts : List Txn} (hk : KeepsDates e.today r.acts) (hok : r.ok = true) (h : generate e ss true main r.acts = .shown ts) :
    ∃ b, ScriptsGive e.srt [asSource ss e.today r] [b] ∧ importRun e.srt true none main [] [b] = [ts] := by
  obtain ⟨s, b, h1, h2, h3, h4, h5, h6⟩ := gen_facts hs hm hk h
  refine ⟨b, .cons ⟨rfl, hok, s.bb, h4, h2⟩ .nil, ?_⟩
  rw [h6]
  rfl

/-! ## C137, C138 -/

/-- C137, the part that holds: what `generate` printed, appended to the ledger, adds exactly the transactions it generated; none of them has the
date and payee of one there was.  Conditions: as for imports (C107); the script restricts the ledger only to periods in which all it adds lies,
and does not rename accounts of it. -/
theorem c137_appended_partial (e : OpEnv) (hs : IsSort e.srt) (ss : Str → Option Rat) (le : Env) (he : le.letter 10 = false) (depth : Nat) (a : AppConf)
    (text : Str) (hfile : le.files a.ledger = some text) (h0 : 0 ∉ text) (hl : Lines text)
    (cs : List Call) (bb : Builder) (als : Aliases) (main : Book) (hload : parseFile le (depth + 1) Builder.new a.ledger = .ok bb als)
    (hcs : Builder.new.calls cs = some bb) (hmain : bb.build e.srt = some main)
    (hlive : ∀ n ∈ issued Builder.new cs, hasTxn (main.transactions e.srt) n.1 n.2 = true)
    (x : PrintEnv) (hx : SoundPrint x) (script : Book → GenRun) (hk : KeepsDates e.today (script main).acts) (hok : (script main).ok = true)
    (ts : List Txn) (hg : generate e ss true main (script main).acts = .shown ts)
    (hmsg : ∀ m ∈ (script main).msgs, OneLineMsg m)
    (hout : ∀ t ∈ ts, PrintableTxn (bookFmt .english x main) t ∧ ∀ p ∈ t, als.resolve p.acct = p.acct) :
    (generateCmd le (depth + 1) e ss a .english x true script).fin = .ok () ∧
    ∃ bk, loadBook e.srt (appendTo le a.ledger (generateCmd le (depth + 1) e ss a .english x true script).text) (depth + 1) a.ledger = .ok bk ∧
      bk.prices = main.prices ∧
      (∀ l, l ∈ (reported e.srt bk).map line ↔ l ∈ (reported e.srt main).map line ∨ l ∈ ts.flatten.map line) ∧
      (∀ d py, ¬ (hasTxn (main.transactions e.srt) d py = true ∧ hasTxn ts d py = true)) := by
  have hm : Reachable e.srt e.today main := Built.reachable ⟨bb, hcs, hmain⟩ _
  obtain ⟨b, k1, k2⟩ := gen_gives (ss := ss) hs hm hk hok hg
  rw [c137_as_import e hs ss le (depth + 1) a .english x script main (load_built (a := a) hload hmain).1 hk ⟨hok, ts, hg⟩]
  have := c107_appended_partial e.srt hs le he depth a text hfile h0 hl cs bb als main hload hcs hmain hlive x hx none _ [b] k1
    (by intro s hs'; simp only [List.mem_singleton] at hs'; subst hs'; exact hmsg)
    (by rw [k2]; intro out ho; simp only [List.mem_singleton] at ho; subst ho; exact hout)
  rw [k2] at this
  simpa using this

/-- C138, the part that holds: after that, the same script prints its messages and nothing else, provided it makes the same `add` calls. -/
theorem c138_generate_again_partial (e : OpEnv) (hs : IsSort e.srt) (ss : Str → Option Rat) (le : Env) (he : le.letter 10 = false) (depth : Nat)
    (a : AppConf) (text : Str) (hfile : le.files a.ledger = some text) (h0 : 0 ∉ text) (hl : Lines text)
    (cs : List Call) (bb : Builder) (als : Aliases) (main : Book) (hload : parseFile le (depth + 1) Builder.new a.ledger = .ok bb als)
    (hcs : Builder.new.calls cs = some bb) (hmain : bb.build e.srt = some main)
    (hlive : ∀ n ∈ issued Builder.new cs, hasTxn (main.transactions e.srt) n.1 n.2 = true)
    (x : PrintEnv) (hx : SoundPrint x) (script : Book → GenRun) (hk : KeepsDates e.today (script main).acts) (hok : (script main).ok = true)
    (ts : List Txn) (hg : generate e ss true main (script main).acts = .shown ts)
    (hmsg : ∀ m ∈ (script main).msgs, OneLineMsg m)
    (hout : ∀ t ∈ ts, PrintableTxn (bookFmt .english x main) t ∧ ∀ p ∈ t, als.resolve p.acct = p.acct)
    (lang : Lang) (x' : PrintEnv) (bk : Book)
    (hbk : loadBook e.srt (appendTo le a.ledger (generateCmd le (depth + 1) e ss a .english x true script).text) (depth + 1) a.ledger = .ok bk)
    (hsame : adds (script bk).acts = adds (script main).acts) (hk' : KeepsDates e.today (script bk).acts) (hend : EndsWell e ss bk (script bk)) :
    generateCmd (appendTo le a.ledger (generateCmd le (depth + 1) e ss a .english x true script).text) (depth + 1) e ss a lang x' true script =
      ⟨printMsgs (script bk).msgs, .ok ()⟩ := by
  have hm : Reachable e.srt e.today main := Built.reachable ⟨bb, hcs, hmain⟩ _
  obtain ⟨b, k1, k2⟩ := gen_gives (ss := ss) hs hm hk hok hg
  have hfirst := c137_as_import e hs ss le (depth + 1) a .english x script main (load_built (a := a) hload hmain).1 hk ⟨hok, ts, hg⟩
  rw [hfirst] at hbk ⊢
  rw [c137_as_import e hs ss _ (depth + 1) a lang x' script bk hbk hk' hend]
  have hagain := c108_import_again_partial e.srt hs le he depth a text hfile h0 hl cs bb als main hload hcs hmain hlive x hx none (by simp) _ [b] k1
    (by intro s hs'; simp only [List.mem_singleton] at hs'; subst hs'; exact hmsg)
    (by rw [k2]; intro out ho; simp only [List.mem_singleton] at ho; subst ho; exact hout) lang x' none
  generalize appendTo le a.ledger (importCmd le (depth + 1) e.srt a .english x true none [asSource ss e.today (script main)]).text = le' at *
  have hsrc : asSource ss e.today (script bk) = { asSource ss e.today (script main) with msgs := (script bk).msgs } := by
    simp only [asSource, hsame, hok, hend.1]
  have hlc : loadCmd le' (depth + 1) e.srt a = .ok bk := by unfold loadCmd; rw [hbk]
  unfold importCmd at hagain ⊢
  rw [hlc] at hagain ⊢
  simp only [hsrc] at hagain ⊢
  unfold importLoop at hagain ⊢
  simp only [importLoop] at hagain ⊢
  rw [if_pos (show (asSource ss e.today (script main)).readable = true from rfl)] at hagain ⊢
  have hp : processData e.srt { asSource ss e.today (script main) with msgs := (script bk).msgs } = processData e.srt (asSource ss e.today (script main)) := rfl
  rw [hp]
  have hpd : processData e.srt (asSource ss e.today (script main)) = .ok b := by
    cases k1 with
    | cons h _ => exact processData_iff.2 h.2
  rw [hpd] at hagain ⊢
  simp only at hagain ⊢
  generalize showTxns _ _ = o at *
  cases o with
  | none => simp at hagain
  | some t =>
    simp only [Printed.mk.injEq, and_true, List.append_nil, List.flatMap_cons, List.flatMap_nil] at hagain ⊢
    have : t = [] := by
      have := congrArg List.length hagain
      simp only [List.length_append] at this
      exact List.length_eq_zero_iff.1 (by omega)
    rw [this, List.append_nil]

/-! ## Where they fail -/

/-- The surroundings of the examples: 1 June 2020. -/
def genOps : OpEnv := ⟨20200601, insSort, fun _ => true, fun _ _ => false, fun _ r _ => r, some, fun _ _ m => m⟩

/-- A payment of 12.50 as a script adds it; another, of 3, the ledger `centsFile` has already. -/
def genLunch : ScriptAdd := ⟨b!"2020-01-03", b!"Lunch", .int 25, b!"EUR", 2, b!"Bank", .none, b!"EUR", 1, [], b!"Food", [], []⟩
def genAgain : ScriptAdd := { genLunch with date := b!"2020-01-02", desc := b!"x", amt := .int 6 }

/-- The run of `generate` on a ledger file with a fixed script. -/
def genDemo (file : Str) (r : GenRun) : Printed := generateCmd (demoEnv [(b!"a", file)]) 1 genOps (fun _ => none) demoApp .english demoPrint true fun _ => r

/-- Does the ledger show the line once what was generated is appended? -/
def genShowsLater (file : Str) (r : GenRun) (l : Line) : Bool :=
  match loadBook insSort (appendTo (demoEnv [(b!"a", file)]) b!"a" (genDemo file r).text) 1 b!"a" with
  | .ok bk => decide (l ∈ (reported insSort bk).map line)
  | _ => false

/-- The generated transactions. -/
def genShown (file : Str) (r : GenRun) : Option (List Txn) :=
  match loadBook insSort (demoEnv [(b!"a", file)]) 1 b!"a", (genDemo file r).fin with
  | .ok main, .ok _ =>
    match generate genOps (fun _ => none) true main r.acts with
    | .shown ts => if r.ok then some ts else none
    | _ => none
  | _, _ => none

/-- C137 without conditions on the ledger, the script and the amounts. -/
def AlwaysGenerates : Prop := ∀ (e : OpEnv) (ss : Str → Option Rat) (le : Env) (depth : Nat) (a : AppConf) (x : PrintEnv) (script : Book → GenRun)
    (main : Book) (ts : List Txn), IsSort e.srt → le.letter 10 = false → SoundPrint x → loadBook e.srt le depth a.ledger = .ok main →
    (script main).ok = true → generate e ss true main (script main).acts = .shown ts →
    (generateCmd le depth e ss a .english x true script).fin = .ok () →
    ∃ bk, loadBook e.srt (appendTo le a.ledger (generateCmd le depth e ss a .english x true script).text) depth a.ledger = .ok bk ∧
      ∀ l, l ∈ (reported e.srt bk).map line ↔ l ∈ (reported e.srt main).map line ∨ l ∈ ts.flatten.map line

theorem gen_not_always {file : Str} {r : GenRun} {l : Line} (h1 : (genShown file r).any (fun ts => decide (l ∈ ts.flatten.map line)) = true)
    (h2 : genShowsLater file r l = false) : ¬ AlwaysGenerates := by
  intro h
  cases hs : genShown file r with
  | none => rw [hs] at h1; cases h1
  | some ts =>
    rw [hs] at h1
    simp only [Option.any_some, decide_eq_true_eq] at h1
    unfold genShown at hs
    split at hs
    · rename_i main u hm hf
      split at hs
      · rename_i ts' hg
        split at hs
        · rename_i hok
          cases hs
          obtain ⟨bk, k1, k2⟩ := h genOps (fun _ => none) (demoEnv [(b!"a", file)]) 1 demoApp demoPrint (fun _ => r) main ts insSort_isSort rfl demoPrint_sound
            hm hok hg hf
          unfold genShowsLater at h2
          have k1' : loadBook insSort (appendTo (demoEnv [(b!"a", file)]) b!"a" (genDemo file r).text) 1 b!"a" = .ok bk := k1
          rw [k1'] at h2
          simp only [decide_eq_false_iff_not] at h2
          exact h2 ((k2 l).2 (Or.inr h1))
        · cases hs
      · cases hs
    · cases hs

/-- C137 fails: a script that looks at a part of the ledger (`data.since`) cuts the ledger its transactions are compared with: it generates again what
is there, and the ledger then has it twice. -/
theorem c137_since_fails : ¬ AlwaysGenerates :=
  gen_not_always (file := centsFile) (r := ⟨[], [.since b!"2020-02-01", .read, .add genAgain], true⟩) (l := ⟨20200102, b!"x", b!"Bank", b!"EUR", 3⟩)
    (by decide +kernel) (by decide +kernel)

/-- C137 fails: amounts are printed with the decimals of the ledger (see C107). -/
theorem c137_decimals_fails : ¬ AlwaysGenerates :=
  gen_not_always (file := wholeFile) (r := ⟨[], [.read, .add genLunch], true⟩) (l := ⟨20200103, b!"Lunch", b!"Bank", b!"EUR", 25 / 2⟩)
    (by decide +kernel) (by decide +kernel)

/-- C138 fails: such a script generates the same transaction every time. -/
theorem c138_since_fails : ¬ ∀ (e : OpEnv) (ss : Str → Option Rat) (le : Env) (depth : Nat) (a : AppConf) (x : PrintEnv) (r : GenRun),
    IsSort e.srt → le.letter 10 = false → SoundPrint x → (generateCmd le depth e ss a .english x true fun _ => r).fin = .ok () →
    generateCmd (appendTo le a.ledger (generateCmd le depth e ss a .english x true fun _ => r).text) depth e ss a .english x true (fun _ => r) =
      ⟨printMsgs r.msgs, .ok ()⟩ := by
  intro h
  have h1 : (match (genDemo centsFile ⟨[], [.since b!"2020-02-01", .read, .add genAgain], true⟩).fin with | .ok _ => true | _ => false) = true := by
    decide +kernel
  split at h1
  · rename_i u hf
    have := congrArg Printed.text (h genOps (fun _ => none) (demoEnv [(b!"a", centsFile)]) 1 demoApp demoPrint _ insSort_isSort rfl demoPrint_sound hf)
    revert this
    decide +kernel
  · cases h1

/-! ## A concrete case -/

/-- A message, a look at the ledger up to March, a payment that is there already, and a new one. -/
def genRun : GenRun := ⟨[b!"2 rows"], [.read, .asof b!"2020-03-01", .add genAgain, .add genLunch], true⟩

example : (genDemo centsFile genRun).text = b!"; 2 rows\n2020/01/03 Lunch\n  Bank  EUR 12.5\n  Food  EUR -12.5\n\n" := by decide +kernel

theorem genRun_keeps : KeepsDates 20200601 genRun.acts := by
  intro a ha x hx
  simp only [genRun, adds, List.filterMap_cons, List.filterMap_nil, List.mem_cons, List.not_mem_nil, or_false] at ha hx
  rcases ha with rfl | rfl | rfl | rfl <;> rcases hx with rfl | rfl <;> (unfold KeepsDate; first | trivial | decide +kernel)

/-- The conditions, as a test. -/
def genOkB (bb : Builder) (als : Aliases) (main : Book) (ts : List Txn) : Bool :=
  ((Builder.new.calls centsCalls).any fun b => sameB b bb) &&
  decide (∀ n ∈ issued Builder.new centsCalls, hasTxn (main.transactions insSort) n.1 n.2 = true) &&
  (ts.all fun t => printableB (bookFmt .english demoPrint main) t && t.all fun p => decide (als.resolve p.acct = p.acct)) && !ts.isEmpty

/-- The case meets the conditions of `c137_appended_partial` and `c138_generate_again_partial`, and something is generated. -/
theorem genRun_ok : ∃ bb als main ts, parseFile (demoEnv [(b!"a", centsFile)]) 1 Builder.new b!"a" = .ok bb als ∧
    Builder.new.calls centsCalls = some bb ∧ bb.build insSort = some main ∧
    (∀ n ∈ issued Builder.new centsCalls, hasTxn (main.transactions insSort) n.1 n.2 = true) ∧
    generate genOps (fun _ => none) true main genRun.acts = .shown ts ∧ ts ≠ [] ∧
    (∀ t ∈ ts, PrintableTxn (bookFmt .english demoPrint main) t ∧ ∀ p ∈ t, als.resolve p.acct = p.acct) := by
  have h : (match parseFile (demoEnv [(b!"a", centsFile)]) 1 Builder.new b!"a" with
      | .ok bb als => (match bb.build insSort with
        | some main => (match generate genOps (fun _ => none) true main genRun.acts with
          | .shown ts => genOkB bb als main ts
          | _ => false)
        | none => false)
      | _ => false) = true := by decide +kernel
  split at h <;> try cases h
  rename_i bb als hp
  split at h <;> try cases h
  rename_i main hm
  split at h <;> try cases h
  rename_i ts hg
  simp only [genOkB, Bool.and_eq_true, decide_eq_true_eq, List.all_eq_true, Bool.not_eq_true'] at h
  obtain ⟨⟨⟨h1, h2⟩, h3⟩, h4⟩ := h
  refine ⟨bb, als, main, ts, hp, ?_, hm, h2, hg, ?_, fun t ht => ⟨printable_of_b (h3 t ht).1, (h3 t ht).2⟩⟩
  · cases hc : Builder.new.calls centsCalls with
    | none => rw [hc] at h1; cases h1
    | some b =>
      rw [hc] at h1
      rw [same_of_b h1]
  · rintro rfl
    cases h4

example : ∃ bk, loadBook insSort (appendTo (demoEnv [(b!"a", centsFile)]) b!"a" (genDemo centsFile genRun).text) 1 b!"a" = .ok bk ∧
    generateCmd (appendTo (demoEnv [(b!"a", centsFile)]) b!"a" (genDemo centsFile genRun).text) 1 genOps (fun _ => none) demoApp .german demoPrint true
      (fun _ => genRun) = ⟨b!"; 2 rows\n", .ok ()⟩ := by
  obtain ⟨bb, als, main, ts, h1, h2, h3, h4, h5, _, h7⟩ := genRun_ok
  have hmsg : ∀ m ∈ genRun.msgs, OneLineMsg m := by
    intro m hm
    simp only [genRun, List.mem_singleton] at hm
    subst hm
    unfold OneLineMsg
    decide
  have hlines : Lines centsFile := Or.inr ⟨b!"; mine\nalias Cash=Assets:Cash\n2020/01/02 x\n  Cash  EUR 10.25\n  B", by decide⟩
  obtain ⟨_, bk, k1, _, _, _⟩ := c137_appended_partial genOps insSort_isSort (fun _ => none) (demoEnv [(b!"a", centsFile)]) rfl 0 demoApp centsFile rfl (by decide)
    hlines centsCalls bb als main h1 h2 h3 h4 demoPrint demoPrint_sound (fun _ => genRun) genRun_keeps rfl ts h5 hmsg h7
  refine ⟨bk, k1, ?_⟩
  have hend : EndsWell genOps (fun _ => none) bk genRun := by
    refine ⟨rfl, ?_⟩
    have h := (by decide +kernel : (match loadBook insSort (appendTo (demoEnv [(b!"a", centsFile)]) b!"a" (genDemo centsFile genRun).text) 1 b!"a" with
      | .ok bk => (match generate genOps (fun _ => none) true bk genRun.acts with
        | .shown _ => true
        | _ => false)
      | _ => false) = true)
    rw [show loadBook insSort (appendTo (demoEnv [(b!"a", centsFile)]) b!"a" (genDemo centsFile genRun).text) 1 b!"a" = .ok bk from k1] at h
    simp only at h
    split at h
    · rename_i ts' hts; exact ⟨ts', hts⟩
    · cases h
  exact c138_generate_again_partial genOps insSort_isSort (fun _ => none) (demoEnv [(b!"a", centsFile)]) rfl 0 demoApp centsFile rfl (by decide)
    hlines centsCalls bb als main h1 h2 h3 h4 demoPrint demoPrint_sound (fun _ => genRun) genRun_keeps rfl ts h5 hmsg h7 .german demoPrint bk k1 rfl genRun_keeps hend

end Verif
