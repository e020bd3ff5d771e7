import Verif.Spec.Scripts
import Verif.Props.ImportCmd
import Verif.Props.MainImport2
import Verif.Props.Program
import Verif.Props.Days

/-! # C150: what import and generate print, from the files and the scripts -/

namespace Verif
open Spec

theorem bigRat_num {ss : Str → Option Rat} {v : SVal} {x : Rat} : getBigRat ss v = .num x ↔ addAmount ss v = some x := by
  unfold getBigRat addAmount
  cases v with
  | float f => cases f <;> simp [amountOf]
  | int i => simp [amountOf]
  | str s => cases h : ss s <;> simp [amountOf, h]
  | _ => simp [amountOf]

theorem bigRat_none {ss : Str → Option Rat} {v : SVal} : getBigRat ss v = .none ↔ v = .none := by
  unfold getBigRat
  cases v with
  | float f => cases f <;> simp
  | str s => cases h : ss s <;> simp [h]
  | _ => simp

theorem newRat_some {d : Int} : (∃ f, newRat 1 d = some f) ↔ d ≠ 0 := by
  unfold newRat; split <;> simp_all

theorem amount_bookings {ss : Str → Option Rat} {v : SVal} {x : Rat} (h : addAmount ss v = some x) (a c cc n : Str) (d : Int) :
    twoBookings a c cc n (addAmount ss v) d = [.addPosting a cc (x / d) n, .addPosting c cc (-(x / d)) []] := by
  rw [h]; rfl

theorem denom_zero {d : Option Int} : d.getD 1 ≠ 0 ↔ d ≠ some 0 := by
  cases d <;> simp

theorem amount_none {ss : Str → Option Rat} : addAmount ss .none = none := rfl

theorem calls_two (b : Builder) (a1 c1 a2 c2 : Str) (x1 x2 : Rat) (n1 n2 : Str) (l : List Call) :
    b.calls (.addPosting a1 c1 x1 n1 :: .addPosting a2 c2 x2 n2 :: l) = ((b.addPosting a1 c1 x1 n1).addPosting a2 c2 x2 n2).calls l := rfl

theorem second_works {ss : Str → Option Rat} (a : AddArgs) (v : SVal) (hv : a.amt2 = getBigRat ss v) (b b' : Builder) :
    addSecond b a = .ok b' ↔
      ((v = .none ∧ a.account2 = []) ∨ ((∃ x, addAmount ss v = some x) ∧ a.denom2 ≠ 0)) ∧
        b.calls (twoBookings a.account2 a.caccount a.ccy2 [] (addAmount ss v) a.denom2) = some b' := by
  unfold addSecond
  rw [hv]
  cases hx : getBigRat ss v with
  | bad =>
    have h1 : v ≠ .none := fun h => by rw [bigRat_none.2 h] at hx; cases hx
    have h2 : ¬ ∃ x, addAmount ss v = some x := by rintro ⟨x, h⟩; rw [bigRat_num.2 h] at hx; cases hx
    simp [h1, h2]
  | none =>
    have h1 := bigRat_none.1 hx
    subst h1
    by_cases h : a.account2 = []
    · simp [h, amount_none, twoBookings, Builder.calls]
    · simp [h, amount_none]
  | num x =>
    have h1 := bigRat_num.1 hx
    have h2 : v ≠ .none := fun h => by rw [bigRat_none.2 h] at hx; cases hx
    cases hn : newRat 1 a.denom2 with
    | none =>
      have : a.denom2 = 0 := by by_contra hc; obtain ⟨f, hf⟩ := newRat_some.2 hc; rw [hn] at hf; cases hf
      simp [h2, this]
    | some f =>
      have : a.denom2 ≠ 0 := newRat_some.1 ⟨f, hn⟩
      simp only [h2, false_and, false_or]
      rw [amount_bookings h1, newRat_one hn, calls_two]
      simp [h1, this, Builder.calls]

theorem add_works {ss : Str → Option Rat} {today : Int} {acct ccy cacct : Str} {b : Builder} (hb : OpenInv b []) (r : RawAdd) (b' : Builder) :
    addCall b ((r.fill acct ccy cacct).args ss today) = .ok b' ↔
      AddWorks ss today r ∧ b.calls (addBookings ss today acct ccy cacct r) = some b' := by
  unfold addCall AddWorks
  show (if dateFromString today r.date = 0 then AddRes.err b else match getBigRat ss r.amt with
      | .bad => .err b
      | .none => .panic
      | .num x => match newRat 1 (r.denom.getD 1) with
        | none => .panic
        | some f => match b.newTransaction (dateFromString today r.date) r.desc (r.note.getD []) with
          | none => .panic
          | some b => addSecond ((b.addPosting (r.account.getD acct) (r.ccy.getD ccy) (x * f) (r.lnote.getD [])).addPosting (r.caccount.getD cacct) (r.ccy.getD ccy) (-(x * f)) [])
            ((r.fill acct ccy cacct).args ss today)) = .ok b' ↔ _
  by_cases hd : dateFromString today r.date = 0
  · simp [hd]
  rw [if_neg hd]
  cases hx : getBigRat ss r.amt with
  | bad =>
    have h2 : ¬ ∃ x, addAmount ss r.amt = some x := by rintro ⟨x, h⟩; rw [bigRat_num.2 h] at hx; cases hx
    simp [h2]
  | none =>
    have h1 := bigRat_none.1 hx
    simp [h1, amount_none]
  | num x =>
    have h1 := bigRat_num.1 hx
    cases hn : newRat 1 (r.denom.getD 1) with
    | none =>
      have : ¬ r.denom ≠ some 0 := by rw [← denom_zero]; intro hc; obtain ⟨f, hf⟩ := newRat_some.2 hc; rw [hn] at hf; cases hf
      simp only [this, false_and, and_false]
      simp
    | some f =>
      have h3 : r.denom ≠ some 0 := denom_zero.1 (newRat_some.1 ⟨f, hn⟩)
      obtain ⟨b1, hb1⟩ := (newTransaction_iff hb (dateFromString today r.date) r.desc (r.note.getD [])).2 (by intro c; rfl)
      simp only [hb1]
      rw [second_works _ (r.amt2.getD .none) rfl]
      have hcalls : b.calls (addBookings ss today acct ccy cacct r) =
          ((b1.addPosting (r.account.getD acct) (r.ccy.getD ccy) (x / (r.denom.getD 1 : Int)) (r.lnote.getD [])).addPosting (r.caccount.getD cacct) (r.ccy.getD ccy)
            (-(x / (r.denom.getD 1 : Int))) []).calls
            (twoBookings (r.account2.getD []) (r.caccount.getD cacct) (r.ccy2.getD ccy) [] (addAmount ss (r.amt2.getD .none)) (r.denom2.getD 1)) := by
        unfold addBookings
        rw [amount_bookings h1]
        simp [Builder.calls, Builder.call, hb1]
      rw [hcalls, newRat_one hn]
      show ((_ ∧ r.account2.getD [] = []) ∨ (_ ∧ r.denom2.getD 1 ≠ 0)) ∧ _ ↔ _
      rw [denom_zero]
      constructor
      · rintro ⟨k1, k2⟩; exact ⟨⟨hd, ⟨x, h1⟩, h3, k1⟩, k2⟩
      · rintro ⟨⟨-, -, -, k1⟩, k2⟩; exact ⟨k1, k2⟩

theorem adds_work {ss : Str → Option Rat} {today : Int} {acct ccy cacct : Str} (rs : List RawAdd) : ∀ {b : Builder}, OpenInv b [] → ∀ b',
    runAdds b (rs.map fun r => (r.fill acct ccy cacct).args ss today) = .ok b' ↔
      (∀ r ∈ rs, AddWorks ss today r) ∧ b.calls (rs.flatMap (addBookings ss today acct ccy cacct)) = some b' := by
  induction rs with
  | nil => intro b _ b'; simp [runAdds, Builder.calls]
  | cons r rs ih =>
    intro b hb b'
    rw [List.map_cons, runAdds, List.flatMap_cons, calls_append]
    cases h : addCall b ((r.fill acct ccy cacct).args ss today) with
    | ok b1 =>
      obtain ⟨k1, k2⟩ := (add_works hb r b1).1 h
      simp only
      rw [ih ((addCall_open hb _).1 b1 (.inl h)) b', k2]
      simp [k1]
    | err b1 =>
      simp only
      constructor
      · intro h; cases h
      rintro ⟨h1, h2⟩
      cases hc : b.calls (addBookings ss today acct ccy cacct r) with
      | none => rw [hc] at h2; cases h2
      | some b2 =>
        have := (add_works hb r b2).2 ⟨h1 r (by simp), hc⟩
        rw [h] at this; cases this
    | panic =>
      simp only
      constructor
      · intro h; cases h
      rintro ⟨h1, h2⟩
      cases hc : b.calls (addBookings ss today acct ccy cacct r) with
      | none => rw [hc] at h2; cases h2
      | some b2 =>
        have := (add_works hb r b2).2 ⟨h1 r (by simp), hc⟩
        rw [h] at this; cases this

/-- What a file comes to is what it books. -/
theorem source_books {disk : Str → Option Str} {input : Str} {im : ImpWorld} (hdisk : ∀ before f, im.read before f = contents disk input before f)
    (srt : List Posting → List Posting) (today : Int) (d : ImpDef) (rd : Str → ReadRes SVal) (before : List Str) (f : Str) (ms : List Str) (b : Book) :
    ((sourceOf im today d rd before f).readable = true ∧ processData srt (sourceOf im today d rd before f) = .ok b ∧
        (sourceOf im today d rd before f).msgs = ms) ↔
      ∃ cs, FileBooks disk input im today d rd before f ms cs ∧ Built srt cs b := by
  unfold sourceOf FileBooks
  rw [hdisk]
  cases contents disk input before f with
  | none => simp
  | some text =>
    simp only
    cases hr : rd text with
    | ok v =>
      simp only
      cases hc : fileOrStr im.codeFile d.code with
      | none =>
        constructor
        · rintro ⟨-, h, -⟩
          rw [processData_iff] at h
          cases h.1
        · rintro ⟨cs, ⟨_, _, _, _, _, h, _⟩, _⟩; cases h
      | some code =>
        simp only [true_and]
        rw [processData_iff]
        simp only
        constructor
        · rintro ⟨⟨h1, bb, h2, h3⟩, h4⟩
          obtain ⟨k1, k2⟩ := (adds_work _ openInv_new bb).1 h2
          exact ⟨_, ⟨text, v, code, rfl, hr, rfl, h1, k1, h4.symm, rfl⟩, bb, k2, h3⟩
        · rintro ⟨cs, ⟨t2, v2, c2, e1, e2, e3, h1, k1, h4, rfl⟩, bb, k2, h3⟩
          cases e1
          rw [hr] at e2
          cases e2
          cases e3
          exact ⟨⟨h1, bb, (adds_work _ openInv_new bb).2 ⟨k1, k2⟩, h3⟩, h4.symm⟩
    | _ =>
      constructor
      · rintro ⟨h, -⟩; cases h
      · rintro ⟨cs, ⟨t2, v2, c2, e1, e2, -⟩, -⟩
        cases e1
        rw [hr] at e2; cases e2

theorem loop_books {disk : Str → Option Str} {input : Str} {im : ImpWorld} (hdisk : ∀ before f, im.read before f = contents disk input before f)
    (srt : List Posting → List Posting) (today : Int) (d : ImpDef) (rd : Str → ReadRes SVal) (dedup : Bool) (rc : Option Reclass) (fm : Fmt) (main : Book)
    (fs : List Str) : ∀ (before : List Str) (prev : List Book) (text : Str),
    importLoop srt dedup rc fm main prev (sourcesOf im today d rd before fs) = ⟨text, .ok ()⟩ ↔
      ∃ l bs ts, FilesBook disk input im today d rd before fs l ∧ List.Forall₂ (fun x b => Built srt x.2 b) l bs ∧
        List.Forall₂ (fun txns t => showTxns fm txns = some t) (importRun srt dedup rc main prev bs) ts ∧ text = importText l ts := by
  induction fs with
  | nil =>
    intro before prev text
    constructor
    · intro h
      cases h
      exact ⟨[], [], [], .nil _, .nil, .nil, rfl⟩
    · rintro ⟨l, bs, ts, h1, h2, h3, rfl⟩
      cases h1; cases h2; cases h3
      rfl
  | cons f fs ih =>
    intro before prev text
    rw [sourcesOf, importLoop]
    constructor
    · intro h
      split at h
      · rename_i hr
        split at h
        · rename_i b hp
          obtain ⟨cs, hf, hb⟩ := (source_books hdisk srt today d rd before f _ b).1 ⟨hr, hp, rfl⟩
          simp only at h
          split at h
          · rename_i t ht
            rw [Printed.mk.injEq] at h
            obtain ⟨l, bs, ts, h1, h2, h3, h4⟩ := (ih (before ++ [f]) _ _).1 (show importLoop srt dedup rc fm main (prev ++ [importOne srt dedup rc main prev b])
              (sourcesOf im today d rd (before ++ [f]) fs) = ⟨_, .ok ()⟩ from by rw [← h.2])
            refine ⟨_, b :: bs, t :: ts, .cons _ _ _ _ _ _ hf h1, .cons hb h2, .cons ht h3, ?_⟩
            rw [← h.1, h4]
            rfl
          · cases h
        · cases h
        · cases h
        · cases h
        · cases h
      · cases h
    · rintro ⟨l, bs, ts, h1, h2, h3, rfl⟩
      cases h1 with
      | cons _ _ _ ms cs l' hf h1 =>
        cases h2 with
        | cons hb h2 =>
          rename_i b bs
          obtain ⟨k1, k2, k3⟩ := (source_books hdisk srt today d rd before f ms b).2 ⟨cs, hf, hb⟩
          rw [if_pos k1, k2]
          rw [importRun] at h3
          cases h3 with
          | cons ht h3 =>
            rename_i t ts
            simp only [ht]
            rw [(ih (before ++ [f]) _ (importText l' ts)).2 ⟨l', bs, ts, h1, h2, h3, rfl⟩, k3]
            rfl

/-- C150, import: the command ends with status 0 exactly if the ledger loads, every file can be read and decoded, and every script ends well; then it
prints, for each file in order, the messages of its script and the transactions the script booked (less those that are in the ledger or in an earlier
file, with the counter-accounts found: `importRun`). -/
theorem c150_import (w : World) (im : ImpWorld) (disk : Str → Option Str) (input : Str) (hdisk : ∀ before f, im.read before f = contents disk input before f)
    (a : AppConf) (lang : Str) (d : ImpDef) (rd : Str → ReadRes SVal) (hrd : importReader im.decode im.split d.fmt = some rd)
    (files : List Str) (out : List Exported) :
    importFull w im a lang d files = .done 0 out ↔
      ∃ main l bs ts, loadCmd w.files w.depth w.ops.srt a = .ok main ∧ FilesBook disk input im w.ops.today (d.settled a) rd [] files l ∧
        List.Forall₂ (fun x b => Built w.ops.srt x.2 b) l bs ∧
        List.Forall₂ (fun txns t => showTxns (bookFmt (w.lang lang) w.print main) txns = some t)
          (importRun w.ops.srt d.dedup (if d.reclassify then some ⟨im.o1, im.o2, im.dist, d.acct⟩ else none) main [] bs) ts ∧
        out = [.text (importText l ts)] := by
  have hset : (if d.ccy = [] then { d with ccy := a.baseCCY } else d) = d.settled a := rfl
  have hsame : (d.settled a).fmt = d.fmt ∧ (d.settled a).dedup = d.dedup ∧ (d.settled a).reclassify = d.reclassify ∧ (d.settled a).acct = d.acct := by
    unfold ImpDef.settled; split <;> simp
  unfold importFull
  rw [hset]
  simp only [hsame, hrd]
  unfold importCmd
  cases hl : loadCmd w.files w.depth w.ops.srt a with
  | ok main =>
    simp only
    have key := fun text => loop_books hdisk w.ops.srt w.ops.today (d.settled a) rd d.dedup (if d.reclassify then some ⟨im.o1, im.o2, im.dist, d.acct⟩ else none)
      (bookFmt (w.lang lang) w.print main) main files [] [] text
    constructor
    · intro h
      unfold Printed.exit at h
      split at h
      · rename_i u hu
        cases h
        obtain ⟨l, bs, ts, h1, h2, h3, h4⟩ := (key (importLoop w.ops.srt d.dedup (if d.reclassify then some ⟨im.o1, im.o2, im.dist, d.acct⟩ else none)
          (bookFmt (w.lang lang) w.print main) main [] (sourcesOf im w.ops.today (d.settled a) rd [] files)).text).1 (by rw [← hu])
        exact ⟨main, l, bs, ts, rfl, h1, h2, h3, by rw [h4]⟩
      all_goals cases h
    · rintro ⟨m, l, bs, ts, hm, h1, h2, h3, rfl⟩
      cases hm
      rw [(key _).2 ⟨l, bs, ts, h1, h2, h3, rfl⟩]
      rfl
  | _ =>
    constructor
    · intro h; cases h
    · rintro ⟨m, l, bs, ts, hm, -⟩; cases hm

theorem acts_work {e : OpEnv} {ss : Str → Option Rat} (acts : List RawAct) : ∀ {s : GenState}, OpenInv s.bb [] → ∀ s',
    genActs e ss s (acts.map RawAct.fill) = .ok s' ↔ LedgerAfter e acts s.main s'.main ∧ (∀ r ∈ addsOf acts, AddWorks ss e.today r) ∧
      s.bb.calls ((addsOf acts).flatMap (addBookings ss e.today b!"acct" b!"ccy" b!"cacct")) = some s'.bb := by
  induction acts with
  | nil =>
    intro s hb s'
    simp only [List.map_nil, genActs, addsOf, List.filterMap_nil, List.flatMap_nil, Builder.calls]
    constructor
    · intro h; cases h; exact ⟨.nil _, by simp, rfl⟩
    · rintro ⟨h1, -, h2⟩
      obtain ⟨m, bb⟩ := s
      obtain ⟨m', bb'⟩ := s'
      cases h1
      cases h2
      rfl
  | cons a acts ih =>
    intro s hb s'
    rw [List.map_cons, genActs]
    cases a with
    | read =>
      simp only [RawAct.fill, genAct]
      rw [ih (s := { s with main := s.main.compact e.srt }) hb s']
      constructor
      · rintro ⟨h1, h2⟩; exact ⟨.read _ _ _ h1, h2⟩
      · rintro ⟨h1, h2⟩; cases h1 with | read _ _ _ h1 => exact ⟨h1, h2⟩
    | since d =>
      simp only [RawAct.fill, genAct]
      by_cases hd : dateFromString e.today d = 0
      · rw [if_pos hd]
        constructor
        · intro h; cases h
        · rintro ⟨h1, h2⟩; cases h1; contradiction
      · rw [if_neg hd]
        simp only
        rw [ih (s := { s with main := s.main.filterByDateSince (dateFromString e.today d) }) hb s']
        constructor
        · rintro ⟨h1, h2⟩; exact ⟨.since _ _ _ _ _ hd rfl h1, h2⟩
        · rintro ⟨h1, h2⟩
          cases h1 with
          | since _ _ _ b1 _ _ h h1 => cases h; exact ⟨h1, h2⟩
    | asof d =>
      simp only [RawAct.fill, genAct]
      by_cases hd : dateFromString e.today d = 0
      · rw [if_pos hd]
        constructor
        · intro h; cases h
        · rintro ⟨h1, h2⟩; cases h1; contradiction
      · rw [if_neg hd]
        simp only
        rw [ih (s := { s with main := s.main.filterByDateAsof (dateFromString e.today d) }) hb s']
        constructor
        · rintro ⟨h1, h2⟩; exact ⟨.asof _ _ _ _ _ hd rfl h1, h2⟩
        · rintro ⟨h1, h2⟩
          cases h1 with
          | asof _ _ _ b1 _ _ h h1 => cases h; exact ⟨h1, h2⟩
    | map f t al =>
      simp only [RawAct.fill, genAct]
      by_cases hv : e.valid f = true
      · rw [if_pos hv]
        simp only
        rw [ih (s := { s with main := s.main.regexAccounts e.srt (e.mat f) (e.rep f t) t al }) hb s']
        have hp : Prim.apply e (.map f t al) s.main = some (s.main.regexAccounts e.srt (e.mat f) (e.rep f t) t al) := by
          simp only [Prim.apply, hv, if_true]
        constructor
        · rintro ⟨h1, h2⟩; exact ⟨.map _ _ _ _ _ _ _ hp h1, h2⟩
        · rintro ⟨h1, h2⟩
          cases h1 with
          | map _ _ _ _ _ b1 _ h h1 => rw [hp] at h; cases h; exact ⟨h1, h2⟩
      · rw [if_neg hv]
        constructor
        · intro h; cases h
        · rintro ⟨h1, h2⟩
          cases h1 with
          | map _ _ _ _ _ b1 _ h h1 => simp only [Prim.apply, hv] at h; cases h
    | add r =>
      simp only [RawAct.fill, genAct]
      have hadds : addsOf (.add r :: acts) = r :: addsOf acts := rfl
      rw [hadds, List.flatMap_cons, calls_append]
      have hno : (∀ b1, addCall s.bb ((r.fill b!"acct" b!"ccy" b!"cacct").args ss e.today) ≠ .ok b1) →
          ¬ (LedgerAfter e (.add r :: acts) s.main s'.main ∧ (∀ r' ∈ r :: addsOf acts, AddWorks ss e.today r') ∧
            ((s.bb.calls (addBookings ss e.today b!"acct" b!"ccy" b!"cacct" r)).bind fun b =>
              b.calls ((addsOf acts).flatMap (addBookings ss e.today b!"acct" b!"ccy" b!"cacct"))) = some s'.bb) := by
        rintro hn ⟨-, h1, h2⟩
        cases hc : s.bb.calls (addBookings ss e.today b!"acct" b!"ccy" b!"cacct" r) with
        | none => rw [hc] at h2; cases h2
        | some b2 => exact hn b2 ((add_works hb r b2).2 ⟨h1 r (by simp), hc⟩)
      cases h : addCall s.bb ((r.fill b!"acct" b!"ccy" b!"cacct").args ss e.today) with
      | ok b1 =>
        obtain ⟨k1, k2⟩ := (add_works hb r b1).1 h
        simp only
        rw [ih (s := { s with bb := b1 }) ((addCall_open hb _).1 b1 (.inl h)) s', k2]
        simp only [Option.bind_some, List.forall_mem_cons]
        constructor
        · rintro ⟨h1, h2, h3⟩; exact ⟨.add _ _ _ _ h1, ⟨k1, h2⟩, h3⟩
        · rintro ⟨h1, ⟨-, h2⟩, h3⟩; cases h1 with | add _ _ _ _ h1 => exact ⟨h1, h2, h3⟩
      | err b1 =>
        simp only
        exact ⟨(fun h0 => by cases h0), fun h' => absurd h' (hno (by rw [h]; intro b h0; cases h0))⟩
      | panic =>
        simp only
        exact ⟨(fun h0 => by cases h0), fun h' => absurd h' (hno (by rw [h]; intro b h0; cases h0))⟩

/-- C150, generate: the command ends with status 0 exactly if the ledger loads, the script is found and ends well; then it prints its messages and the
transactions it booked (with deduplication, less those that are in the ledger as the script left it), with the decimals of that ledger. -/
theorem c150_generate (w : World) (im : ImpWorld) (a : AppConf) (lang : Str) (d : GenDef) (out : List Exported) :
    generateFull w im a lang d = .done 0 out ↔
      ∃ main main' code b text, loadCmd w.files w.depth w.ops.srt a = .ok main ∧ fileOrStr im.codeFile d.code = some code ∧ (im.gen code main).ok = true ∧
        (∀ r ∈ addsOf (im.gen code main).acts, AddWorks im.setString w.ops.today r) ∧ LedgerAfter w.ops (im.gen code main).acts main main' ∧
        Built w.ops.srt ((addsOf (im.gen code main).acts).flatMap (addBookings im.setString w.ops.today b!"acct" b!"ccy" b!"cacct")) b ∧
        showTxns (bookFmt (w.lang lang) w.print main') ((if d.dedup then b.removeDuplicatesOf w.ops.srt main' else b).transactions w.ops.srt) = some text ∧
        out = [.text ((im.gen code main).msgs.flatMap msgLine ++ text)] := by
  unfold generateFull generateCmd
  cases hl : loadCmd w.files w.depth w.ops.srt a with
  | ok main =>
    simp only
    unfold genScript
    cases hc : fileOrStr im.codeFile d.code with
    | none =>
      simp only [genActs]
      constructor
      · intro h; cases h
      · rintro ⟨_, _, _, _, _, _, h, _⟩; cases h
    | some code =>
      simp only
      have key := acts_work (e := w.ops) (ss := im.setString) (im.gen code main).acts (s := ⟨main, Builder.new⟩) openInv_new
      constructor
      · intro h
        unfold Printed.exit at h
        split at h
        case h_1 u hu =>
          cases h
          split at hu
          · cases hu
          · cases hu
          · rename_i s hs
            obtain ⟨k1, k2, k3⟩ := (key s).1 hs
            split at hu
            · rename_i hok
              split at hu
              · cases hu
              · rename_i b hb
                split at hu
                · rename_i text ht
                  refine ⟨main, s.main, code, b, text, rfl, rfl, hok, k2, k1, ⟨s.bb, k3, hb⟩, ht, ?_⟩
                  simp only [hs, hok, hb, ht]
                  rfl
                · cases hu
            · cases hu
        all_goals cases h
      · rintro ⟨m, main', c, b, text, hm, hcode, hok, k2, k1, ⟨bb, k3, hb⟩, ht, rfl⟩
        cases hm
        cases hcode
        rw [(key ⟨main', bb⟩).2 ⟨k1, k2, k3⟩]
        simp only [hok, hb, ht]
        rfl
  | _ =>
    constructor
    · intro h; cases h
    · rintro ⟨_, _, _, _, _, h, _⟩; cases h

theorem sources_append (im : ImpWorld) (today : Int) (d : ImpDef) (rd : Str → ReadRes SVal) (gs : List Str) (fs : List Str) : ∀ before,
    sourcesOf im today d rd before (fs ++ gs) = sourcesOf im today d rd before fs ++ sourcesOf im today d rd (before ++ fs) gs := by
  induction fs with
  | nil => intro before; simp [sourcesOf]
  | cons f fs ih => intro before; simp [sourcesOf, ih]

theorem loop_stops {srt : List Posting → List Posting} {dedup : Bool} {rc : Option Reclass} {f : Fmt} {main : Book} {s : Source} (hs : s.readable = false)
    (rest : List Source) (ss : List Source) : ∀ (prev : List Book) (t : Str), importLoop srt dedup rc f main prev ss = ⟨t, .ok ()⟩ →
      importLoop srt dedup rc f main prev (ss ++ s :: rest) = ⟨t, .err⟩ := by
  induction ss with
  | nil =>
    intro prev t h
    cases h
    rw [List.nil_append, importLoop, hs]
    rfl
  | cons x ss ih =>
    intro prev t h
    rw [importLoop] at h
    rw [List.cons_append, importLoop]
    split at h
    · rename_i hr
      rw [if_pos hr]
      split at h
      · rename_i b hp
        simp only at h ⊢
        split at h
        · rename_i t2 ht
          rw [Printed.mk.injEq] at h
          rw [ih (prev ++ [importOne srt dedup rc main prev b]) (importLoop srt dedup rc f main (prev ++ [importOne srt dedup rc main prev b]) ss).text
            (by rw [← h.2])]
          rw [← h.1]
        · cases h
      all_goals cases h
    · cases h

/-- C150: a file that is not there, or cannot be decoded, ends the import with status 1; printed is what the import of the files before it prints. -/
theorem c150_stops (w : World) (im : ImpWorld) (disk : Str → Option Str) (input : Str) (hdisk : ∀ before f, im.read before f = contents disk input before f)
    (a : AppConf) (lang : Str) (d : ImpDef) (rd : Str → ReadRes SVal) (hrd : importReader im.decode im.split d.fmt = some rd)
    (files : List Str) (f : Str) (rest : List Str) (t : Str) (hfiles : importFull w im a lang d files = .done 0 [.text t])
    (hf : ∀ text, contents disk input files f = some text → ∀ v, rd text ≠ .ok v) :
    importFull w im a lang d (files ++ f :: rest) = .done 1 [.text t] := by
  have hset : (if d.ccy = [] then { d with ccy := a.baseCCY } else d) = d.settled a := rfl
  have hsame : (d.settled a).fmt = d.fmt ∧ (d.settled a).dedup = d.dedup ∧ (d.settled a).reclassify = d.reclassify ∧ (d.settled a).acct = d.acct := by
    unfold ImpDef.settled; split <;> simp
  unfold importFull at hfiles ⊢
  rw [hset] at hfiles ⊢
  simp only [hsame, hrd] at hfiles ⊢
  unfold importCmd at hfiles ⊢
  cases hl : loadCmd w.files w.depth w.ops.srt a with
  | ok main =>
    rw [hl] at hfiles
    simp only at hfiles ⊢
    rw [sources_append, sourcesOf]
    have hbad : (sourceOf im w.ops.today (d.settled a) rd ([] ++ files) f).readable = false := by
      unfold sourceOf
      rw [hdisk, List.nil_append]
      cases hc : contents disk input files f with
      | none => rfl
      | some text =>
        simp only
        cases hr : rd text with
        | ok v => exact absurd hr (hf text hc v)
        | _ => rfl
    unfold Printed.exit at hfiles
    split at hfiles
    · rename_i u hu
      rw [Exit.done.injEq] at hfiles
      obtain ⟨-, h2⟩ := hfiles
      rw [List.cons.injEq, Exported.text.injEq] at h2
      rw [loop_stops hbad _ _ [] t (by rw [← h2.1, ← hu])]
      rfl
    all_goals cases hfiles
  | _ => rw [hl] at hfiles; cases hfiles

/-- C150 for the whole program. -/
theorem c150_program {keys : Keys} {head : List Str} {l : CmdLine} {d0 : ImpDef} (w : World) (im : ImpWorld) (him : WalksMap im)
    (hline : ImportLine w.flags keys head l d0) (hf : FileGood keys) (hb : ∀ m, Defined keys m → 32 ∉ m) (env : Option Str) (other : List Str → Conf → Exit)
    (disk : Str → Option Str) (input : Str) (hdisk : ∀ before f, im.read before f = contents disk input before f)
    (a : AppConf) (ha : a = appOf keys (l.flags (importFlagTable d0))) (d : ImpDef) (hd : d = importOf (l.flags (importFlagTable d0)) d0)
    (rd : Str → ReadRes SVal) (hrd : importReader im.decode im.split d.fmt = some rd) (out : List Exported) :
    goledgerMain w im env (some keys) other (head ++ l.text) = .done 0 out ↔
      ∃ main x bs ts, loadCmd w.files w.depth w.ops.srt a = .ok main ∧ FilesBook disk input im w.ops.today (d.settled a) rd [] l.words x ∧
        List.Forall₂ (fun x b => Built w.ops.srt x.2 b) x bs ∧
        List.Forall₂ (fun txns t => showTxns (bookFmt (w.lang (langOf env keys (l.flags (importFlagTable d0)))) w.print main) txns = some t)
          (importRun w.ops.srt d.dedup (if d.reclassify then some ⟨im.o1, im.o2, im.dist, d.acct⟩ else none) main [] bs) ts ∧
        out = [.text (importText x ts)] := by
  subst ha hd
  rw [importLine_full hline w rfl im him hf hb env other]
  exact c150_import w im disk input hdisk _ _ _ rd hrd _ out

/-- C150, generate: the same from the command line. -/
theorem c150_generate_program {keys : Keys} {head : List Str} {l : CmdLine} {d0 : GenDef} (w : World) (im : ImpWorld) (him : WalksMap im)
    (hline : GenerateLine w.flags keys head l d0) (hf : FileGood keys) (hb : ∀ m, GenDefined keys m → 32 ∉ m) (env : Option Str) (other : List Str → Conf → Exit)
    (a : AppConf) (ha : a = appOf keys (l.flags (genFlagTable d0))) (d : GenDef) (hd : d = generateOf (l.flags (genFlagTable d0)) d0) (out : List Exported) :
    goledgerMain w im env (some keys) other (head ++ l.text) = .done 0 out ↔
      ∃ main main' code b text, loadCmd w.files w.depth w.ops.srt a = .ok main ∧ fileOrStr im.codeFile d.code = some code ∧ (im.gen code main).ok = true ∧
        (∀ r ∈ addsOf (im.gen code main).acts, AddWorks im.setString w.ops.today r) ∧ LedgerAfter w.ops (im.gen code main).acts main main' ∧
        Built w.ops.srt ((addsOf (im.gen code main).acts).flatMap (addBookings im.setString w.ops.today b!"acct" b!"ccy" b!"cacct")) b ∧
        showTxns (bookFmt (w.lang (langOf env keys (l.flags (genFlagTable d0)))) w.print main')
          ((if d.dedup then b.removeDuplicatesOf w.ops.srt main' else b).transactions w.ops.srt) = some text ∧
        out = [.text ((im.gen code main).msgs.flatMap msgLine ++ text)] := by
  subst ha hd
  rw [generateLine_full hline w rfl im him hf hb env other]
  exact c150_generate w im _ _ _ out

/-! ## Examples -/

/-- The files of the examples: `f` on the disk; on the standard input another. -/
def scriptDisk (f : Str) : Option Str := if f = b!"f" then some b!"d\n1\n" else none

/-- A script that books its data: 25 halves, and 3 of another currency on a second account; and greets. -/
def scriptWorld : ImpWorld := { bankWorld with
  read := contents scriptDisk b!"d\n2\n"
  exec := fun _ _ f => ⟨[b!"from " ++ f], [⟨b!"2020-02-01", b!"Lunch", .int 25, none, some 2, none, some (.int 3), some b!"GBP", none, some b!"B", none,
    some b!"n", none⟩], true⟩ }

def scriptDef : ImpDef := ⟨⟨b!"csv", []⟩, b!"X", b!"A", b!"C", [], false, false⟩

example : addBookings (fun _ => none) 20200101 b!"A" b!"E" b!"C"
    ⟨b!"2020-02-01", b!"Lunch", .int 25, none, some 2, none, some (.int 3), some b!"GBP", none, some b!"B", none, some b!"n", none⟩ =
    [.newTransaction 20200201 b!"Lunch" b!"n", .addPosting b!"A" b!"E" (25 / 2) [], .addPosting b!"C" b!"E" (-(25 / 2)) [],
      .addPosting b!"B" b!"GBP" 3 [], .addPosting b!"C" b!"GBP" (-3) []] := by decide +kernel


example : (importFull zeroWorld scriptWorld (appOf bankToml []) b!"en" scriptDef [b!"f", b!"-"]).text? =
    some b!"; from f\n2020/02/01 Lunch  ; n\n  A  E 12\n  B  GBP 3.00\n  C  E -12\n  C  GBP -3.00\n\n; from -\n" := by decide +kernel

example : FilesBook scriptDisk b!"d\n2\n" scriptWorld 20200101 (scriptDef.settled (appOf bankToml [])) (fun _ => .ok (.str b!"x")) [] [b!"f", b!"-"]
    [([b!"from f"], addBookings scriptWorld.setString 20200101 b!"A" b!"E" b!"C"
        ⟨b!"2020-02-01", b!"Lunch", .int 25, none, some 2, none, some (.int 3), some b!"GBP", none, some b!"B", none, some b!"n", none⟩ ++ []),
      ([b!"from -"], addBookings scriptWorld.setString 20200101 b!"A" b!"E" b!"C"
        ⟨b!"2020-02-01", b!"Lunch", .int 25, none, some 2, none, some (.int 3), some b!"GBP", none, some b!"B", none, some b!"n", none⟩ ++ [])] := by
  have hw : ∀ r, r ∈ [(⟨b!"2020-02-01", b!"Lunch", .int 25, none, some 2, none, some (.int 3), some b!"GBP", none, some b!"B", none, some b!"n", none⟩ : RawAdd)] →
      AddWorks scriptWorld.setString 20200101 r := by
    intro r hr
    rw [List.mem_singleton] at hr
    subst hr
    exact ⟨by decide, ⟨25, rfl⟩, by decide, .inr ⟨⟨3, rfl⟩, by decide⟩⟩
  refine .cons _ _ _ _ _ _ ⟨b!"d\n1\n", _, b!"X", rfl, rfl, by decide +kernel, rfl, hw, rfl, ?_⟩
    (.cons _ _ _ _ _ _ ⟨b!"d\n2\n", _, b!"X", rfl, rfl, by decide +kernel, rfl, hw, rfl, ?_⟩ (.nil _))
  · have : (scriptDef.settled (appOf bankToml [])).ccy = b!"E" := by decide +kernel
    rw [this]; rfl
  · have : (scriptDef.settled (appOf bankToml [])).ccy = b!"E" := by decide +kernel
    rw [this]; rfl

/-- A file that is not there: printed is what the file before it gives. -/
example : ∃ t, importFull zeroWorld scriptWorld (appOf bankToml []) b!"en" scriptDef [b!"f"] = .done 0 [.text t] ∧
    importFull zeroWorld scriptWorld (appOf bankToml []) b!"en" scriptDef [b!"f", b!"g", b!"-"] = .done 1 [.text t] := by
  have h : (importFull zeroWorld scriptWorld (appOf bankToml []) b!"en" scriptDef [b!"f"]).text?.isSome = true := by decide +kernel
  obtain ⟨out, ho⟩ : ∃ out, importFull zeroWorld scriptWorld (appOf bankToml []) b!"en" scriptDef [b!"f"] = .done 0 out := by
    generalize importFull zeroWorld scriptWorld (appOf bankToml []) b!"en" scriptDef [b!"f"] = x at h
    unfold Exit.text? at h
    split at h
    · exact ⟨_, rfl⟩
    · cases h
  obtain ⟨_, _, _, _, -, -, -, -, rfl⟩ := (c150_import zeroWorld scriptWorld scriptDisk b!"d\n2\n" (fun _ _ => rfl) _ _ _ _ rfl _ _).1 ho
  refine ⟨_, ho, c150_stops zeroWorld scriptWorld scriptDisk b!"d\n2\n" (fun _ _ => rfl) _ _ _ _ rfl [b!"f"] b!"g" [b!"-"] _ ho ?_⟩
  intro t h; cases h

/-- Generating: a script that cuts the ledger and books. -/
example : LedgerAfter againOps [.read, .since b!"2020-01-03", .add ⟨b!"2020-02-01", b!"Lunch", .int 25, none, none, none, none, none, none, none, none, none, none⟩]
    ⟨[], [], [], []⟩ ((Book.mk [] [] [] []).compact againOps.srt |>.filterByDateSince 20200103) :=
  .read _ _ _ (.since _ _ _ _ _ (by decide) rfl (.add _ _ _ _ (.nil _)))

end Verif
