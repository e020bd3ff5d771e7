import Verif.Model.ListCmds
import Verif.Spec.ListCmds
import Verif.Props.Ops2
import Verif.Props.AcctNames
import Verif.Props.File
import Verif.Props.RegText
import Verif.Props.ExportCmd
import Verif.Props.ImportCmd

/-! # C112, C113: the commands `accts` and `ccy` -/

namespace Verif
open Spec

theorem booked_post : ∀ (cs : List Call) (b b' : Builder), b.calls cs = some b' → ∀ a c,
    acctTotal a c b'.post = acctTotal a c b.post + bookedTotal a c cs := by
  intro cs
  induction cs with
  | nil => intro b b' h a c; cases h; simp [bookedTotal]
  | cons x cs ih =>
    intro b b' h a c
    unfold Builder.calls at h
    split at h
    · cases h
    · rename_i b1 hx
      rw [ih b1 b' h a c]
      cases x with
      | newTransaction d py n =>
        have : b1.post = b.post := by
          simp only [Builder.call] at hx
          unfold Builder.newTransaction at hx
          split at hx
          · cases hx
          · rename_i b2 h2
            split at hx
            · cases hx
            · cases hx
              unfold Builder.checkAndClear at h2
              split at h2
              · cases h2; rfl
              · cases h2
        rw [this]; simp [bookedTotal]
      | addPosting a' c' v n =>
        simp only [Builder.call, Option.some.injEq] at hx
        subst hx
        simp only [bookedTotal, Builder.addPosting, acctTotal, total_append, total_cons, total_nil, decide_eq_true_eq]
        ring
      | addPrice d u c' v =>
        simp only [Builder.call, Option.some.injEq] at hx
        subst hx
        simp [bookedTotal, Builder.addPrice]

/-- What is reported of an account is what was booked to it. -/
theorem built_acctTotal {srt : List Posting → List Posting} (hs : IsSort srt) {cs : List Call} {b : Book} (h : Built srt cs b) (a c : Str) :
    acctTotal a c (reported srt b) = bookedTotal a c cs := by
  obtain ⟨bb, h1, h2⟩ := h
  have hw := (built_balanced hs h1 h2).1
  have hp := (builder_post cs bb h1).2
  have e := booked_post cs _ _ h1 a c
  have e0 : acctTotal a c Builder.new.post = 0 := by simp [Builder.new, acctTotal, total]
  rw [e0, zero_add] at e
  rw [← e]
  unfold acctTotal
  have hk : KeyFun (fun p : Posting => decide (p.acct = a ∧ p.ccy = c)) := keyFun_of (fun _ _ x y => decide (x = a ∧ y = c))
  rw [total_reported hs hk hw]
  unfold Builder.build Builder.checkAndClear at h2
  split at h2
  · cases h2
  · rename_i b2 hb2
    split at hb2
    · cases hb2
      cases h2
      exact total_compact hs hk _
    · cases hb2

theorem built_compact {srt : List Posting → List Posting} (hs : IsSort srt) {cs : List Call} {b : Book} (h : Built srt cs b) : b.compact srt = b := by
  obtain ⟨bb, h1, h2⟩ := h
  have hp := (builder_post cs bb h1).2
  unfold Builder.build Builder.checkAndClear at h2
  split at h2
  · cases h2
  · rename_i b2 hb2
    split at hb2
    · cases hb2
      cases h2
      exact c07_read_twice srt srt hs hs _ hp
    · cases hb2


theorem accts_ok {le : Env} {depth : Nat} {e : OpEnv} {a : AppConf} {arg : Option Str} {l : List Str} (h : acctsCmd le depth e a arg = .ok l) :
    ∃ b, loadBook e.srt le depth a.ledger = .ok b ∧ l = b.accounts (e.mat (arg.getD b!"^.*$")) (!a.all) := by
  unfold acctsCmd at h
  obtain ⟨b, h0, h1⟩ := bind_ok h
  simp only at h1
  split at h1
  · cases h1
    unfold loadCmd at h0
    split at h0 <;> cases h0
    rename_i hb
    exact ⟨b, hb, rfl⟩
  · cases h1

theorem moved_iff {srt : List Posting → List Posting} (hs : IsSort srt) {cs : List Call} {b : Book} (h : Built srt cs b) (acct : Str) :
    (∃ p ∈ reported srt b, p.acct = acct) ↔ Moved acct cs := by
  obtain ⟨bb, h1, h2⟩ := h
  have w := (built_balanced hs h1 h2).1
  obtain ⟨names, hf, _, he⟩ := c02_book_entries srt hs cs bb b h1 h2
  constructor
  · rintro ⟨p, hp, rfl⟩
    refine ⟨names, hf, p.date, p.payee, p.ccy, ?_⟩
    rw [← he]
    have hm := (book_lines hs w (line p)).1 (List.mem_map.2 ⟨p, hp, rfl⟩)
    have h2 : entryTotal p.date p.payee p.acct p.ccy (reported srt b) = entryTotal p.date p.payee p.acct p.ccy b.post :=
      total_reported hs (keyFun_of fun d' py' a' c' => decide (d' = p.date ∧ py' = p.payee ∧ a' = p.acct ∧ c' = p.ccy)) w
    show entryTotal p.date p.payee p.acct p.ccy (reported srt b) ≠ 0
    rw [h2]
    have e2 : entryTotal p.date p.payee p.acct p.ccy b.post = p.val := hm.2
    rw [e2]
    exact hm.1
  · rintro ⟨names', hf', d, py, c, hne⟩
    obtain rfl := c02_one_filing hf hf'
    rw [← he] at hne
    by_contra hno
    apply hne
    show entryTotal d py acct c (reported srt b) = 0
    unfold entryTotal
    rw [total_congr (Q := fun _ => false), total_false]
    intro p hp
    have : ¬ p.acct = acct := fun e => hno ⟨p, hp, e⟩
    simp [this]


/-- **C112** with `--all`: the accounts listed are those, among the accounts matching the expression, that some transaction of the file books on;
each once, in order. -/
theorem c112_all {le : Env} (he : le.Ok) (hl : PlainLetters le) {fs : Str → Option (List FileLine)} (hd : OnDisk le fs) {ls : List FileLine}
    (depth : Nat) (e : OpEnv) (hs : IsSort e.srt) (a : AppConf) (hf : fs a.ledger = some ls) (ha : a.all = true) (arg : Option Str) (l : List Str)
    (h : acctsCmd le depth e a arg = .ok l) :
    ∃ cs, FileSays fs le.join a.ledger [] [] ls cs ∧ l.Pairwise (· < ·) ∧
      ∀ acct, acct ∈ l ↔ e.mat (arg.getD b!"^.*$") acct = true ∧ Moved acct cs := by
  obtain ⟨b, hb, rfl⟩ := accts_ok h
  obtain ⟨cs, h1, h2, _⟩ := c96_loaded_book he hl hd hf hb
  refine ⟨cs, h1, ?_, ?_⟩
  · have := (c18_accounts_partial e.srt hs 0 b (h2.reachable 0) (e.mat (arg.getD b!"^.*$"))).1 (!a.all)
    rw [built_compact hs h2] at this
    exact this
  · intro acct
    have := (c18_accounts_partial e.srt hs 0 b (h2.reachable 0) (e.mat (arg.getD b!"^.*$"))).2.1 acct
    rw [built_compact hs h2, moved_iff hs h2] at this
    rw [ha]
    exact this

theorem reported_booked {srt : List Posting → List Posting} (hs : IsSort srt) {cs : List Call} {b : Book} (h : Built srt cs b) {p : Posting}
    (hp : p ∈ reported srt b) : BookedIn p.acct p.ccy cs := by
  obtain ⟨bb, h1, h2⟩ := h
  have w := (built_balanced hs h1 h2).1
  have he := c03_built_amounts srt hs cs bb b h1 h2 p.date p.payee p.acct p.ccy
  have hm := (book_lines hs w (line p)).1 (List.mem_map.2 ⟨p, hp, rfl⟩)
  have h3 : entryTotal p.date p.payee p.acct p.ccy (reported srt b) = entryTotal p.date p.payee p.acct p.ccy b.post :=
    total_reported hs (keyFun_of fun d' py' a' c' => decide (d' = p.date ∧ py' = p.payee ∧ a' = p.acct ∧ c' = p.ccy)) w
  have h4 : entrySum p.date p.payee p.acct p.ccy (entries (-1, []) (issued Builder.new cs) cs) ≠ 0 := by
    rw [← he]
    show entryTotal p.date p.payee p.acct p.ccy (reported srt b) ≠ 0
    rw [h3]
    have e2 : entryTotal p.date p.payee p.acct p.ccy b.post = p.val := hm.2
    rw [e2]
    exact hm.1
  unfold entrySum at h4
  cases hfl : (entries (-1, []) (issued Builder.new cs) cs).filter (fun e => decide (e.date = p.date ∧ e.payee = p.payee ∧ e.acct = p.acct ∧ e.ccy = p.ccy)) with
  | nil => rw [hfl] at h4; simp at h4
  | cons x xs =>
    have hx : x ∈ (entries (-1, []) (issued Builder.new cs) cs).filter (fun e => decide (e.date = p.date ∧ e.payee = p.payee ∧ e.acct = p.acct ∧ e.ccy = p.ccy)) := by
      rw [hfl]; simp
    rw [List.mem_filter, decide_eq_true_eq] at hx
    obtain ⟨hx1, _, _, hx2, hx3⟩ := hx
    obtain ⟨n, hn⟩ := entries_calls cs _ _ x hx1
    rw [hx2, hx3] at hn
    exact ⟨x.amt, n, hn⟩

/-- **C112** without `--all` (partial: accounts booked on in one currency only; for the others see `c112_balance_fails` and `c18_accounts_exact`): the
account is listed if it matches and what the file books on it is not zero altogether; each once, in order. -/
theorem c112_balance_partial {le : Env} (he : le.Ok) (hl : PlainLetters le) {fs : Str → Option (List FileLine)} (hd : OnDisk le fs) {ls : List FileLine}
    (depth : Nat) (e : OpEnv) (hs : IsSort e.srt) (a : AppConf) (hf : fs a.ledger = some ls) (ha : a.all = false) (arg : Option Str) (l : List Str)
    (h : acctsCmd le depth e a arg = .ok l) :
    ∃ cs, FileSays fs le.join a.ledger [] [] ls cs ∧ l.Pairwise (· < ·) ∧
      (∀ acct ∈ l, e.mat (arg.getD b!"^.*$") acct = true ∧ ∃ c, bookedTotal acct c cs ≠ 0) ∧
      ∀ acct c, (∀ c', BookedIn acct c' cs → c' = c) →
        (acct ∈ l ↔ e.mat (arg.getD b!"^.*$") acct = true ∧ bookedTotal acct c cs ≠ 0) := by
  obtain ⟨b, hb, rfl⟩ := accts_ok h
  obtain ⟨cs, h1, h2, _⟩ := c96_loaded_book he hl hd hf hb
  obtain ⟨k1, _, k3⟩ := c18_accounts_partial e.srt hs 0 b (h2.reachable 0) (e.mat (arg.getD b!"^.*$"))
  have k4 := c18_accounts_exact e.srt hs 0 b (h2.reachable 0) (e.mat (arg.getD b!"^.*$"))
  rw [built_compact hs h2] at k1 k3 k4
  rw [ha]
  refine ⟨cs, h1, k1 _, ?_, ?_⟩
  · intro acct hm
    obtain ⟨m1, _, p, _, _, _, _, m2⟩ := (k4 acct).1 hm
    rw [built_acctTotal hs h2] at m2
    exact ⟨m1, p.ccy, m2⟩
  · intro acct c hc
    rw [← built_acctTotal hs h2]
    exact k3 acct c (fun p hp hpa => hc p.ccy (hpa ▸ reported_booked hs h2 hp))

/-- **C112**: without an expression every account is meant, for the names a ledger can have, if `^.*$` matches every text without line breaks. -/
theorem c112_no_argument {le : Env} (he : le.Ok) (hl : PlainLetters le) {fs : Str → Option (List FileLine)} (hd : OnDisk le fs) {ls : List FileLine}
    (depth : Nat) (e : OpEnv) (hs : IsSort e.srt) (hdot : ∀ s, 10 ∉ s → e.mat b!"^.*$" s = true) (a : AppConf) (hf : fs a.ledger = some ls)
    (ha : a.all = true) (l : List Str) (h : acctsCmd le depth e a none = .ok l) :
    ∃ cs, FileSays fs le.join a.ledger [] [] ls cs ∧ ∀ acct, acct ∈ l ↔ Moved acct cs := by
  obtain ⟨b, hb, hlb⟩ := accts_ok h
  obtain ⟨cs, h1, h2, _⟩ := c96_loaded_book he hl hd hf hb
  refine ⟨cs, h1, fun acct => ?_⟩
  have := (c18_accounts_partial e.srt hs 0 b (h2.reachable 0) (e.mat b!"^.*$")).2.1 acct
  rw [built_compact hs h2] at this
  rw [hlb, ha]
  show acct ∈ b.accounts (e.mat b!"^.*$") false ↔ _
  rw [this, ← moved_iff hs h2, and_iff_right_of_imp]
  rintro ⟨p, hp, rfl⟩
  apply hdot
  intro h10
  have hw := (h2.wf hs).1
  have hpost : p ∈ b.post := by
    have : b.post = reported e.srt b := by
      have e1 : (b.compact e.srt).post = reported e.srt b := by rw [reported_eq hs hw, compact_post b (srt_nil hs)]
      rw [built_compact hs h2] at e1; exact e1
    rw [this]; exact hp
  have := c77_accounts_plain_partial e.srt hs le depth a.ledger b hb p hpost 10 h10
  revert this
  decide


theorem plain_ascii {s : Str} (h : PlainName s) : ∀ c ∈ s, 32 ≤ c ∧ c ≤ 126 := by
  intro c hc
  rcases h c hc with h | h | h | h | h | h | h <;> omega

theorem accts_plain {le : Env} {depth : Nat} {e : OpEnv} (hs : IsSort e.srt) {a : AppConf} {arg : Option Str} {l : List Str}
    (h : acctsCmd le depth e a arg = .ok l) : ∀ s ∈ l, PlainName s := by
  obtain ⟨b, hb, rfl⟩ := accts_ok h
  intro s hm
  have hp := c77_accounts_plain_partial e.srt hs le depth a.ledger b hb
  unfold Book.accounts at hm
  simp only at hm
  rw [(sortStr_sorted _ ((List.nodup_dedup _).filter _)).2, List.mem_filter, List.mem_dedup, List.mem_map] at hm
  obtain ⟨⟨p, hpm, rfl⟩, _⟩ := hm
  exact hp p (List.mem_filter.1 hpm).1

/-- **C112**: the list is printed whole, whatever the width of the terminal: a heading, then an account on each line. -/
theorem c112_text (le : Env) (depth : Nat) (e : OpEnv) (hs : IsSort e.srt) (a : AppConf) (arg : Option Str) (l : List Str)
    (h : acctsCmd le depth e a arg = .ok l) (prt : Nat → Bool) (hp : AsciiPrint prt) (termWidth : Int) (colour : Bool) :
    ∃ lines, acctsText prt termWidth colour l = some lines ∧ OneColumn b!"Account" l (lines.map plain) := by
  have hpl := accts_plain hs h
  have hbl : IsCode ansiBlueUL := ⟨b!"[4;34", by decide, rfl⟩
  have hcols : ([Cell.str (ansi colour ansiBlueUL b!"Account")] :: l.map fun s => [Cell.str s]).map (fun r => r.map (cellCol prt)) =
      (b!"Account" :: l).map fun s => [ColText.left s] := by
    rw [List.map_cons, List.map_cons, List.map_map]
    congr 1
    · show [cellCol prt (.str (ansi colour ansiBlueUL b!"Account"))] = _
      rw [cellCol, plain_ansi colour hbl (by decide), ascii_self hp (by decide)]
    · apply List.map_congr_left
      intro s hm
      have ha := plain_ascii (hpl s hm)
      have h27 : 27 ∉ s := fun hm => by have := ha _ hm; omega
      show [cellCol prt (.str s)] = _
      rw [cellCol, plain_self h27, ascii_self hp ha]
  have hws : Widest ((b!"Account" :: l).map fun s => [ColText.left s]) (widest ((b!"Account" :: l).map fun s => [ColText.left s])) :=
    widest_spec _ 1 (by simp) (by
      intro r hr
      obtain ⟨s, _, rfl⟩ := List.mem_map.1 hr
      rfl)
  generalize widest ((b!"Account" :: l).map fun s => [ColText.left s]) = ws at hws
  have hlen : ws.length = 1 := (hws.1 [ColText.left b!"Account"] (by simp)).symm
  obtain ⟨w, rfl⟩ := List.length_eq_one_iff.1 hlen
  obtain ⟨lines, ws', t1, t2, t3, t4⟩ := table_plain prt ((hp 32 (by omega)).2 (by omega)) 0 [Cell.str (ansi colour ansiBlueUL b!"Account")] (l.map fun s => [Cell.str s])
    [false] [w] (by rw [hcols]; exact hws) (by simp) (by simp) (by
      intro r hr c hc
      rcases List.mem_cons.1 hr with rfl | hr
      · rw [List.mem_singleton] at hc
        subst hc
        exact ⟨terminated_ansi colour hbl (by decide), trivial⟩
      · obtain ⟨s, hm, rfl⟩ := List.mem_map.1 hr
        rw [List.mem_singleton] at hc
        subst hc
        have ha := plain_ascii (hpl s hm)
        exact ⟨terminated_plain (fun hm => by have := ha _ hm; omega), trivial⟩) (by
      intro r hr j c hj hc
      have : c.isMoney = false := by
        rcases List.mem_cons.1 hr with rfl | hr
        · have := List.mem_of_getElem? hj
          rw [List.mem_singleton] at this
          rw [this]; rfl
        · obtain ⟨s, hm, rfl⟩ := List.mem_map.1 hr
          have := List.mem_of_getElem? hj
          rw [List.mem_singleton] at this
          rw [this]; rfl
      rw [this] at hc; cases hc) (by simp) (by simp)
  have hlay : ∀ w1 : Int, layout termWidth [w1] [false] = layout 0 [w1] [false] := by
    intro w1; simp [layout, shrinkSums]
  have hsame : acctsText prt termWidth colour l = acctsText prt 0 colour l := by
    unfold acctsText printColumns
    simp only [initWidths]
    split
    · rfl
    · rename_i ws hws
      have hlen := (widen_spec prt hws).1
      obtain ⟨w1, rfl⟩ := List.length_eq_one_iff.1 (hlen.trans (by simp))
      rw [hlay]
  refine ⟨lines, ?_, w, ?_, ?_, ?_⟩
  · rw [hsame, ← t1]
    unfold acctsText
    simp [List.map_map, Function.comp_def]
  · intro s hm
    obtain ⟨h1, _⟩ := hws.2 0 w rfl
    exact h1 [ColText.left s] (List.mem_map.2 ⟨s, hm, rfl⟩) (ColText.left s) rfl
  · obtain ⟨_, r, hr, c, hc, hcs⟩ := hws.2 0 w rfl
    obtain ⟨s, hm, rfl⟩ := List.mem_map.1 hr
    simp only [List.getElem?_cons_zero, Option.some.injEq] at hc
    subst hc
    exact ⟨s, hm, hcs⟩
  · have hw' : ws' = [w] := by
      obtain ⟨n1, n2⟩ := t2
      obtain ⟨w', rfl⟩ := List.length_eq_one_iff.1 (by rw [n1]; rfl : ws'.length = 1)
      rw [(n2 0 w w' rfl rfl).2 rfl]
    subst hw'
    rw [t4]
    have : (([Cell.str (ansi colour ansiBlueUL b!"Account")] :: l.map fun s => [Cell.str s]).map fun r => spaced (List.zipWith ColText.on [w] (r.map (cellCol prt))) ++ [10]) =
        (([Cell.str (ansi colour ansiBlueUL b!"Account")] :: l.map fun s => [Cell.str s]).map (fun r => r.map (cellCol prt))).map fun r => spaced (List.zipWith ColText.on [w] r) ++ [10] := by
      rw [List.map_map]; rfl
    rw [this, hcols, List.map_map]
    apply List.map_congr_left
    intro s hm
    obtain ⟨h1, _⟩ := hws.2 0 w rfl
    have hle : s.length ≤ w := h1 [ColText.left s] (List.mem_map.2 ⟨s, hm, rfl⟩) (ColText.left s) rfl
    simp [spaced, ColText.on, List.take_of_length_le hle]

/-- A file after which `A` holds one euro and no dollars. -/
def euroFile : Str :=
  b!"2020/01/01 x\n  A 1 EUR\n  B -1 EUR\n2020/01/02 x\n  A 1 USD\n  B -1 USD\n2020/01/03 x\n  A -1 USD\n  B 1 USD\n"

/-- Any expression matches. -/
def anyOps : OpEnv := { plainOps with mat := fun _ _ => true }

/-- **C112** is false without `--all`: an account that holds euros is not listed, since its last posting is in dollars, of which it holds none. -/
theorem c112_balance_fails : ¬ ∀ (le : Env) (depth : Nat) (e : OpEnv) (_ : IsSort e.srt) (a : AppConf) (arg : Option Str) (l : List Str) (b : Book),
    a.all = false → acctsCmd le depth e a arg = .ok l → loadCmd le depth e.srt a = .ok b →
    ∀ acct, acct ∈ l ↔ e.mat (arg.getD b!"^.*$") acct = true ∧ ∃ c, acctTotal acct c b.post ≠ 0 := by
  intro h
  have hl : (match acctsCmd (demoEnv [(b!"a", euroFile)]) 1 anyOps demoApp none, loadCmd (demoEnv [(b!"a", euroFile)]) 1 insSort demoApp with
      | .ok l, .ok b => decide (l = []) && decide (acctTotal b!"A" b!"EUR" b.post = 1)
      | _, _ => false) = true := by decide +kernel
  cases hr : acctsCmd (demoEnv [(b!"a", euroFile)]) 1 anyOps demoApp none with
  | ok l =>
    cases hb : loadCmd (demoEnv [(b!"a", euroFile)]) 1 insSort demoApp with
    | ok b =>
      rw [hr, hb] at hl
      simp only [Bool.and_eq_true, decide_eq_true_eq] at hl
      have := (h (demoEnv [(b!"a", euroFile)]) 1 anyOps insSort_isSort demoApp none l b rfl hr hb b!"A").2 ⟨rfl, b!"EUR", by rw [hl.2]; decide⟩
      rw [hl.1] at this
      cases this
    | err => rw [hr, hb] at hl; cases hl
    | crash => rw [hr, hb] at hl; cases hl
    | diverge => rw [hr, hb] at hl; cases hl
    | fatal => rw [hr, hb] at hl; cases hl
  | err => rw [hr] at hl; cases hl
  | crash => rw [hr] at hl; cases hl
  | diverge => rw [hr] at hl; cases hl
  | fatal => rw [hr] at hl; cases hl

/-- **C113**: whatever the order in which the map is walked, `ccy` prints a line for each currency the file books in and no other, once each; with it
the decimals that every language prints amounts in that currency with, which are the fewest for which no amount written in the file has a greater
denominator. -/
theorem c113_currencies {le : Env} (he : le.Ok) (hl : PlainLetters le) {fs : Str → Option (List FileLine)} (hd : OnDisk le fs) {ls : List FileLine}
    (depth : Nat) (e : OpEnv) (a : AppConf) (hf : fs a.ledger = some ls) (walk : List (Str × Nat) → List (Str × Nat))
    (hw : ∀ m, (walk m).Perm m) (text : Str) (h : ccyCmd le depth e a walk = .ok text) :
    ∃ cs b, FileSays fs le.join a.ledger [] [] ls cs ∧ loadCmd le depth e.srt a = .ok b ∧ ∃ l : List (Str × Nat),
      text = (l.map fun kv => ccyLine kv.1 kv.2).flatten ∧ (l.map (·.1)).Nodup ∧ (∀ c, c ∈ l.map (·.1) ↔ ∃ acct, BookedIn acct c cs) ∧
      ∀ c d, (c, d) ∈ l →
        (∀ (lang : Lang) (x : PrintEnv), decimalsOf (bookFmt lang x b) c = d) ∧
        (∀ acct v n, Call.addPosting acct c v n ∈ cs → v.den ≤ 10 ^ d) ∧
        ∀ k, (∀ acct v n, Call.addPosting acct c v n ∈ cs → v.den ≤ 10 ^ k) → d ≤ k := by
  unfold ccyCmd at h
  obtain ⟨b, h0, h1⟩ := bind_ok h
  cases h1
  have hb : loadBook e.srt le depth a.ledger = .ok b := by
    unfold loadCmd at h0
    split at h0 <;> cases h0
    rename_i hb
    exact hb
  obtain ⟨cs, k1, k2, _⟩ := c96_loaded_book he hl hd hf hb
  refine ⟨cs, b, k1, h0, walk b.ccy, ?_, ?_, ?_, ?_⟩
  · rw [List.flatMap_def]; rfl
  all_goals
    obtain ⟨bb, b1, b2⟩ := k2
    obtain ⟨m1, m2, m3⟩ := c19_decimals_partial e.srt cs bb b b1 b2
  · exact (((hw b.ccy).map (·.1)).nodup_iff).2 m1
  · intro c
    rw [((hw b.ccy).map (·.1)).mem_iff, m2]
    constructor
    · rintro ⟨p, hp, hc⟩
      obtain ⟨acct, n, hn⟩ := (post_calls b1 c p.val).1 ⟨p, hp, hc, rfl⟩
      exact ⟨acct, p.val, n, hn⟩
    · rintro ⟨acct, v, n, hn⟩
      obtain ⟨p, hp, hc, _⟩ := (post_calls b1 c v).2 ⟨acct, n, hn⟩
      exact ⟨p, hp, hc⟩
  · intro c d hcd
    have hcd := (hw b.ccy).mem_iff.1 hcd
    have hdec : ∀ (lang : Lang) (x : PrintEnv), decimalsOf (bookFmt lang x b) c = d := by
      intro lang x
      have hdec : decimalsOf (bookFmt lang x b) c = ((b.ccy.find? fun kv => decide (kv.1 = c)).map (·.2)).getD 2 := rfl
      rw [hdec, find_decimals m1 hcd]; rfl
    obtain ⟨n1, n2, _⟩ := m3 c d hcd
    refine ⟨hdec, ?_, ?_⟩
    · intro acct v n hv
      obtain ⟨p, hp, e1, e2⟩ := (post_calls b1 c v).2 ⟨acct, n, hv⟩
      have := n1 p hp e1
      rw [e2] at this
      exact this
    · intro k hk
      apply n2
      intro p hp hc
      obtain ⟨acct, n, hv⟩ := (post_calls b1 c p.val).1 ⟨p, hp, hc, rfl⟩
      exact hk acct p.val n hv

/-! The demonstration files meet the hypotheses. -/

def mainApp (all : Bool) : AppConf := { demoApp with ledger := b!"main", all := all }

example : (match acctsCmd demoDiskEnv 2 anyOps (mainApp true) none with | .ok l => l | _ => []) = [b!"Assets:Cash", b!"Bank", b!"Equity"] := by decide +kernel
example : (match acctsCmd demoDiskEnv 2 anyOps (mainApp false) (some b!"x") with | .ok l => l | _ => []) = [b!"Assets:Cash", b!"Bank", b!"Equity"] := by
  decide +kernel
example : (match acctsCmd demoDiskEnv 2 plainOps (mainApp false) (some b!"Bank") with | .ok l => l | _ => []) = [b!"Bank"] := by decide +kernel
example : ∃ cs, FileSays demoDisk demoDiskEnv.join b!"main" [] [] demoMain cs ∧
    ∀ acct, acct ∈ [b!"Assets:Cash", b!"Bank", b!"Equity"] ↔ Moved acct cs := by
  have h : (match acctsCmd demoDiskEnv 2 anyOps (mainApp true) none with | .ok l => l | _ => []) = [b!"Assets:Cash", b!"Bank", b!"Equity"] := by decide +kernel
  cases hr : acctsCmd demoDiskEnv 2 anyOps (mainApp true) none with
  | ok l =>
    rw [hr] at h
    simp only at h
    subst h
    exact c112_no_argument (demoEnv_ok _) (demo_letters _) demo_disk 2 anyOps insSort_isSort (fun _ _ => rfl) (mainApp true) rfl rfl _ hr
  | err => rw [hr] at h; cases h
  | crash => rw [hr] at h; cases h
  | diverge => rw [hr] at h; cases h
  | fatal => rw [hr] at h; cases h
example : (match ccyCmd demoDiskEnv 2 anyOps (mainApp true) List.reverse with | .ok t => t | _ => []) = b!"a b => 0 decimals\n$ => 1 decimals\n" := by
  decide +kernel
example : (acctsText asciiPrt 80 false [b!"Bank", b!"Equity"]).map List.flatten = some b!"Account\nBank   \nEquity \n" := by decide +kernel

/-- **C112**, `--json`: the list as an array of strings, one for each account listed. -/
theorem c112_json (l : List Str) :
    ∃ js, acctsJSON l = .arr js ∧ js.length = l.length ∧ ∀ i, (hi : i < l.length) → js[i]? = some (.str l[i]) := by
  refine ⟨_, rfl, by simp, ?_⟩
  intro i hi
  simp [hi]

end Verif
