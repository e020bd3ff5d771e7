import Verif.Props.Commands
import Verif.Props.AcctNames
import Verif.Props.Register

/-! # C87: whole registers -/

namespace Verif
open Spec

theorem goodTxns_of_good {srt : List Posting → List Posting} (hs : IsSort srt) {b : Book} (h : b.Good) :
    ∀ t ∈ b.transactions srt, GoodTxn t := by
  intro t ht
  have hc : Canonical (b.transactions srt) := compact_canonical hs h.1
  have hr := good_op hs h (o := .read) (today := 0) rfl
  exact ⟨hc.oneTxn t ht, hc.postOrder t ht, hc.nonzero t ht, wf_balanced_trans hr.1 hr.2 t ht⟩

/-- Everything about a register that was produced, for any balanced book. -/
theorem register_spec_some {srt : List Posting → List Posting} (hs : IsSort srt) {b : Book} (hg : b.Good)
    {base : Str} {mat : Str → Bool} {split : Bool} {rows : List RegEntry} (h : b.extractRegister srt base mat split = some rows) :
    ∃ groups, rows = List.flatten groups ∧ RunFrom [] groups.flatten ∧
      List.Forall₂ (GroupOK b.prices base split) (matching mat (b.transactions srt)) groups := by
  unfold Book.extractRegister at h
  obtain ⟨x, hx, hrows⟩ := Option.map_eq_some_iff.1 h
  have hans := regAll_answers _ _ _ (goodTxns_of_good hs hg) hx
  obtain ⟨s', groups, h1, h2, h3, h4⟩ := regAll_spec (prices := b.prices) (base := base) (mat := mat) (split := split)
    (b.transactions srt) ⟨[], 0⟩ [] (goodTxns_of_good hs hg) hans ⟨fun c => by simp [amtAt, amtFind, rowTotal], by simp [baseTotal]⟩
  rw [h1] at hx
  cases hx
  exact ⟨groups, hrows.symm, h3, h4⟩

/-- What is assumed of the regular expression engine: an anchored expression of ordinary characters
matches exactly itself. -/
def LiteralNames (e : OpEnv) : Prop := ∀ s, PlainName s → ∀ x, e.mat ([94] ++ s ++ [36]) x = decide (x = s)

theorem orCrash_ok {α : Type} {x : Option α} {a : α} (h : CmdEnd.orCrash x = .ok a) : x = some a := by
  cases x <;> simp only [CmdEnd.orCrash] at h <;> cases h
  rfl

/-- One register: the matching postings, in order, each with its rows; running balances; the totals of
the matching accounts; then the window of dates and the choice of rows. -/
theorem registerRows_ok {e : OpEnv} (hs : IsSort e.srt) {a : AppConf} {r : RegisterConf} {mat : Str → Bool} {b : Book} (hg : b.Good)
    {rows : List (Option RegEntry)} (h : registerRows e a r mat b = .ok rows) :
    ∃ groups win, List.Forall₂ (fun tp g => RowsFor r.split tp.1 tp.2 g ∧ AmountsFor r.split tp.1 tp.2 g) (matching mat (b.transactions e.srt)) groups ∧
      (∀ pre x post, groups.flatten = pre ++ x :: post →
        x.balance = rowTotal x.ccy (pre ++ [x]) ∧ x.baseBalance = baseTotal (pre ++ [x])) ∧
      (∀ c, rowTotal c groups.flatten = total (fun p => mat p.acct && decide (p.ccy = c)) (reported e.srt b)) ∧
      filterByDateStr e.today r.beginDate r.endDate groups.flatten = some win ∧ rows = showRows r.count r.asc win := by
  unfold registerRows at h
  have h := orCrash_ok h
  obtain ⟨win, hw, hrows⟩ := Option.map_eq_some_iff.1 h
  obtain ⟨all, hall, hwin⟩ := Option.bind_eq_some_iff.1 hw
  obtain ⟨groups, rfl, h2, h3⟩ := register_spec_some hs hg hall
  refine ⟨groups, win, h3.imp (fun _ _ h => ⟨h.rows, h.amounts⟩), ?_, fun c => matching_total _ _ h3 c, hwin, hrows.symm⟩
  intro pre x post ex
  simpa using runFrom_get h2 pre x post ex

theorem registerSections_ok {e : OpEnv} {a : AppConf} {r : RegisterConf} {b : Book} : ∀ (accts : List Str)
    (secs : List (Str × List (Option RegEntry))), registerSections e a r b accts = .ok secs →
    secs.map (·.1) = accts ∧ ∀ s ∈ secs, registerRows e a r (e.mat ([94] ++ s.1 ++ [36])) b = .ok s.2 := by
  intro accts
  induction accts with
  | nil => intro secs h; simp only [registerSections] at h; cases h; exact ⟨rfl, by simp⟩
  | cons ac accts ih =>
    intro secs h
    simp only [registerSections] at h
    split at h
    · obtain ⟨rows, h1, h2⟩ := bind_ok h
      obtain ⟨rest, h3, h4⟩ := bind_ok h2
      cases h4
      obtain ⟨i1, i2⟩ := ih rest h3
      refine ⟨by simp [i1], ?_⟩
      intro s hs
      rcases List.mem_cons.1 hs with e | e
      · rw [e]; exact h1
      · exact i2 s e
    · cases h

/-- The book the register is taken from. -/
def registerBook (le : Env) (depth : Nat) (e : OpEnv) (fuel : Nat) (a : AppConf) (r : RegisterConf) (args : List Str) : CmdEnd Book :=
  ((loadCmd le depth e.srt a).bind (convertCmd a r.convert)).bind fun b => if args = [] then .ok b else opsCmd e fuel a args b

theorem good_registerBook {le : Env} {depth : Nat} {e : OpEnv} (hs : IsSort e.srt) {fuel : Nat} {a : AppConf} {r : RegisterConf}
    {args : List Str} {b : Book} (h : registerBook le depth e fuel a r args = .ok b) : b.Good := by
  unfold registerBook at h
  obtain ⟨b1, h1, h2⟩ := bind_ok h
  obtain ⟨b0, h0, h1⟩ := bind_ok h1
  have hg := good_convert hs (good_load hs h0) h1
  split at h2
  · cases h2; exact hg
  · exact good_ops hs hg h2

/-- What a section shows: all postings of its account, and only those, each split over its
counter-accounts; running balances; ending at the account's totals (then the window and count). -/
def SectionOf (e : OpEnv) (r : RegisterConf) (b : Book) (s : Str × List (Option RegEntry)) : Prop :=
  ∃ groups win, List.Forall₂ (fun tp g => RowsFor r.split tp.1 tp.2 g ∧ AmountsFor r.split tp.1 tp.2 g)
      (matching (fun x => decide (x = s.1)) (b.transactions e.srt)) groups ∧
    (∀ x ∈ groups.flatten, x.account = s.1) ∧
    (∀ pre x post, groups.flatten = pre ++ x :: post →
      x.balance = rowTotal x.ccy (pre ++ [x]) ∧ x.baseBalance = baseTotal (pre ++ [x])) ∧
    (∀ c, rowTotal c groups.flatten = acctTotal s.1 c (reported e.srt b)) ∧
    filterByDateStr e.today r.beginDate r.endDate groups.flatten = some win ∧ s.2 = showRows r.count r.asc win

/-- C87, what holds: the sections of a register are the accounts selected, in order, and every section
whose account name has only ordinary characters shows exactly that account.
Missing: names with characters that mean something in a regular expression. -/
theorem c87_sections_partial (le : Env) (depth : Nat) (e : OpEnv) (hs : IsSort e.srt) (hre : LiteralNames e) (fuel : Nat)
    (a : AppConf) (r : RegisterConf) (args : List Str) (arg : Str) (secs : List (Str × List (Option RegEntry)))
    (h : registerCmd le depth e fuel a r args arg = .ok secs) (hc : r.combined = false) :
    ∃ b, registerBook le depth e fuel a r args = .ok b ∧ secs.map (·.1) = b.accounts (e.mat arg) (!a.all) ∧
      ∀ s ∈ secs, PlainName s.1 → SectionOf e r b s := by
  unfold registerCmd at h
  obtain ⟨b, hb, h⟩ := bind_ok h
  have hb' : registerBook le depth e fuel a r args = .ok b := hb
  refine ⟨b, hb', ?_⟩
  have hg := good_registerBook hs hb'
  rw [hc] at h
  simp only [Bool.false_eq_true, if_false] at h
  split at h
  · obtain ⟨i1, i2⟩ := registerSections_ok _ _ h
    refine ⟨i1, fun s hs' hp => ?_⟩
    obtain ⟨groups, win, g1, g2, g3, g4, g5⟩ := registerRows_ok hs hg (i2 s hs')
    have hm : e.mat ([94] ++ s.1 ++ [36]) = fun x => decide (x = s.1) := funext (hre s.1 hp)
    rw [hm] at g1 g3
    refine ⟨groups, win, g1, ?_, g2, ?_, g4, g5⟩
    · have hmem : ∀ tp ∈ matching (fun x => decide (x = s.1)) (b.transactions e.srt), tp.2.acct = s.1 := by
        intro tp htp
        unfold matching at htp
        obtain ⟨t, _, h2⟩ := List.mem_flatMap.1 htp
        obtain ⟨p, h3, rfl⟩ := List.mem_map.1 h2
        exact of_decide_eq_true (List.mem_filter.1 h3).2
      clear g2 g3 g4
      generalize matching (fun x => decide (x = s.1)) (b.transactions e.srt) = m at g1 hmem
      induction g1 with
      | nil => intro x hx; cases hx
      | cons hd _ ih =>
        intro x hx
        rw [List.flatten_cons, List.mem_append] at hx
        rcases hx with hx | hx
        · rw [(hd.1.fields x hx).2.2.1]; exact hmem _ List.mem_cons_self
        · exact ih (fun tp htp => hmem tp (List.mem_cons_of_mem _ htp)) x hx
    · intro c
      rw [g3]
      unfold acctTotal
      exact total_congr (fun p _ => by simp [Bool.decide_and])
  · cases h

theorem accounts_mem {mat : Str → Bool} {o : Bool} {b : Book} {x : Str} (h : x ∈ b.accounts mat o) : ∃ p ∈ b.post, p.acct = x := by
  unfold Book.accounts at h
  have h1 := (List.mem_filter.1 (((sortStr_sorted _ ((List.nodup_dedup _).filter _)).2 x).1 h)).1
  rw [List.mem_dedup] at h1
  obtain ⟨p, hp, e⟩ := List.mem_map.1 h1
  exact ⟨p, (List.mem_filter.1 hp).1, e⟩

/-- C87 for the ledger file as it is: without operations every section shows exactly its account. -/
theorem c87_file_accounts_partial (le : Env) (depth : Nat) (e : OpEnv) (hs : IsSort e.srt) (hre : LiteralNames e) (fuel : Nat)
    (a : AppConf) (r : RegisterConf) (arg : Str) (secs : List (Str × List (Option RegEntry)))
    (h : registerCmd le depth e fuel a r [] arg = .ok secs) (hc : r.combined = false) :
    ∃ b, registerBook le depth e fuel a r [] = .ok b ∧ secs.map (·.1) = b.accounts (e.mat arg) (!a.all) ∧
      ∀ s ∈ secs, SectionOf e r b s := by
  obtain ⟨b, h1, h2, h3⟩ := c87_sections_partial le depth e hs hre fuel a r [] arg secs h hc
  refine ⟨b, h1, h2, fun s hs' => h3 s hs' ?_⟩
  have hacc : ∀ p ∈ b.post, PlainName p.acct := by
    unfold registerBook at h1
    obtain ⟨b1, k1, k2⟩ := bind_ok h1
    obtain ⟨b0, k0, k1⟩ := bind_ok k1
    simp only [if_true] at k2
    cases k2
    unfold loadCmd at k0
    split at k0 <;> cases k0
    rename_i hb
    have hp := c77_accounts_plain_partial e.srt hs le depth a.ledger _ hb
    have hcv := convertCmd_ok k1
    cases hv : r.convert with
    | false => rw [hv] at hcv; simp only [Bool.false_eq_true, if_false] at hcv; rw [hcv]; exact hp
    | true =>
      rw [hv] at hcv
      simp only [if_true] at hcv
      obtain ⟨ef, _⟩ := convertBook_some hcv.2
      rw [ef]
      intro p hpm
      obtain ⟨q, hq, rfl⟩ := List.mem_map.1 (show p ∈ b0.post.map _ from hpm)
      exact hp q hq
  have hm : s.1 ∈ b.accounts (e.mat arg) (!a.all) := by rw [← h2]; exact List.mem_map_of_mem hs'
  obtain ⟨p, hp, hpa⟩ := accounts_mem hm
  rw [← hpa]; exact hacc p hp

/-- Matching of a pattern of ordinary characters and dots against a whole text. -/
def dotMatch : Str → Str → Bool
  | [], [] => true
  | p :: ps, x :: xs => (decide (p = 46) || decide (p = x)) && dotMatch ps xs
  | _, _ => false

/-- A regular expression engine for `^…$` with ordinary characters and dots, and for `.` alone (only
for examples; it agrees with Go's on these). -/
def dotOps : OpEnv where
  today := 20201231
  srt := insSort
  valid := fun _ => true
  mat := fun s x => if s = b!"." then !x.isEmpty else dotMatch (s.drop 1).dropLast x
  rep := fun s r x => if dotMatch (s.drop 1).dropLast x then r else x
  float := some
  walk := fun _ _ m => m

theorem dotMatch_plain : ∀ (s x : Str), PlainName s → dotMatch s x = decide (x = s)
  | [], [], _ => by simp [dotMatch]
  | [], _ :: _, _ => by simp [dotMatch]
  | _ :: _, [], _ => by simp [dotMatch]
  | p :: ps, x :: xs, h => by
    have h1 : p ≠ 46 := by
      have := h p (by simp)
      rcases this with h | h | h | h | h | h | h <;> omega
    simp only [dotMatch, dotMatch_plain ps xs (fun c hc => h c (by simp [hc]))]
    simp [h1, eq_comm]

theorem dotOps_literal : LiteralNames dotOps := by
  intro s hs x
  have h1 : ([94] ++ s ++ [36] : Str) ≠ b!"." := by simp
  show (if [94] ++ s ++ [36] = b!"." then !x.isEmpty else dotMatch (([94] ++ s ++ [36]).drop 1).dropLast x) = _
  rw [if_neg h1]
  have : (([94] ++ s ++ [36] : Str).drop 1).dropLast = s := by simp
  rw [this]
  exact dotMatch_plain s x hs

/-- Two payments. -/
def dotFile : Str := b!"2020/01/01 P\n  A 1 E\n  C -1 E\n2020/01/02 Q\n  B 2 E\n  C -2 E\n"

/-- A plain register. -/
def demoRegister : RegisterConf where
  beginDate := []
  endDate := []
  count := 0
  asc := true
  combined := false
  convert := false
  split := false

/-- The accounts in each section. -/
def CmdEnd.sections (x : CmdEnd (List (Str × List (Option RegEntry)))) : Option (List (Str × List (Option Str))) :=
  match x with
  | .ok ss => some (ss.map fun s => (s.1, s.2.map (·.map (·.account))))
  | _ => none

/-- C87 is false of names with a dot: after renaming A to `A.B` and B to `AxB`, the section of `A.B` shows
`AxB` too. -/
theorem c87_dot_fails : ¬ ∀ (le : Env) (depth : Nat) (e : OpEnv) (_ : IsSort e.srt) (_ : LiteralNames e) (fuel : Nat)
    (a : AppConf) (r : RegisterConf) (args : List Str) (arg : Str) (secs : List (Str × List (Option RegEntry))),
    registerCmd le depth e fuel a r args arg = .ok secs → r.combined = false →
    ∀ s ∈ secs, ∀ x, some x ∈ s.2 → x.account = s.1 := by
  intro h
  have hl : (registerCmd (demoEnv [(b!"a", dotFile)]) 1 dotOps 1 demoApp demoRegister [b!"map=/^A$/A.B/", b!"map=/^B$/AxB/"] b!".").sections =
      some [(b!"A.B", [some b!"A.B", some b!"AxB"]), (b!"AxB", [some b!"AxB"]), (b!"C", [some b!"C", some b!"C"])] := by
    decide +kernel
  cases hr : registerCmd (demoEnv [(b!"a", dotFile)]) 1 dotOps 1 demoApp demoRegister [b!"map=/^A$/A.B/", b!"map=/^B$/AxB/"] b!"." with
  | ok secs =>
    rw [hr] at hl
    simp only [CmdEnd.sections, Option.some.injEq] at hl
    have hm : (b!"A.B", [some b!"A.B", some b!"AxB"]) ∈ secs.map (fun s => (s.1, s.2.map (·.map (·.account)))) := by rw [hl]; simp
    obtain ⟨s, hs, hse⟩ := List.mem_map.1 hm
    simp only [Prod.mk.injEq] at hse
    have hx : some b!"AxB" ∈ s.2.map (·.map (·.account)) := by rw [hse.2]; simp
    obtain ⟨o, ho, hoe⟩ := List.mem_map.1 hx
    obtain ⟨x, hxo, hxa⟩ := Option.map_eq_some_iff.1 hoe
    have := h _ 1 dotOps insSort_isSort dotOps_literal 1 demoApp demoRegister _ _ secs hr rfl s hs x (by rw [← hxo]; exact ho)
    rw [hxa, hse.1] at this
    revert this
    decide
  | err => rw [hr] at hl; cases hl
  | crash => rw [hr] at hl; cases hl
  | diverge => rw [hr] at hl; cases hl
  | fatal => rw [hr] at hl; cases hl

/-- Non-vacuity: the register of the file as it is. -/
example : (registerCmd (demoEnv [(b!"a", dotFile)]) 1 dotOps 1 demoApp demoRegister [] b!".").sections =
    some [(b!"A", [some b!"A"]), (b!"B", [some b!"B"]), (b!"C", [some b!"C", some b!"C"])] := by decide +kernel

end Verif
