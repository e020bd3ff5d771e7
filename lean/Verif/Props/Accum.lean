import Verif.Proofs.Accum3
import Verif.Props.Price
import Verif.Props.Compact

/-! # C46–C49, C51: summary reports

`acctsOf srt b` are the (account, currency) pairs of the book, `summaries srt b base div` the
accounts that get a subtotal.  `o` is the order in which Go ranges over the map of subtotal
accounts: any order, possibly different for every transaction. -/

namespace Verif
open Spec

/-! ## C51 -/

/-- The account levels and terms, as the report must show them: `n` of the accounts `S` are above
the account, and the term is the name after the deepest of them. -/
structure LevelTerm (S : List Str) (div acct : Str) (incl : Bool) (n : Nat) (term : Str) : Prop where
  level : n = if incl && decide (acct ∈ S) then levelOf S div acct + 1 else levelOf S div acct
  own : (incl && decide (acct ∈ S)) = true → term = []
  top : (incl && decide (acct ∈ S)) = false → (∀ k ∈ S, ¬ Above div k acct) → term = acct
  under : (incl && decide (acct ∈ S)) = false → ∀ k ∈ S, Above div k acct →
    (∀ k' ∈ S, Above div k' acct → k'.length ≤ k.length) → acct = k ++ div ++ term

/-- C51: the level is the number of summary accounts strictly above the account (and itself, for
an ordinary row of a summary account) and the term is what remains of its name after the
deepest such account. -/
theorem c51_level_and_term (S : List Str) (hS : S.Nodup) (div acct : Str) (hd : div ≠ []) (incl : Bool) (n : Nat) (term : Str)
    (h : splitByStrings S acct incl div = some (n, term)) : LevelTerm S div acct incl n term := by
  unfold splitByStrings at h
  cases hl : splitLoop S acct incl div 0 0 [] acct with
  | none => rw [hl] at h; cases h
  | some r =>
    rw [hl] at h
    simp only [Option.some.injEq, Prod.mk.injEq] at h
    obtain ⟨last', h1, h2⟩ := splitLoop_spec hS hd incl acct [] 0 0 rfl (by simp [aboveBefore])
      (Or.inl ⟨rfl, fun k _ _ => by simp⟩) r hl
    rw [List.nil_append] at h1 h2
    have hlen : ∀ k, Above div k acct → k.length < acct.length := by
      intro k hk
      have := (above_take hk).2
      have := List.length_pos_iff.2 hd
      omega
    cases hincl : (incl && decide (acct ∈ S)) with
    | true =>
      rw [hincl] at h2
      simp only [if_true] at h2
      rw [h2] at h
      refine ⟨by rw [hincl, ← h.1]; rfl, fun _ => by rw [← h.2]; simp, fun h' => ?_, fun h' => ?_⟩
      · rw [hincl] at h'; cases h'
      · rw [hincl] at h'; cases h'
    | false =>
      rw [hincl] at h2
      simp only [Bool.false_eq_true, if_false] at h2
      rw [h2] at h
      refine ⟨by rw [hincl, ← h.1]; rfl, fun h' => ?_, fun _ hn => ?_, fun _ k hk ha hmax => ?_⟩
      · rw [hincl] at h'; cases h'
      · rcases h1 with ⟨e, _⟩ | ⟨k, hk, ha, _⟩
        · rw [← h.2, e]; rfl
        · exact absurd ha (hn k hk)
      · rcases h1 with ⟨_, e⟩ | ⟨k', hk', ha', _, e, hmax'⟩
        · exact absurd (hlen k ha) (e k hk ha)
        · have el : k.length = k'.length := le_antisymm (hmax' k hk ha (hlen k ha)) (hmax k' hk' ha')
          have ek : k = k' := by rw [(above_take ha).1, (above_take ha').1, el]
          subst ek
          obtain ⟨s, e'⟩ := ha
          rw [← h.2, e, ← e']
          simp

/-- C51: with a one-character divider computing level and term never fails. -/
theorem c51_never_panics (S : List Str) (d : Nat) (acct : Str) (incl : Bool) :
    ∃ n term, splitByStrings S acct incl [d] = some (n, term) := by
  obtain ⟨r, h⟩ := splitLoop_some (S := S) (acct := acct) (d := d) incl acct [] 0 0 (by simp)
  unfold splitByStrings
  rw [h]
  exact ⟨_, _, rfl⟩

example : splitByStrings [b!"Exp", b!"Exp:Car", b!"Ex"] b!"Exp:Car:Fuel" true b!":" = some (2, b!"Fuel") := by decide +kernel
example : splitByStrings [b!"Exp", b!"Exp:Car"] b!"Exp:Car" true b!":" = some (2, []) := by decide +kernel
example : splitByStrings [b!"Exp", b!"Exp:Car"] b!"Exp:Car" false b!":" = some (1, b!"Car") := by decide +kernel
/-- With a longer divider that overlaps itself the code does panic. -/
example : splitByStrings [b!"A", b!"A:"] b!"A:::B" true b!"::" = none := by decide +kernel

/-! ## C48 -/

/-- C48: on every non-empty reachable book adding the empty accounts terminates without panicking
and yields, transaction by transaction in the same order, exactly one posting for every
(account, currency) of the book, in account order: the transaction's own posting if it has
one, otherwise a zero posting of the same date and payee. -/
theorem c48_fill (srt : List Posting → List Posting) (hs : IsSort srt) (today : Int) (b : Book) (hr : Reachable srt today b)
    (hne : b.transactions srt ≠ []) :
    ∃ fs, addEmptyAccounts srt (b.compact srt).post = some (List.flatten fs) ∧
      List.Forall₂ (fun u f => f.map (fun p => (p.acct, p.ccy)) = acctsOf srt b ∧
        (∀ p ∈ u, p ∈ f) ∧
        (∀ q ∈ f, q ∈ u ∨ (q.val = 0 ∧ (∀ p ∈ u, (p.acct, p.ccy) ≠ (q.acct, q.ccy)))) ∧
        (∀ q ∈ f, ∀ p ∈ u, q.date = p.date ∧ q.payee = p.payee)) (b.transactions srt) fs := by
  obtain ⟨w, hb⟩ := reachable_wf hs hr
  obtain ⟨hc, hu, hn, hA, hp, hadd, hord, htwo⟩ := book_data hs w hb hne
  refine ⟨_, hadd, ?_⟩
  rw [List.forall₂_map_right_iff]
  generalize b.transactions srt = us at hu
  clear hord hadd hc hne
  induction us with
  | nil => exact .nil
  | cons u us ih =>
    refine .cons ?_ (ih (fun v hv => hu v (by simp [hv])))
    obtain ⟨hg, hsub, _⟩ := hu u (by simp)
    obtain ⟨p0, t, e0⟩ := List.exists_cons_of_ne_nil hg.1
    have hp0 : p0 ∈ u := by rw [e0]; simp
    refine ⟨?_, ?_, ?_, ?_⟩
    · unfold fill
      rw [List.map_map]
      conv_rhs => rw [← List.map_id (acctsOf srt b)]
      exact List.map_congr_left fun e _ => (entryOf_key hg e hp0).2.2
    · intro p hp
      exact List.mem_map.2 ⟨pairOf p, hsub.subset (List.mem_map.2 ⟨p, hp, rfl⟩), entryOf_mem (hsub.nodup hn) hp⟩
    · intro q hq
      obtain ⟨e, he, rfl⟩ := List.mem_map.1 hq
      by_cases hm : e ∈ u.map pairOf
      · obtain ⟨p, hp, rfl⟩ := List.mem_map.1 hm
        rw [entryOf_mem (hsub.nodup hn) hp]
        exact Or.inl hp
      · right
        rw [e0] at hm ⊢
        rw [entryOf_not_mem hm]
        refine ⟨rfl, fun p hp h => hm (List.mem_map.2 ⟨p, hp, ?_⟩)⟩
        exact h
    · intro q hq p hp
      obtain ⟨e, he, rfl⟩ := List.mem_map.1 hq
      have := entryOf_key hg e hp
      exact ⟨this.1, this.2.1⟩

/-- C48: the (account, currency) pairs are exactly those of the book's postings, each once. -/
theorem c48_accounts (srt : List Posting → List Posting) (b : Book) :
    (acctsOf srt b).Nodup ∧ ∀ a c, (a, c) ∈ acctsOf srt b ↔ ∃ p ∈ reported srt b, p.acct = a ∧ p.ccy = c := by
  obtain ⟨a1, a2⟩ := acctList_spec (reported srt b)
  refine ⟨pairwise_lt_nodup a2, fun a c => ?_⟩
  rw [acctsOf, a1]
  simp

/-! ## C46 -/

theorem accumulate_good {srt : List Posting → List Posting} (hs : IsSort srt) {b : Book} (w : b.WF) (hb : Balanced b.post)
    {base div : Str} {credit : Option (Str → Bool)} {hidden : Str} {o : Int → Str → List Str → List Str}
    (ho : ∀ d py l, (o d py l).Perm l) {ts : List Txn} (h : b.accumulate srt base div credit hidden o = some ts) :
    ∃ gs, ts = gs.map (hideFlip credit hidden) ∧
      List.Forall₂ (fun u g => IsGroup u ∧ (u.map pairOf).Sublist (acctsOf srt b) ∧
        ReportOf b.prices base div (summaries srt b base div) (acctsOf srt b) u g) (b.transactions srt) gs ∧
      b.accumulate srt base div none [] o = some gs := by
  by_cases hne : b.transactions srt = []
  · have hp : (b.compact srt).post = [] := by rw [← transactions_flatten hs w, hne]; rfl
    unfold Book.accumulate at h ⊢
    simp only at h ⊢
    rw [if_pos hp] at h
    rw [if_pos hp]
    have : (b.compact srt).transactions srt = [] := by
      unfold Book.transactions
      have w1 := compact_wf hs w.plain w.nil_trans
      exact Book.WF.nil_trans (compact_wf hs w1.plain w1.nil_trans) (by rw [compact_post _ (srt_nil hs), hp]; unfold compactPost; rw [srt_nil hs]; rfl)
    rw [this] at h ⊢
    cases h
    exact ⟨[], rfl, by rw [hne]; exact .nil, rfl⟩
  · obtain ⟨bs, hbs⟩ := accumulate_some hs w hb hne base div credit hidden h
    obtain ⟨gs, g1, g2, _, g4⟩ := accumulate_blocks hs w hb hne base div credit hidden ho hbs
    obtain ⟨gs', g1', g2', ord', g4'⟩ := accumulate_blocks hs w hb hne base div none [] ho hbs
    have hid : ∀ g : Txn, hideFlip none [] g = g := by
      intro g
      unfold hideFlip
      simp
    have hmid : ∀ l : List Txn, l.map (hideFlip none []) = l := by
      intro l
      conv_rhs => rw [← List.map_id l]
      exact List.map_congr_left fun g _ => hid g
    have hu := (book_data hs w hb hne).2.1
    obtain ⟨e, he⟩ : ∃ e, e = gs := ⟨_, rfl⟩
    have hgs : gs = gs' := by
      rw [hmid] at ord'
      have o2 : Ordered gs := by
        have := (accumulate_blocks hs w hb hne base div none [] ho hbs)
        refine ordered_forall₂ g2 (ordered_transactions hs w) ?_
        rintro u g hu' _ ⟨B, hbl, hpm, _⟩
        have hA := (book_data hs w hb hne).2.2.2.1
        obtain ⟨e, es, he⟩ := List.exists_cons_of_ne_nil hA
        obtain ⟨r, hr, _⟩ := block_nonempty hbl (e := e) (by rw [he]; simp)
        exact ⟨List.ne_nil_of_mem (hpm.mem_iff.2 hr), fun r hr p hp => block_keys (hu u hu').1 hbl r (hpm.mem_iff.1 hr) p hp⟩
      rw [← groupTxns_of_groups o2.1 o2.2, ← groupTxns_of_groups ord'.1 ord'.2, g4, g4']
    rw [g1] at h
    cases h
    refine ⟨gs, rfl, ?_, ?_⟩
    · have : ∀ {us gs : List Txn}, List.Forall₂ (ReportOf b.prices base div (summaries srt b base div) (acctsOf srt b)) us gs →
          (∀ u ∈ us, u ∈ b.transactions srt) →
          List.Forall₂ (fun u g => IsGroup u ∧ (u.map pairOf).Sublist (acctsOf srt b) ∧
            ReportOf b.prices base div (summaries srt b base div) (acctsOf srt b) u g) us gs := by
        intro us gs hh
        induction hh with
        | nil => intro _; exact .nil
        | cons x _ ih => intro hm; exact .cons ⟨(hu _ (hm _ (by simp))).1, (hu _ (hm _ (by simp))).2.1, x⟩ (ih fun u hu => hm u (by simp [hu]))
      exact this g2 (fun u hu => hu)
    · rw [g1', hmid, hgs]

theorem accumulate_report {srt : List Posting → List Posting} (hs : IsSort srt) {today : Int} {b : Book} (hr : Reachable srt today b)
    {base div : Str} {credit : Option (Str → Bool)} {hidden : Str} {o : Int → Str → List Str → List Str}
    (ho : ∀ d py l, (o d py l).Perm l) {ts : List Txn} (h : b.accumulate srt base div credit hidden o = some ts) :
    ∃ gs, ts = gs.map (hideFlip credit hidden) ∧
      List.Forall₂ (fun u g => IsGroup u ∧ (u.map pairOf).Sublist (acctsOf srt b) ∧
        ReportOf b.prices base div (summaries srt b base div) (acctsOf srt b) u g) (b.transactions srt) gs ∧
      b.accumulate srt base div none [] o = some gs := by
  obtain ⟨w, hb⟩ := reachable_wf hs hr
  exact accumulate_good hs w hb ho h

theorem split_level {S : List Str} (hS : S.Nodup) {div a : Str} (hd : div ≠ []) {incl : Bool} {lt : Nat × Str}
    (h : splitByStrings S a incl div = some lt) :
    lt.1 = if incl && decide (a ∈ S) then levelOf S div a + 1 else levelOf S div a :=
  (c51_level_and_term S hS div a hd incl lt.1 lt.2 h).level

theorem filter_perm_singleton {α} {P : α → Bool} {l m : List α} (h : l.Perm m) {x : α} (hm : m.filter P = [x]) : l.filter P = [x] := by
  have := h.filter P
  rw [hm] at this
  exact List.perm_singleton.1 this

theorem summary_totals_good (srt : List Posting → List Posting) (hs : IsSort srt) (b : Book) (w : b.WF) (hb : Balanced b.post)
    (base div : Str) (hd : div ≠ []) (o : Int → Str → List Str → List Str) (ho : ∀ d py l, (o d py l).Perm l) (ts : List Txn)
    (h : b.accumulate srt base div none [] o = some ts) :
    List.Forall₂ (fun u t => ∀ k ∈ summaries srt b base div, ∃ r,
        t.filter (fun r => decide (r.acct = k ∧ r.acctlevel = (levelOf (summaries srt b base div) div k : Int))) = [r] ∧
        r.ccy = base ∧ r.val = treeTotal b.prices base div k u ∧ ∀ p ∈ u, r.date = p.date ∧ r.payee = p.payee)
      (b.transactions srt) ts := by
  obtain ⟨gs, _, g2, g3⟩ := accumulate_good hs w hb ho h
  rw [h] at g3
  cases g3
  refine g2.imp ?_
  rintro u g ⟨hg, hsub, B, hbl, hpm, _⟩ k hk
  obtain ⟨l, s, S', rfl, hS', h1, h2⟩ := hbl.ex
  have hSn : (summaries srt b base div).Nodup := accumSet_nodup _ _ _
  have hS'n : S'.Nodup := hS'.nodup_iff.2 hSn
  have hkS : k ∈ S' := hS'.mem_iff.2 hk
  have hl : l.filter (fun r => decide (r.acct = k ∧ r.acctlevel = (levelOf (summaries srt b base div) div k : Int))) = [] := by
    rw [List.filter_eq_nil_iff]
    intro r hr hc
    simp only [decide_eq_true_eq] at hc
    obtain ⟨p, _, lt, key, hsp, rfl, _⟩ := forall₂_mem_right h1 hr
    have hlev := split_level hSn hd hsp
    have : p.acct = k := hc.1
    rw [this] at hlev
    simp only [hk, decide_true, Bool.and_true, if_true] at hlev
    have := hc.2
    simp only at this
    omega
  have hsum : ∃ r, s.filter (fun r => decide (r.acct = k ∧ r.acctlevel = (levelOf (summaries srt b base div) div k : Int))) = [r] ∧
      SumOf b.prices base div (summaries srt b base div)
        (valOf b.prices base div (summaries srt b base div) (acctsOf srt b) u) u k r := by
    clear hpm hS' hl hbl h1
    induction h2 with
    | nil => cases hkS
    | @cons k' r S' s hk' _ ih =>
      obtain ⟨n1, n2⟩ := List.nodup_cons.1 hS'n
      rw [List.filter_cons]
      by_cases e : k' = k
      · subst e
        obtain ⟨lt, hsp, ha, hrest⟩ := hk'
        have hlev := split_level hSn hd hsp
        simp only [Bool.false_and, Bool.false_eq_true, if_false] at hlev
        refine ⟨r, ?_, lt, hsp, ha, hrest⟩
        rw [if_pos (by simp only [decide_eq_true_eq]; exact ⟨ha, by rw [hrest.2.2.1, hlev]⟩)]
        congr 1
        rw [List.filter_eq_nil_iff]
        intro x hx hc
        simp only [decide_eq_true_eq] at hc
        obtain ⟨k2, hk2, lt2, _, ha2, _⟩ := forall₂_mem_right (by assumption) hx
        rw [ha2] at hc
        exact n1 (hc.1 ▸ hk2)
      · have hm : k ∈ S' := by
          rcases List.mem_cons.1 hkS with e' | e'
          · exact absurd e'.symm e
          · exact e'
        obtain ⟨r', e1, e2⟩ := ih n2 hm
        obtain ⟨lt, hsp, ha, hrest⟩ := hk'
        refine ⟨r', ?_, e2⟩
        rw [if_neg (by simp only [decide_eq_true_eq, ha]; exact fun h => e h.1)]
        exact e1
  obtain ⟨r, e1, lt, _, _, e2, e3, _, _, e4, _⟩ := hsum
  refine ⟨r, ?_, e2, e3, e4⟩
  apply filter_perm_singleton hpm
  rw [List.filter_append, hl, e1]; rfl

/-- C46: in every transaction of the report, every subtotal account has exactly one row at its own
level, in the base currency, and its amount is the sum, converted at the price of that date, of
what the book's transaction posts to the account and to all accounts below it. -/
theorem c46_summary_totals (srt : List Posting → List Posting) (hs : IsSort srt) (today : Int) (b : Book) (hr : Reachable srt today b)
    (base div : Str) (hd : div ≠ []) (o : Int → Str → List Str → List Str) (ho : ∀ d py l, (o d py l).Perm l) (ts : List Txn)
    (h : b.accumulate srt base div none [] o = some ts) :
    List.Forall₂ (fun u t => ∀ k ∈ summaries srt b base div, ∃ r,
        t.filter (fun r => decide (r.acct = k ∧ r.acctlevel = (levelOf (summaries srt b base div) div k : Int))) = [r] ∧
        r.ccy = base ∧ r.val = treeTotal b.prices base div k u ∧ ∀ p ∈ u, r.date = p.date ∧ r.payee = p.payee)
      (b.transactions srt) ts := by
  obtain ⟨w, hb⟩ := reachable_wf hs hr
  exact summary_totals_good srt hs b w hb base div hd o ho ts h

/-- C46: the other rows are the book's postings themselves (and zero rows): apart from the
subtotals, every row of the report is a posting of the transaction, with the same amount, or
a zero row; and every posting of the transaction has its row. -/
theorem c46_other_rows (srt : List Posting → List Posting) (hs : IsSort srt) (today : Int) (b : Book) (hr : Reachable srt today b)
    (base div : Str) (o : Int → Str → List Str → List Str) (ho : ∀ d py l, (o d py l).Perm l) (ts : List Txn)
    (h : b.accumulate srt base div none [] o = some ts) :
    List.Forall₂ (fun u t => (∀ p ∈ u, ∃ r ∈ t, line r = line p) ∧
        ∀ r ∈ t, (r.acct ∈ summaries srt b base div ∧ r.ccy = base ∧ r.val = treeTotal b.prices base div r.acct u) ∨
          (∃ p ∈ u, line r = line p) ∨ r.val = 0)
      (b.transactions srt) ts := by
  obtain ⟨gs, _, g2, g3⟩ := accumulate_report hs hr ho h
  rw [h] at g3
  cases g3
  refine g2.imp ?_
  rintro u g ⟨hg, hsub, B, hbl, hpm, _⟩
  obtain ⟨l, s, S', rfl, hS', h1, h2⟩ := hbl.ex
  have hnd : (u.map pairOf).Nodup := hsub.nodup (c48_accounts srt b).1
  constructor
  · intro p hp
    obtain ⟨r, hr, lt, key, _, rfl, _⟩ := forall₂_mem_left h1 (List.mem_map.2 ⟨pairOf p, hsub.subset (List.mem_map.2 ⟨p, hp, rfl⟩), rfl⟩)
    refine ⟨_, hpm.mem_iff.2 (List.mem_append_left _ hr), ?_⟩
    rw [entryOf_mem hnd hp]; rfl
  · intro r hr
    rcases List.mem_append.1 (hpm.mem_iff.1 hr) with hr | hr
    · obtain ⟨p, hp, lt, key, _, rfl, _⟩ := forall₂_mem_right h1 hr
      obtain ⟨e, _, rfl⟩ := List.mem_map.1 hp
      right
      by_cases hm : e ∈ u.map pairOf
      · obtain ⟨p, hpu, rfl⟩ := List.mem_map.1 hm
        exact Or.inl ⟨p, hpu, by rw [entryOf_mem hnd hpu]; rfl⟩
      · obtain ⟨p0, t, rfl⟩ := List.exists_cons_of_ne_nil hg.1
        exact Or.inr (by rw [entryOf_not_mem hm]; rfl)
    · obtain ⟨k, hk, lt, _, e1, e2, e3, _⟩ := forall₂_mem_right h2 hr
      exact Or.inl ⟨e1 ▸ hS'.mem_iff.1 hk, e2, e1 ▸ e3⟩

/-- C46: the report completes whenever the divider is one character and the prices the
conversion needs answer. -/
theorem c46_completes (srt : List Posting → List Posting) (hs : IsSort srt) (today : Int) (b : Book) (hr : Reachable srt today b)
    (base : Str) (d : Nat) (credit : Option (Str → Bool)) (hidden : Str) (o : Int → Str → List Str → List Str)
    (ho : ∀ d py l, (o d py l).Perm l)
    (hpr : ∀ p ∈ reported srt b, ∀ q ∈ reported srt b, q.ccy ≠ base → b.prices.getPrice p.date q.ccy base ≠ none) :
    ∃ ts, b.accumulate srt base [d] credit hidden o = some ts := by
  obtain ⟨w, hb⟩ := reachable_wf hs hr
  by_cases hne : b.transactions srt = []
  · have hp : (b.compact srt).post = [] := by rw [← transactions_flatten hs w, hne]; rfl
    unfold Book.accumulate
    simp only
    rw [if_pos hp]
    exact ⟨_, rfl⟩
  · have hu := (book_data hs w hb hne).2.1
    obtain ⟨bs, hbs⟩ : ∃ bs, blocksOf srt b base [d] o = some bs := by
      apply mapM_exists
      intro g hg
      obtain ⟨u, hu', rfl⟩ := List.mem_map.1 hg
      obtain ⟨hgr, _, _⟩ := hu u hu'
      obtain ⟨p0, hp0⟩ := List.exists_mem_of_ne_nil u hgr.1
      obtain ⟨cs, hcs⟩ : ∃ cs, (fill (acctsOf srt b) u).mapM (convertPost b.prices base) = some cs := by
        apply mapM_exists
        intro p hp
        obtain ⟨e, he, rfl⟩ := List.mem_map.1 hp
        have hk := entryOf_key hgr e hp0
        unfold convertPost
        by_cases hc : (entryOf u e).ccy = base
        · rw [if_neg (by simpa using hc)]; exact ⟨_, rfl⟩
        · rw [if_pos hc]
          have hce : e.2 = (entryOf u e).ccy := congrArg Prod.snd hk.2.2.symm
          obtain ⟨q, hq, _, hq2⟩ := ((c48_accounts srt b).2 e.1 e.2).1 he
          have := hpr p0 (List.mem_flatten.2 ⟨u, hu', hp0⟩) q hq (by rw [hq2, hce]; exact hc)
          rw [hq2, hce, ← hk.1] at this
          obtain ⟨x, hx⟩ := Option.ne_none_iff_exists'.1 this
          rw [hx]; exact ⟨_, rfl⟩
      obtain ⟨l, hl⟩ : ∃ l, (fill (acctsOf srt b) u).mapM (leafRow (summaries srt b base [d]) [d] cs) = some l := by
        apply mapM_exists
        intro p _
        obtain ⟨n, term, h⟩ := c51_never_panics (summaries srt b base [d]) d p.acct true
        unfold leafRow
        rw [h]; exact ⟨_, rfl⟩
      cases hf : fill (acctsOf srt b) u with
      | nil => exact ⟨_, rfl⟩
      | cons h t =>
        rw [hf] at hcs hl
        obtain ⟨s, hs'⟩ : ∃ s, (mapOrder o (h :: t) (summaries srt b base [d])).mapM
            (summaryRow (summaries srt b base [d]) [d] base cs h) = some s := by
          apply mapM_exists
          intro k _
          obtain ⟨n, term, h⟩ := c51_never_panics (summaries srt b base [d]) d k false
          unfold summaryRow
          rw [h]; exact ⟨_, rfl⟩
        unfold blockRows
        simp only
        rw [hcs]
        simp only
        rw [hl, hs']
        exact ⟨_, rfl⟩
    obtain ⟨gs, g1, _⟩ := accumulate_blocks hs w hb hne base [d] credit hidden ho hbs
    exact ⟨_, g1⟩

/-- C46: the prices answer whenever posting and price dates are real dates and prices are
positive. -/
theorem c46_completes_prices (srt : List Posting → List Posting) (hs : IsSort srt) (today : Int) (cs : List Call) (b : Book)
    (hb : FromCalls srt today cs b) (base : Str) (d : Nat) (credit : Option (Str → Bool)) (hidden : Str)
    (o : Int → Str → List Str → List Str) (ho : ∀ d py l, (o d py l).Perm l)
    (hd : ∀ p ∈ reported srt b, IsDate p.date)
    (hv : ∀ u c q, q ∈ recorded u c cs → IsDate q.date ∧ 0 < q.val) :
    ∃ ts, b.accumulate srt base [d] credit hidden o = some ts := by
  have hr : Reachable srt today b := by
    obtain ⟨bb, b0, ops, h1, h2, h3⟩ := hb
    exact ⟨cs, bb, b0, ops, h1, h2, h3⟩
  refine c46_completes srt hs today b hr base d credit hidden o ho ?_
  intro p hp q _ _
  obtain ⟨t, ht, e⟩ := hd p hp
  obtain ⟨r, pt, h, _⟩ := c29_never_panics srt today cs b hb q.ccy base t ht
    (fun x hx => by rcases hx with hx | hx <;> exact hv _ _ x hx)
  rw [e, h]; simp

/-! ## C47 -/

/-- The key of the ordinary row of an account and currency. -/
def leafKey (S : List Str) (div : Str) (e : Str × Str) : RowKey :=
  match splitByStrings S e.1 true div with
  | some lt => ⟨e.1, lt.2, lt.1, e.2⟩
  | none => ⟨e.1, [], 0, e.2⟩
/-- The key of a subtotal row. -/
def sumKey (S : List Str) (div base : Str) (k : Str) : RowKey :=
  match splitByStrings S k false div with
  | some lt => ⟨k, lt.2, lt.1, base⟩
  | none => ⟨k, [], 0, base⟩

theorem report_keys {prices base div S A u g} (hg : IsGroup u) (h : ReportOf prices base div S A u g) :
    (g.map rowKey).Perm (A.map (leafKey S div) ++ S.map (sumKey S div base)) := by
  obtain ⟨B, hbl, hpm, _⟩ := h
  obtain ⟨l, s, S', rfl, hS', h1, h2⟩ := hbl.ex
  obtain ⟨p0, hp0⟩ := List.exists_mem_of_ne_nil u hg.1
  refine (hpm.map rowKey).trans ?_
  rw [List.map_append]
  refine List.Perm.append ?_ ?_
  · have : l.map rowKey = A.map (leafKey S div) := by
      unfold fill at h1
      rw [List.forall₂_map_left_iff] at h1
      clear hpm hbl h2
      generalize valOf prices base div S A u = val at h1
      induction h1 with
      | nil => rfl
      | @cons e r A l hr _ ih =>
        obtain ⟨lt, key, hsp, rfl, _⟩ := hr
        have hk := (entryOf_key hg e hp0).2.2
        have k1 : (entryOf u e).acct = e.1 := congrArg Prod.fst hk
        have k2 : (entryOf u e).ccy = e.2 := congrArg Prod.snd hk
        rw [List.map_cons, List.map_cons, ih]
        congr 1
        unfold leafKey
        rw [k1] at hsp
        rw [hsp]
        simp [rowKey, k1, k2]
    rw [this]
  · have : s.map rowKey = S'.map (sumKey S div base) := by
      clear hpm hbl hS'
      induction h2 with
      | nil => rfl
      | @cons k r S' s hr _ ih =>
        obtain ⟨lt, hsp, e1, e2, _, e3, e4, _⟩ := hr
        rw [List.map_cons, List.map_cons, ih]
        congr 1
        unfold sumKey
        rw [hsp]
        simp [rowKey, e1, e2, e3, e4]
    rw [this]
    exact hS'.map _

private theorem keys_nodup {S : List Str} {A : List (Str × Str)} {base div : Str} (hS : S.Nodup) (hA : A.Nodup) (hd : div ≠ []) 
    (hok : ∀ e ∈ A, (splitByStrings S e.1 true div).isSome) (hok' : ∀ k ∈ S, (splitByStrings S k false div).isSome) :
    (A.map (leafKey S div) ++ S.map (sumKey S div base)).Nodup := by
  have hl : ∀ e, (leafKey S div e).acct = e.1 ∧ (leafKey S div e).ccy = e.2 := by
    intro e; unfold leafKey; split <;> exact ⟨rfl, rfl⟩
  have hk : ∀ k, (sumKey S div base k).acct = k := by
    intro e; unfold sumKey; split <;> rfl
  rw [List.nodup_append]
  refine ⟨?_, ?_, ?_⟩
  · refine hA.map ?_
    intro e e' h
    have h1 := congrArg RowKey.acct h
    have h2 := congrArg RowKey.ccy h
    rw [(hl e).1, (hl e').1] at h1
    rw [(hl e).2, (hl e').2] at h2
    exact Prod.ext h1 h2
  · refine hS.map ?_
    intro k k' h
    have h1 := congrArg RowKey.acct h
    rw [hk, hk] at h1
    exact h1
  · intro x hx y hy hxy
    obtain ⟨e, he, rfl⟩ := List.mem_map.1 hx
    obtain ⟨k, hkS, rfl⟩ := List.mem_map.1 hy
    have h1 := congrArg RowKey.acct hxy
    rw [(hl e).1, hk] at h1
    have h2 := congrArg RowKey.level hxy
    obtain ⟨lt, hlt⟩ := Option.isSome_iff_exists.1 (hok e he)
    obtain ⟨lt', hlt'⟩ := Option.isSome_iff_exists.1 (hok' k hkS)
    have v1 := split_level hS hd hlt
    have v2 := split_level hS hd hlt'
    unfold leafKey sumKey at h2
    rw [hlt, hlt'] at h2
    simp only at h2
    rw [h1] at v1
    simp only [hkS, decide_true, Bool.and_true, if_true, Bool.false_and, Bool.false_eq_true, if_false] at v1 v2
    omega

theorem hideFlip_keys (credit : Option (Str → Bool)) (hidden : Str) (g : Txn) :
    (hideFlip credit hidden g).map rowKey = (g.map rowKey).filter (fun k => !(decide (hidden ≠ []) && decide (k.acct = hidden))) := by
  unfold hideFlip
  rw [List.map_map, List.filter_map]
  apply List.map_congr_left
  intro p _
  simp only [Function.comp]
  split
  · split <;> rfl
  · rfl

theorem rectangular_good (srt : List Posting → List Posting) (hs : IsSort srt) (b : Book) (w : b.WF) (hbal : Balanced b.post)
    (base div : Str) (hd : div ≠ []) (credit : Option (Str → Bool)) (hidden : Str) (o : Int → Str → List Str → List Str)
    (ho : ∀ d py l, (o d py l).Perm l) (ts : List Txn) (h : b.accumulate srt base div credit hidden o = some ts) :
    (∀ t ∈ ts, (t.map rowKey).Nodup) ∧ ∀ t ∈ ts, ∀ u ∈ ts, (t.map rowKey).Perm (u.map rowKey) := by
  obtain ⟨gs, rfl, g2, _⟩ := accumulate_good hs w hbal ho h
  have hkeys : ∀ g ∈ gs, (g.map rowKey).Perm ((acctsOf srt b).map (leafKey (summaries srt b base div) div) ++
      (summaries srt b base div).map (sumKey (summaries srt b base div) div base)) := by
    intro g hg
    obtain ⟨u, _, h1, _, h3⟩ := forall₂_mem_right g2 hg
    exact report_keys h1 h3
  constructor
  · intro t ht
    obtain ⟨g, hg, rfl⟩ := List.mem_map.1 ht
    rw [hideFlip_keys]
    refine List.Nodup.filter _ ?_
    rw [(hkeys g hg).nodup_iff]
    obtain ⟨u, _, h1, _, B, hbl, _⟩ := forall₂_mem_right g2 hg
    obtain ⟨l, s, S', rfl, hS', f1, f2⟩ := hbl.ex
    obtain ⟨p0, hp0⟩ := List.exists_mem_of_ne_nil u h1.1
    refine keys_nodup (accumSet_nodup _ _ _) (c48_accounts srt b).1 hd ?_ ?_
    · intro e he
      obtain ⟨r, _, lt, _, hsp, _⟩ := forall₂_mem_left f1 (List.mem_map.2 ⟨e, he, rfl⟩)
      have k1 : (entryOf u e).acct = e.1 := congrArg Prod.fst (entryOf_key h1 e hp0).2.2
      rw [← k1, hsp]; rfl
    · intro k hk
      obtain ⟨r, _, lt, hsp, _⟩ := forall₂_mem_left f2 (hS'.mem_iff.2 hk)
      rw [hsp]; rfl
  · intro t ht u hu
    obtain ⟨g, hg, rfl⟩ := List.mem_map.1 ht
    obtain ⟨g', hg', rfl⟩ := List.mem_map.1 hu
    rw [hideFlip_keys, hideFlip_keys]
    exact ((hkeys g hg).trans (hkeys g' hg').symm).filter _

/-- C47: all transactions of the report have the same rows, each once. -/
theorem c47_rectangular (srt : List Posting → List Posting) (hs : IsSort srt) (today : Int) (b : Book) (hr : Reachable srt today b)
    (base div : Str) (hd : div ≠ []) (credit : Option (Str → Bool)) (hidden : Str) (o : Int → Str → List Str → List Str)
    (ho : ∀ d py l, (o d py l).Perm l) (ts : List Txn) (h : b.accumulate srt base div credit hidden o = some ts) :
    (∀ t ∈ ts, (t.map rowKey).Nodup) ∧ ∀ t ∈ ts, ∀ u ∈ ts, (t.map rowKey).Perm (u.map rowKey) := by
  obtain ⟨w, hbal⟩ := reachable_wf hs hr
  exact rectangular_good srt hs b w hbal base div hd credit hidden o ho ts h

/-- C47: so the text report, which looks every row up in the last transaction by account, term and
currency, finds it. -/
theorem c47_reference_column (srt : List Posting → List Posting) (hs : IsSort srt) (today : Int) (b : Book) (hr : Reachable srt today b)
    (base div : Str) (hd : div ≠ []) (credit : Option (Str → Bool)) (hidden : Str) (o : Int → Str → List Str → List Str)
    (ho : ∀ d py l, (o d py l).Perm l) (ts : List Txn) (h : b.accumulate srt base div credit hidden o = some ts) :
    ∀ t ∈ ts, ∀ r ∈ t, ∀ ref ∈ ts.getLast?, ∃ r' ∈ ref, r'.acct = r.acct ∧ r'.acctterm = r.acctterm ∧ r'.ccy = r.ccy := by
  intro t ht r hr' ref href
  have hm : ref ∈ ts := List.mem_of_getLast? (by simpa using href)
  have hp := (c47_rectangular srt hs today b hr base div hd credit hidden o ho ts h).2 t ht ref hm
  obtain ⟨r', h1, h2⟩ := List.mem_map.1 (hp.mem_iff.1 (List.mem_map.2 ⟨r, hr', rfl⟩))
  refine ⟨r', h1, ?_⟩
  simp only [rowKey, RowKey.mk.injEq] at h2
  exact ⟨h2.1, h2.2.1, h2.2.2.2⟩

/-- C47: there is one report transaction for each transaction of the book. -/
theorem c47_one_per_transaction (srt : List Posting → List Posting) (hs : IsSort srt) (today : Int) (b : Book) (hr : Reachable srt today b)
    (base div : Str) (credit : Option (Str → Bool)) (hidden : Str) (o : Int → Str → List Str → List Str)
    (ho : ∀ d py l, (o d py l).Perm l) (ts : List Txn) (h : b.accumulate srt base div credit hidden o = some ts) :
    ts.length = (b.transactions srt).length := by
  obtain ⟨gs, rfl, g2, _⟩ := accumulate_report hs hr ho h
  rw [List.length_map, g2.length_eq]

/-! ## C49 -/

/-- What the credit pattern and the hidden account do to the rows of a report. -/
def shown (credit : Option (Str → Bool)) (hidden : Str) (l : List Posting) : List Posting :=
  (l.filter fun p => decide (hidden = [] ∨ p.acct ≠ hidden)).map fun p =>
    if ∃ m ∈ credit, m p.acct = true then { p with val := -p.val } else p

/-- C49: the report with a credit pattern and a hidden account is the plain report with the rows
of the hidden account removed and the rows of matching accounts negated: nothing else
changes, not even the order. -/
theorem c49_credit_hidden (srt : List Posting → List Posting) (hs : IsSort srt) (today : Int) (b : Book) (hr : Reachable srt today b)
    (base div : Str) (credit : Option (Str → Bool)) (hidden : Str) (o : Int → Str → List Str → List Str)
    (ho : ∀ d py l, (o d py l).Perm l) (ts : List Txn) (h : b.accumulate srt base div credit hidden o = some ts) :
    ∃ gs, b.accumulate srt base div none [] o = some gs ∧ ts = gs.map (shown credit hidden) := by
  obtain ⟨gs, rfl, _, g3⟩ := accumulate_report hs hr ho h
  refine ⟨gs, g3, List.map_congr_left fun g _ => ?_⟩
  unfold hideFlip shown
  have e1 : (fun p : Posting => !(decide (hidden ≠ []) && decide (p.acct = hidden))) = fun p => decide (hidden = [] ∨ p.acct ≠ hidden) := by
    funext p
    by_cases h1 : hidden = [] <;> by_cases h2 : p.acct = hidden <;> simp [h1, h2]
  rw [e1]
  apply List.map_congr_left
  intro p _
  cases credit with
  | none => simp
  | some m => by_cases hm : m p.acct = true <;> simp [hm]

/-! ## A concrete case -/

example : demoBook.transactions insSort ≠ [] := by decide +kernel
example : summaries insSort demoBook b!"USD" b!":" = [b!"Cash", b!"Exp:Food"] := by decide +kernel
example : (demoBook.accumulate insSort b!"USD" b!":" (some fun a => a == b!"Inc") [] (fun _ _ l => l)).map (·.map (·.map line)) =
    some [[⟨20200131, b!"shop", b!"Exp:Food", b!"USD", 7/2⟩, ⟨20200131, b!"shop", b!"Exp:Food", b!"EUR", 0⟩,
           ⟨20200131, b!"shop", b!"Exp:Food", b!"USD", 7/2⟩, ⟨20200131, b!"shop", b!"Inc", b!"USD", 0⟩,
           ⟨20200131, b!"shop", b!"Cash", b!"USD", -7/2⟩, ⟨20200131, b!"shop", b!"Cash", b!"EUR", 0⟩, ⟨20200131, b!"shop", b!"Cash", b!"USD", -7/2⟩],
          [⟨20200131, b!"shop (2)", b!"Exp:Food", b!"USD", 4⟩, ⟨20200131, b!"shop (2)", b!"Exp:Food", b!"EUR", 4⟩, ⟨20200131, b!"shop (2)", b!"Exp:Food", b!"USD", 0⟩,
           ⟨20200131, b!"shop (2)", b!"Cash", b!"USD", 1⟩, ⟨20200131, b!"shop (2)", b!"Cash", b!"EUR", -4⟩, ⟨20200131, b!"shop (2)", b!"Cash", b!"USD", 5⟩,
           ⟨20200131, b!"shop (2)", b!"Inc", b!"USD", 5⟩]] := by decide +kernel

end Verif
