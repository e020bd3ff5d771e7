import Verif.Spec.RegReport
import Verif.Props.RegisterFull

/-! # C133: the register and the report agree -/

namespace Verif
open Spec

theorem last_filter {α : Type} {q : α → Bool} {l : List α} {x : α} (h : (l.filter q).getLast? = some x) :
    ∃ pre post, l = pre ++ x :: post ∧ q x = true ∧ ∀ y ∈ post, q y = false := by
  induction l with
  | nil => cases h
  | cons a l ih =>
    cases hl : (l.filter q).getLast? with
    | some y =>
      have : ((a :: l).filter q).getLast? = some y := by
        rw [List.filter_cons]
        split
        · rw [List.getLast?_cons, hl]; rfl
        · exact hl
      rw [this] at h
      cases h
      obtain ⟨pre, post, rfl, h2, h3⟩ := ih hl
      exact ⟨a :: pre, post, rfl, h2, h3⟩
    | none =>
      rw [List.getLast?_eq_none_iff] at hl
      rw [List.filter_cons, hl] at h
      split at h
      · cases h
        rename_i ha
        exact ⟨[], l, rfl, ha, fun y hy => by simpa using List.filter_eq_nil_iff.1 hl y hy⟩
      · cases h

theorem head_filter {α : Type} {q : α → Bool} {l : List α} {x : α} (h : (l.filter q).head? = some x) :
    ∃ pre post, l = pre ++ x :: post ∧ q x = true ∧ ∀ y ∈ pre, q y = false := by
  induction l with
  | nil => cases h
  | cons a l ih =>
    by_cases ha : q a = true
    · rw [List.filter_cons_of_pos ha] at h
      cases h
      exact ⟨[], l, rfl, ha, fun _ h => by cases h⟩
    · rw [List.filter_cons_of_neg ha] at h
      obtain ⟨pre, post, rfl, h2, h3⟩ := ih h
      refine ⟨a :: pre, post, rfl, h2, fun y hy => ?_⟩
      rcases List.mem_cons.1 hy with rfl | hy
      · simpa using ha
      · exact h3 y hy

/-- The rows of some days add up to the postings of those days. -/
theorem rows_total {split : Bool} {mat : Str → Bool} (ts : List Txn) (groups : List (List RegEntry))
    (h : List.Forall₂ (fun (tp : Txn × Posting) g => RowsFor split tp.1 tp.2 g ∧ AmountsFor split tp.1 tp.2 g) (matching mat ts) groups) (c : Str)
    (P : Int → Bool) :
    rowTotal c (groups.flatten.filter fun r => P r.date) = total (fun p => (mat p.acct && decide (p.ccy = c)) && P p.date) ts.flatten := by
  have e1 : rowTotal c (groups.flatten.filter fun r => P r.date) =
      ((matching mat ts).map fun tp => if tp.2.ccy = c ∧ P tp.2.date = true then tp.2.val else 0).sum := by
    generalize matching mat ts = m at h
    induction h with
    | nil => rfl
    | cons hg _ ih =>
      rename_i tp g m gs _
      rw [List.flatten_cons, List.filter_append, rowTotal_append, ih, List.map_cons, List.sum_cons]
      congr 1
      unfold rowTotal
      by_cases hc : tp.2.ccy = c ∧ P tp.2.date = true
      · rw [if_pos hc, ← hg.2.sum, List.filter_filter]
        congr 2
        rw [List.filter_eq_self]
        intro r hr
        have := hg.1.fields r hr
        simp [this, hc]
      · rw [if_neg hc]
        have : (g.filter fun r => P r.date).filter (fun r => decide (r.ccy = c)) = [] := by
          rw [List.filter_filter, List.filter_eq_nil_iff]
          intro r hr
          have := hg.1.fields r hr
          simp only [this, Bool.and_eq_true, decide_eq_true_eq]
          exact hc
        rw [this]; rfl
  rw [e1]
  clear e1 h
  induction ts with
  | nil => simp [matching, total]
  | cons t ts ih =>
    unfold matching at ih ⊢
    rw [List.flatMap_cons, List.map_append, List.sum_append, ih, List.flatten_cons, total_append]
    congr 1
    clear ih
    rw [List.map_map]
    show (List.map (fun p : Posting => if p.ccy = c ∧ P p.date = true then p.val else 0) _).sum = _
    induction t with
    | nil => simp [total]
    | cons q t ih2 =>
      rw [total_cons, ← ih2]
      by_cases hm : mat q.acct = true <;> by_cases hc : q.ccy = c <;> by_cases hd : P q.date = true <;> simp [hm, hc, hd, List.filter_cons]

theorem chosen_last {count : Int} (hc : count ≤ 0) {W : List RegEntry} {q : RegEntry → Bool} {x : RegEntry}
    (h : ((chosen count W).filter q).getLast? = some x) : (W.filter q).getLast? = some x := by
  unfold chosen at h
  rw [if_neg (by omega)] at h
  split at h
  · have hW : W = W.take (W.length - (-count).toNat) ++ (W.reverse.take (-count).toNat).reverse := by
      rw [List.take_reverse, List.reverse_reverse, List.take_append_drop]
    rw [hW, List.filter_append, List.getLast?_append, h]
    rfl
  · exact h

theorem chosen_head {count : Int} (hc : 0 ≤ count) {W : List RegEntry} {q : RegEntry → Bool} {x : RegEntry}
    (h : ((chosen count W).filter q).head? = some x) : (W.filter q).head? = some x := by
  unfold chosen at h
  split at h
  · conv_lhs => rw [← List.take_append_drop count.toNat W]
    rw [List.filter_append, List.head?_append, h]
    rfl
  · rw [if_neg (by omega)] at h
    exact h

theorem agrees {ts : List Txn} (hcan : Canonical ts) {acct : Str} {split : Bool} {lo hi count : Int} {rows : List RegEntry}
    (h : RegisterOf ts (fun x => decide (x = acct)) split lo hi count rows) : Agrees lo hi count acct ts.flatten rows := by
  obtain ⟨groups, h1, h2, _, rfl⟩ := h
  have hd := groups_dates (matching_dates hcan) h1
  have ht : ∀ c P, rowTotal c (groups.flatten.filter fun r => P r.date) = held acct c P ts.flatten := by
    intro c P
    rw [rows_total ts groups h1 c P]
    unfold held
    congr 1
    funext p
    simp
  generalize groups.flatten = all at *
  clear h1
  refine ⟨?_, ?_, ?_⟩
  · intro hcount c x hx
    have hx := chosen_last hcount hx
    rw [List.filter_filter] at hx
    obtain ⟨pre, post, rfl, q1, q2⟩ := last_filter hx
    rw [(h2 pre x post rfl).1, ← ht]
    simp only [Bool.and_eq_true, decide_eq_true_eq] at q1
    rw [q1.1]
    have hp := List.pairwise_append.1 hd
    have e : pre ++ x :: post = (pre ++ [x]) ++ post := by simp
    rw [e, List.filter_append]
    have e1 : (pre ++ [x]).filter (fun r => until_ hi r.date) = pre ++ [x] := by
      rw [List.filter_eq_self]
      intro r hr
      have : r.date ≤ x.date := by
        rcases List.mem_append.1 hr with hr | hr
        · exact hp.2.2 r hr x (by simp)
        · rw [List.mem_singleton.1 hr]
      unfold until_
      rw [decide_eq_true_eq]
      omega
    have e2 : rowTotal c (post.filter fun r => until_ hi r.date) = 0 := by
      unfold rowTotal
      rw [List.filter_filter, List.filter_eq_nil_iff.2]
      · rfl
      · intro y hy
        have h3 := q2 y hy
        have h4 := (List.pairwise_cons.1 hp.2.1).1 y hy
        simp only [Bool.and_eq_false_iff, decide_eq_false_iff_not] at h3
        unfold until_
        simp only [Bool.and_eq_true, decide_eq_true_eq]
        rintro ⟨h5, h6⟩
        rcases h3 with h3 | h3
        · exact h3 h5
        · exact h3 ⟨by omega, h6⟩
    rw [e1]
    have e3 : ∀ l, rowTotal c (pre ++ [x] ++ l) = rowTotal c (pre ++ [x]) + rowTotal c l := fun l => by rw [rowTotal_append]
    rw [e3, e2, add_zero]
  · intro hcount c x hx
    have hx := chosen_head hcount hx
    rw [List.filter_filter] at hx
    obtain ⟨pre, post, rfl, q1, q2⟩ := head_filter hx
    rw [(h2 pre x post rfl).1, ← ht]
    simp only [Bool.and_eq_true, decide_eq_true_eq] at q1
    rw [q1.1]
    have hp := List.pairwise_append.1 hd
    rw [rowTotal_append, List.filter_append, rowTotal_append]
    have e0 : rowTotal c [x] = x.amount := by simp [rowTotal, q1.1]
    have e2 : rowTotal c ((x :: post).filter fun r => ahead lo r.date) = 0 := by
      rw [List.filter_eq_nil_iff.2]
      · rfl
      · intro y hy
        have : x.date ≤ y.date := by
          rcases List.mem_cons.1 hy with rfl | hy
          · exact le_refl _
          · exact (List.pairwise_cons.1 hp.2.1).1 y hy
        unfold ahead
        rw [decide_eq_true_eq]
        omega
    have e1 : rowTotal c (pre.filter fun r => ahead lo r.date) = rowTotal c pre := by
      unfold rowTotal
      rw [List.filter_filter]
      congr 2
      apply List.filter_congr
      intro y hy
      have h3 := q2 y hy
      have h4 := hp.2.2 y hy x (by simp)
      simp only [Bool.and_eq_false_iff, decide_eq_false_iff_not] at h3
      unfold ahead
      by_cases hc : y.ccy = c
      · rcases h3 with h3 | h3
        · exact absurd hc h3
        · have : lo ≠ 0 ∧ y.date < lo := by omega
          simp [hc, this]
      · simp [hc]
    rw [e0, e1, e2]
    ring
  · intro hcount c
    rw [← ht, hcount]
    rfl

/-- **C133** (partial: registers in ascending order; operations only without conversion; accounts whose names have no special characters).  For the same ledger and operations, the balances and amounts of `register` are those
of `report`: at the end of the window what the report's postings up to then add up to, at its start what they add up to before it, and in between
the change.  With `--all` every matching account of the report has its section. -/
theorem c133_agree_partial (le : Env) (depth : Nat) (e : OpEnv) (hs : IsSort e.srt) (hre : LiteralNames e) (fuel : Nat) (a : AppConf) (r : RegisterConf)
    (hr : r.asc = true) (hc : r.combined = false) (r' : ReportConf) (hr' : r'.sum = false ∨ r'.typ = b!"Beancount") (hk : ¬ combines r')
    (o : Int → Str → List Str → List Str) (args : List Str) (arg : Str) (hv : r.convert = true ↔ converts r') (hv' : r.convert = true → args = [])
    (secs : List (Str × List (Option RegEntry))) (h : registerCmd le depth e fuel a r args arg = .ok secs)
    (ts : List Txn) (h' : reportCmd le depth e fuel a r' o args = .ok ts) :
    ∃ secs' : List (Str × List RegEntry), secs = secs'.map (fun s => (s.1, s.2.map some)) ∧
      (∀ s ∈ secs', PlainName s.1 →
        Agrees (dateFromString e.today r.beginDate) (dateFromString e.today r.endDate) r.count s.1 ts.flatten s.2) ∧
      (a.all = true → ∀ p ∈ ts.flatten, e.mat arg p.acct = true → p.acct ∈ secs'.map (·.1)) := by
  obtain ⟨b, secs', hb, hg, _, e1, _, k2, k3⟩ := sections_spec hs hr hc h
  have hts : ts = b.transactions e.srt := by
    unfold reportCmd at h'
    obtain ⟨b1, m1, m2⟩ := bind_ok h'
    obtain ⟨b0, m0, m1⟩ := bind_ok m1
    obtain ⟨fb, m3, rfl⟩ := reportTxns_ok m2 hr'
    have hops : opsCmd e fuel a [] b0 = .ok b0 := by simp [opsCmd, bookOps, runAll]
    unfold registerBook at hb
    rw [m0, CmdEnd.bind] at hb
    have hsb : shownBook e a r' b1 = convertCmd a r.convert b1 := by
      unfold shownBook
      cases hcv : r.convert with
      | true =>
        obtain ⟨g1, g2⟩ := hv.1 hcv
        have : r'.combineby = b!"skip" := by
          by_contra hne
          exact hk ⟨g1, hne⟩
        rw [if_neg g1, g2, if_neg (by simp [this])]
      | false =>
        split
        · rfl
        · rename_i ht
          have : r'.combineby = b!"skip" := by
            by_contra hne
            exact hk ⟨ht, hne⟩
          have hn : r'.convert = false := by
            cases hx : r'.convert with
            | false => rfl
            | true => have := hv.2 ⟨ht, hx⟩; rw [hcv] at this; cases this
          rw [hn, if_neg (by simp [this])]
    rw [hsb] at m3
    cases hcv : r.convert with
    | true =>
      have ha := hv' hcv
      subst ha
      rw [hops] at m1
      cases m1
      rw [m3, CmdEnd.bind, if_pos rfl] at hb
      cases hb
      rfl
    | false =>
      rw [hcv] at m3 hb
      simp only [convertCmd, Bool.false_eq_true, if_false] at m3 hb
      cases m3
      rw [CmdEnd.bind] at hb
      split at hb
      · rename_i ha
        cases hb
        rw [ha, hops] at m1
        cases m1
        rfl
      · rw [m1] at hb
        cases hb
        rfl
  have hcan : Canonical (b.transactions e.srt) := compact_canonical hs hg.1
  refine ⟨secs', e1, fun s hsm hpl => ?_, fun hall p hp hm => ?_⟩
  · rw [hts]
    exact agrees hcan ((say_of (a := a) hre k2 k3).2 s hsm hpl)
  · rw [k2, hall]
    rw [hts] at hp
    have hp : p ∈ reported e.srt b := hp
    rw [reported_eq hs hg.1] at hp
    obtain ⟨q, hq, hkey⟩ := compactPost_key_mem hs _ p hp
    have hacct := (key_eq_iff.1 hkey).2.2.1
    unfold Book.accounts
    refine ((sortStr_sorted _ ((List.nodup_dedup _).filter _)).2 _).2 (List.mem_filter.2 ⟨?_, by simp⟩)
    rw [List.mem_dedup, hacct]
    exact List.mem_map.2 ⟨q, List.mem_filter.2 ⟨hq, by rw [← hacct]; exact hm⟩, rfl⟩

/-- **C133** for reports by period (partial as above, and without conversion): in a register without window, the amounts of the days of a period add up to what the report shows
for that period. -/
theorem c133_periods_partial (le : Env) (depth : Nat) (e : OpEnv) (hs : IsSort e.srt) (hre : LiteralNames e) (fuel : Nat) (a : AppConf) (r : RegisterConf)
    (hr : r.asc = true) (hc : r.combined = false) (hn : r.count = 0) (hb0 : dateFromString e.today r.beginDate = 0) (he0 : dateFromString e.today r.endDate = 0)
    (hv : r.convert = false) (r' : ReportConf) (hr' : r'.sum = false ∨ r'.typ = b!"Beancount") (hk : combines r') (hv' : ¬ converts r')
    (o : Int → Str → List Str → List Str) (args : List Str) (arg : Str)
    (secs : List (Str × List (Option RegEntry))) (h : registerCmd le depth e fuel a r args arg = .ok secs)
    (ts : List Txn) (h' : reportCmd le depth e fuel a r' o args = .ok ts) :
    ∃ secs' : List (Str × List RegEntry), secs = secs'.map (fun s => (s.1, s.2.map some)) ∧
      ∀ s ∈ secs', PlainName s.1 → ∀ c d,
        rowTotal c (s.2.filter fun x => decide (floorBy e.today x.date r'.combineby = d)) = held s.1 c (fun d' => decide (d' = d)) ts.flatten := by
  obtain ⟨b, secs', hb, hg, _, e1, _, k2, k3⟩ := sections_spec hs hr hc h
  refine ⟨secs', e1, fun s hsm hpl c d => ?_⟩
  unfold reportCmd at h'
  obtain ⟨b1, m1, m2⟩ := bind_ok h'
  obtain ⟨b0, m0, m1⟩ := bind_ok m1
  obtain ⟨fb, m3, rfl⟩ := reportTxns_ok m2 hr'
  have hbb : b1 = b := by
    unfold registerBook at hb
    rw [m0, CmdEnd.bind, hv] at hb
    simp only [convertCmd, Bool.false_eq_true, if_false] at hb
    rw [CmdEnd.bind] at hb
    split at hb
    · rename_i ha
      rw [ha] at m1
      have hops : opsCmd e fuel a [] b0 = .ok b0 := by simp [opsCmd, bookOps, runAll]
      rw [hops] at m1
      cases hb
      cases m1
      rfl
    · rw [m1] at hb
      cases hb
      rfl
  subst hbb
  obtain ⟨_, hw⟩ := shown_wsum hs hg m3 (fun d' _ a' c' => if a' = s.1 ∧ c' = c ∧ d' = d then 1 else 0)
  obtain ⟨groups, h1, _, _, h4⟩ := (say_of (a := a) hre k2 k3).2 s hsm hpl
  rw [hn, hb0, he0] at h4
  have h4 : s.2 = groups.flatten := by
    rw [h4]
    show List.filter _ _ = _
    rw [List.filter_eq_self]
    intro x _
    simp
  rw [h4, rows_total _ groups h1 c (fun d' => decide (floorBy e.today d' r'.combineby = d))]
  unfold held
  rw [total_eq_wsum, total_eq_wsum]
  have e2 : wsum (fun p => if (decide (p.acct = s.1 ∧ p.ccy = c) && decide (p.date = d)) = true then 1 else 0) (Book.transactions e.srt fb).flatten =
      wsum (fun p => if p.acct = s.1 ∧ p.ccy = c ∧ p.date = d then 1 else 0) (reported e.srt fb) := by
    unfold reported
    congr 1
    funext p
    simp only [Bool.and_eq_true, decide_eq_true_eq, and_assoc]
  rw [e2, hw]
  unfold reported
  congr 1
  funext p
  simp only [shownCCY, shownRate, shownDate, hk, hv', if_true, if_false, mul_one, Bool.and_eq_true, decide_eq_true_eq, and_assoc]

/-! ## Examples -/

/-- Three payments in two months. -/
def agreeFile : Str := b!"2020/01/05 P\n  A 1 E\n  C -1 E\n2020/02/01 Q\n  A 2 E\n  C -2 E\n2020/02/10 Q\n  A 4 E\n  C -4 E\n"

/-- From the first of February to the fourth. -/
def febRegister : RegisterConf := { demoRegister with beginDate := b!"2020/02/01", endDate := b!"2020/02/05" }

/-- What is shown of account A: the balance on the fourth of February is 3, before the first it was 1; the report has 1, 2 and 4. -/
example : ((registerCmd (demoEnv [(b!"a", agreeFile)]) 1 dotOps 1 demoApp febRegister [] b!".").okB fun secs =>
      decide (secs.map (fun s => (s.1, s.2.map fun x => x.map fun x => (x.amount, x.balance))) =
        [(b!"A", [some (2, 3)]), (b!"C", [some (-2, -3)])])) = true ∧
    ((reportCmd (demoEnv [(b!"a", agreeFile)]) 1 dotOps 1 demoApp (yearReport false b!"skip") (fun _ _ l => l) []).okB fun ts =>
      decide ((ts.flatten.map fun p => (p.date, p.acct, p.val)) = [(20200105, b!"A", 1), (20200105, b!"C", -1), (20200201, b!"A", 2), (20200201, b!"C", -2),
        (20200210, b!"A", 4), (20200210, b!"C", -4)])) = true ∧
    held b!"A" b!"E" (until_ 20200205) [⟨20200105, [], [], b!"A", b!"E", 1, [], 0, 0, [], []⟩, ⟨20200201, [], [], b!"A", b!"E", 2, [], 0, 0, [], []⟩] = 3 := by
  decide +kernel

/-- The other hypotheses of the theorems above. -/
example : IsSort dotOps.srt ∧ LiteralNames dotOps ∧ febRegister.asc = true ∧ febRegister.combined = false ∧ (yearReport false b!"skip").sum = false ∧
    ¬ combines (yearReport false b!"skip") ∧ (febRegister.convert = true ↔ converts (yearReport false b!"skip")) ∧ combines (yearReport false b!"monthly") ∧
    ¬ converts (yearReport false b!"monthly") ∧ PlainName b!"A" ∧ dateFromString 0 [] = 0 :=
  ⟨insSort_isSort, dotOps_literal, rfl, rfl, rfl, by decide, by decide, by decide, by decide, by decide, by decide⟩

/-- C133 is false with conversion and operations: the register converts first and the report last, so that a currency renamed by an operation is
shown under its new name by the one and converted by the other. -/
theorem c133_convert_fails : ¬ ∀ (le : Env) (depth : Nat) (e : OpEnv) (_ : IsSort e.srt) (_ : LiteralNames e) (fuel : Nat) (a : AppConf) (r : RegisterConf)
    (_ : r.asc = true) (_ : r.combined = false) (r' : ReportConf) (_ : r'.sum = false) (_ : ¬ combines r')
    (o : Int → Str → List Str → List Str) (args : List Str) (arg : Str) (_ : r.convert = true) (_ : converts r')
    (secs : List (Str × List RegEntry)) (_ : registerCmd le depth e fuel a r args arg = .ok (secs.map (fun s => (s.1, s.2.map some))))
    (ts : List Txn) (_ : reportCmd le depth e fuel a r' o args = .ok ts),
    ∀ s ∈ secs, PlainName s.1 → Agrees (dateFromString e.today r.beginDate) (dateFromString e.today r.endDate) r.count s.1 ts.flatten s.2 := by
  intro h
  have h1 : (registerCmd (demoEnv [(b!"a", dotFile)]) 1 dotOps 1 demoApp { demoRegister with convert := true } [b!"mapccy=/^E$/Z/"] b!".").okB (fun secs =>
      decide ((secs.head?.map fun s => (s.1, s.2.map fun x => x.map fun x => (x.ccy, x.amount))) = some (b!"A", [some (b!"Z", 1)]))) = true := by decide +kernel
  have h2 : (reportCmd (demoEnv [(b!"a", dotFile)]) 1 dotOps 1 demoApp (yearReport true b!"skip") (fun _ _ l => l) [b!"mapccy=/^E$/Z/"]).okB (fun ts =>
      decide (held b!"A" b!"Z" (within 0 0) ts.flatten = 0)) = true := by decide +kernel
  obtain ⟨secs, e1, e2⟩ := okB_ok h1
  obtain ⟨ts, e3, e4⟩ := okB_ok h2
  simp only [decide_eq_true_eq] at e2 e4
  obtain ⟨secs', rfl⟩ := c100_no_holes _ _ _ _ _ _ (by rfl) _ _ _ e1
  cases secs' with
  | nil => cases e2
  | cons s l =>
    obtain ⟨n, rows⟩ := s
    simp only [List.map_cons, List.head?_cons, Option.map_some, Option.some.injEq, Prod.mk.injEq, List.map_map] at e2
    obtain ⟨rfl, e2⟩ := e2
    have := (h _ 1 dotOps insSort_isSort dotOps_literal 1 demoApp { demoRegister with convert := true } rfl rfl (yearReport true b!"skip") rfl (by decide) _
      [b!"mapccy=/^E$/Z/"] b!"." rfl (by decide) _ e1 ts e3 (b!"A", rows) (by simp) (show PlainName b!"A" by decide)).change rfl b!"Z"
    change rowTotal b!"Z" rows = held b!"A" b!"Z" (within (dateFromString dotOps.today []) (dateFromString dotOps.today [])) ts.flatten at this
    rw [show dateFromString dotOps.today [] = 0 by decide +kernel, e4] at this
    match rows, e2 with
    | [x], e2 =>
      simp only [List.map_cons, List.map_nil, Function.comp, Option.map_some, List.cons.injEq, Option.some.injEq, Prod.mk.injEq, and_true] at e2
      simp [rowTotal, e2.1, e2.2] at this
    | [], e2 => cases e2
    | _ :: _ :: _, e2 => simp at e2

end Verif
