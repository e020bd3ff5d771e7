import Verif.Spec.Generate
import Verif.Props.Import2
import Verif.Props.Ops
import Verif.Props.Script

/-! # C88 (generating), C85 (amounts booked by scripts) -/

namespace Verif
open Spec

theorem genAct_main {e : OpEnv} {ss} {s s' : GenState} {a : GenAct} (h : genAct e ss s a = .ok s') (hr : Reachable e.srt e.today s.main) :
    Reachable e.srt e.today s'.main := by
  cases a with
  | read => cases h; exact reachable_filter hr .read rfl
  | since d =>
    simp only [genAct] at h
    split at h
    · cases h
    · cases h; exact reachable_filter hr (.since _) rfl
  | asof d =>
    simp only [genAct] at h
    split at h
    · cases h
    · cases h; exact reachable_filter hr (.asof _) rfl
  | map f t a =>
    simp only [genAct] at h
    split at h
    · cases h; exact reachable_filter hr (.mapAccount _) rfl
    · cases h
  | add a =>
    simp only [genAct] at h
    split at h
    · cases h; exact hr
    · cases h
    · cases h

theorem genAct_bb {e : OpEnv} {ss} {s s' : GenState} {a : GenAct} (h : genAct e ss s a = .ok s') (hb : OpenInv s.bb []) :
    OpenInv s'.bb [] := by
  cases a with
  | read => cases h; exact hb
  | since d =>
    simp only [genAct] at h
    split at h
    · cases h
    · cases h; exact hb
  | asof d =>
    simp only [genAct] at h
    split at h
    · cases h
    · cases h; exact hb
  | map f t a =>
    simp only [genAct] at h
    split at h
    · cases h; exact hb
    · cases h
  | add a =>
    simp only [genAct] at h
    split at h
    · rename_i bb hbb
      cases h; exact (addCall_open hb _).1 bb (Or.inl hbb)
    · cases h
    · cases h

theorem genActs_inv {e : OpEnv} {ss} (P : GenState → Prop) (script : List GenAct)
    (hstep : ∀ s s' a, a ∈ script → genAct e ss s a = .ok s' → P s → P s') : ∀ s s', genActs e ss s script = .ok s' → P s → P s' := by
  induction script with
  | nil => intro s s' h hp; cases h; exact hp
  | cons a as ih =>
    intro s s' h hp
    unfold genActs at h
    cases hg : genAct e ss s a with
    | ok s1 =>
      rw [hg] at h
      exact ih (fun s s' a ha => hstep s s' a (List.mem_cons_of_mem _ ha)) s1 s' h (hstep s s1 a (by simp) hg hp)
    | err => rw [hg] at h; cases h
    | panic => rw [hg] at h; cases h

/-! ## What is booked -/

/-- The calls of the builder one `add` makes. -/
def addBuilderCalls (a : AddArgs) : List Call :=
  match a.amt with
  | .num r =>
    [.newTransaction a.date a.desc a.note, .addPosting a.account a.ccy (r / a.denom) a.lnote, .addPosting a.caccount a.ccy (-(r / a.denom)) []] ++
      match a.amt2 with
      | .num r2 => [.addPosting a.account2 a.ccy2 (r2 / a.denom2) [], .addPosting a.caccount a.ccy2 (-(r2 / a.denom2)) []]
      | _ => []
  | _ => []

theorem newRat_one {d : Int} {f : Rat} (h : newRat 1 d = some f) (r : Rat) : r * f = r / d := by
  unfold newRat at h
  split at h
  · cases h
  · cases h; push_cast; rw [mul_one_div]

theorem addCall_calls {b b' : Builder} {a : AddArgs} (h : addCall b a = .ok b') : b.calls (addBuilderCalls a) = some b' := by
  unfold addCall at h
  split at h
  · cases h
  · cases ha : a.amt with
    | bad => rw [ha] at h; cases h
    | none => rw [ha] at h; cases h
    | num r =>
      rw [ha] at h
      simp only at h
      cases hn : newRat 1 a.denom with
      | none => rw [hn] at h; cases h
      | some f =>
        rw [hn] at h
        simp only at h
        cases ht : b.newTransaction a.date a.desc a.note with
        | none => rw [ht] at h; cases h
        | some b1 =>
          rw [ht] at h
          simp only at h
          rw [newRat_one hn] at h
          unfold addBuilderCalls
          rw [ha]
          simp only
          unfold addSecond at h
          cases ha2 : a.amt2 with
          | bad => rw [ha2] at h; cases h
          | none =>
            rw [ha2] at h
            simp only at h
            split at h
            · cases h
              simp [Builder.calls, Builder.call, ht]
            · cases h
          | num r2 =>
            rw [ha2] at h
            simp only at h
            cases hn2 : newRat 1 a.denom2 with
            | none => rw [hn2] at h; cases h
            | some f2 =>
              rw [hn2] at h
              simp only at h
              rw [newRat_one hn2] at h
              cases h
              simp [Builder.calls, Builder.call, ht]

/-- Total of an account and currency on a date. -/
def dayTotal (d : Int) (acct ccy : Str) (l : List Posting) : Rat := total (fun p => decide (p.date = d ∧ p.acct = acct ∧ p.ccy = ccy)) l

theorem keyFun_day (d : Int) (a c : Str) : KeyFun (fun p : Posting => decide (p.date = d ∧ p.acct = a ∧ p.ccy = c)) := by
  intro p q hpq
  obtain ⟨h1, _, h3, h4⟩ := key_eq_iff.1 hpq
  simp [h1, h3, h4]

/-- Sum of the lines of an account and currency. -/
private def lineSum (acct ccy : Str) (l : List (Str × Str × Rat)) : Rat :=
  ((l.filter fun l => decide (l.1 = acct ∧ l.2.1 = ccy)).map (·.2.2)).sum

private theorem lineSum_append (acct ccy : Str) (l m) : lineSum acct ccy (l ++ m) = lineSum acct ccy l + lineSum acct ccy m := by
  simp [lineSum]

private theorem lineSum_cons (acct ccy : Str) (x l) :
    lineSum acct ccy (x :: l) = (if x.1 = acct ∧ x.2.1 = ccy then x.2.2 else 0) + lineSum acct ccy l := by
  unfold lineSum
  rw [List.filter_cons]
  by_cases h : x.1 = acct ∧ x.2.1 = ccy <;> simp [h]

theorem amountOf_num {ss} {v : SVal} {r : Rat} (h : getBigRat ss v = .num r) (hx : ∀ x, v = .float x → ∃ q, x = .fin q) : amountOf ss v = some r := by
  cases v with
  | none => simp [getBigRat] at h
  | bool b => simp [getBigRat] at h
  | int i => simp [getBigRat] at h; simp [amountOf, h]
  | float x => obtain ⟨q, rfl⟩ := hx x rfl; simp [getBigRat] at h; simp [amountOf, h]
  | str s =>
    cases hs : ss s with
    | none => simp [getBigRat, hs] at h
    | some q => simp [getBigRat, hs] at h; simp [amountOf, hs, h]
  | list l => simp [getBigRat] at h
  | dict l => simp [getBigRat] at h
  | other => simp [getBigRat] at h

theorem amountOf_none {ss} {v : SVal} (h : getBigRat ss v = .none) : amountOf ss v = none := by
  cases v with
  | none => rfl
  | float x => cases x <;> simp [getBigRat] at h
  | str s =>
    cases hs : ss s with
    | none => simp [getBigRat, hs] at h
    | some q => simp [getBigRat, hs] at h
  | _ => simp [getBigRat] at h

theorem addPosting_day (b : Builder) (a c : Str) (v : Rat) (n : Str) (d : Int) (acct ccy : Str) :
    dayTotal d acct ccy (b.addPosting a c v n).post = dayTotal d acct ccy b.post + if b.currDate = d ∧ a = acct ∧ c = ccy then v else 0 := by
  unfold dayTotal Builder.addPosting
  rw [total_append, total_cons, total_nil]
  simp

theorem newTransaction_date {b b' : Builder} {d p n} (h : b.newTransaction d p n = some b') : b'.currDate = d := by
  unfold Builder.newTransaction at h
  split at h
  · cases h
  · split at h
    · cases h
    · cases h; rfl

theorem addCall_day {ss today} {b b' : Builder} {a : ScriptAdd} (h : addCall b (a.args ss today) = .ok b') (hn : NoNaN a) (d : Int) (acct ccy : Str) :
    dayTotal d acct ccy b'.post = dayTotal d acct ccy b.post +
      if dateFromString today a.date = d then lineSum acct ccy (addLines ss a) else 0 := by
  unfold addCall at h
  split at h
  · cases h
  · have hx1 : ∀ x, a.amt = .float x → ∃ q, x = .fin q := fun x hx => hn x (Or.inl hx)
    have hx2 : ∀ x, a.amt2 = .float x → ∃ q, x = .fin q := fun x hx => hn x (Or.inr hx)
    simp only [ScriptAdd.args] at h
    cases ha : getBigRat ss a.amt with
    | bad => rw [ha] at h; cases h
    | none => rw [ha] at h; cases h
    | num r =>
      rw [ha] at h
      simp only at h
      have e1 := amountOf_num ha hx1
      cases hn : newRat 1 a.denom with
      | none => rw [hn] at h; cases h
      | some f =>
        rw [hn] at h
        simp only at h
        cases ht : b.newTransaction (dateFromString today a.date) a.desc a.note with
        | none => rw [ht] at h; cases h
        | some b1 =>
          rw [ht] at h
          simp only at h
          rw [newRat_one hn] at h
          have hp := (newTransaction_post ht).1
          have hd := newTransaction_date ht
          unfold addSecond at h
          simp only at h
          unfold addLines
          rw [e1]
          cases ha2 : getBigRat ss a.amt2 with
          | bad => rw [ha2] at h; cases h
          | none =>
            rw [ha2] at h
            simp only at h
            split at h
            · cases h
              rw [addPosting_day, addPosting_day, hp]
              simp only [Builder.addPosting, hd, amountOf_none ha2, pairLines, List.append_nil, lineSum_cons]
              by_cases hdd : dateFromString today a.date = d <;> simp [hdd, lineSum] <;> ring
            · cases h
          | num r2 =>
            rw [ha2] at h
            simp only at h
            have e2 := amountOf_num ha2 hx2
            cases hn2 : newRat 1 a.denom2 with
            | none => rw [hn2] at h; cases h
            | some f2 =>
              rw [hn2] at h
              simp only at h
              rw [newRat_one hn2] at h
              cases h
              rw [addPosting_day, addPosting_day, addPosting_day, addPosting_day, hp]
              simp only [Builder.addPosting, hd, e2, pairLines, List.cons_append, List.nil_append, lineSum_cons]
              by_cases hdd : dateFromString today a.date = d <;> simp [hdd, lineSum] <;> ring

private theorem scriptTotal_cons (ss today) (a : GenAct) (as : List GenAct) (d : Int) (acct ccy : Str) :
    scriptTotal ss today (a :: as) d acct ccy =
      (match a with
        | .add x => if dateFromString today x.date = d then lineSum acct ccy (addLines ss x) else 0
        | _ => 0) + scriptTotal ss today as d acct ccy := by
  unfold scriptTotal adds
  cases a with
  | add x =>
    simp only [List.filterMap_cons]
    rw [List.filter_cons]
    by_cases h : dateFromString today x.date = d
    · simp [h, lineSum]
    · simp [h]
  | read => simp
  | since s => simp
  | asof s => simp
  | map f t a => simp

theorem genActs_day {e : OpEnv} {ss} (script : List GenAct) (hn : ∀ a ∈ adds script, NoNaN a) (d : Int) (acct ccy : Str) :
    ∀ s s', genActs e ss s script = .ok s' →
      dayTotal d acct ccy s'.bb.post = dayTotal d acct ccy s.bb.post + scriptTotal ss e.today script d acct ccy := by
  induction script with
  | nil => intro s s' h; cases h; simp [scriptTotal, adds]
  | cons a as ih =>
    intro s s' h
    unfold genActs at h
    have hn' : ∀ a ∈ adds as, NoNaN a := fun x hx => hn x (by
      unfold adds at hx ⊢
      rw [List.mem_filterMap] at hx ⊢
      obtain ⟨y, hy, h2⟩ := hx
      exact ⟨y, List.mem_cons_of_mem _ hy, h2⟩)
    cases hg : genAct e ss s a with
    | err => rw [hg] at h; cases h
    | panic => rw [hg] at h; cases h
    | ok s1 =>
      rw [hg] at h
      rw [ih hn' s1 s' h, scriptTotal_cons]
      cases a with
      | read => cases hg; simp
      | since x =>
        simp only [genAct] at hg
        split at hg
        · cases hg
        · cases hg; simp
      | asof x =>
        simp only [genAct] at hg
        split at hg
        · cases hg
        · cases hg; simp
      | map f t al =>
        simp only [genAct] at hg
        split at hg
        · cases hg; simp
        · cases hg
      | add x =>
        simp only [genAct] at hg
        split at hg
        · rename_i bb hbb
          cases hg
          simp only
          rw [addCall_day hbb (hn x (by simp [adds])), add_assoc]
        · cases hg
        · cases hg

theorem build_post {srt} {bb : Builder} {b : Book} (h : bb.build srt = some b) :
    b.post = if bb.post = [] then [] else compactPost srt bb.post := by
  unfold Builder.build at h
  cases hc : bb.checkAndClear with
  | none => rw [hc] at h; cases h
  | some b1 =>
    rw [hc] at h
    have hp : b1.post = bb.post := by
      unfold Builder.checkAndClear at hc
      split at hc
      · cases hc; rfl
      · cases hc
    simp only [Option.some.injEq, hp] at h
    subst h
    unfold Book.compact
    split
    · rename_i h0; simp only at h0; simp [h0]
    · rename_i h0; simp only at h0; simp [h0]

theorem genActs_built {e : OpEnv} {ss} (script : List GenAct) : ∀ s s', genActs e ss s script = .ok s' →
    ∃ cs, s.bb.calls cs = some s'.bb := by
  induction script with
  | nil => intro s s' h; cases h; exact ⟨[], rfl⟩
  | cons a as ih =>
    intro s s' h
    unfold genActs at h
    cases hg : genAct e ss s a with
    | err => rw [hg] at h; cases h
    | panic => rw [hg] at h; cases h
    | ok s1 =>
      rw [hg] at h
      obtain ⟨cs, hcs⟩ := ih s1 s' h
      have h1 : ∃ cs1, s.bb.calls cs1 = some s1.bb := by
        cases a with
        | read => cases hg; exact ⟨[], rfl⟩
        | since x =>
          simp only [genAct] at hg
          split at hg
          · cases hg
          · cases hg; exact ⟨[], rfl⟩
        | asof x =>
          simp only [genAct] at hg
          split at hg
          · cases hg
          · cases hg; exact ⟨[], rfl⟩
        | map f t al =>
          simp only [genAct] at hg
          split at hg
          · cases hg; exact ⟨[], rfl⟩
          · cases hg
        | add x =>
          simp only [genAct] at hg
          split at hg
          · rename_i bb hbb
            cases hg
            exact ⟨_, addCall_calls hbb⟩
          · cases hg
          · cases hg
      obtain ⟨cs1, hcs1⟩ := h1
      refine ⟨cs1 ++ cs, ?_⟩
      rw [calls_append, hcs1]
      exact hcs

/-- C85 (partial): what a script's successful `add` calls book on any date, account and currency is exactly the sum of their amounts
divided by their denominators, with the opposite amounts on the counter-accounts (provided no amount is a float that is no number). -/
theorem c85_booked_partial (e : OpEnv) (hs : IsSort e.srt) (ss : Str → Option Rat) (main : Book) (script : List GenAct) (ts : List Txn)
    (h : generate e ss false main script = .shown ts) (hn : ∀ a ∈ adds script, NoNaN a) (d : Int) (acct ccy : Str) :
    dayTotal d acct ccy ts.flatten = scriptTotal ss e.today script d acct ccy := by
  unfold generate at h
  cases hg : genActs e ss ⟨main, Builder.new⟩ script with
  | err => rw [hg] at h; cases h
  | panic => rw [hg] at h; cases h
  | ok s =>
    rw [hg] at h
    simp only at h
    cases hb : s.bb.build e.srt with
    | none => rw [hb] at h; cases h
    | some b =>
      rw [hb] at h
      simp only [Bool.false_eq_true, if_false, GenOut.shown.injEq] at h
      obtain ⟨cs, hcs⟩ := genActs_built script _ _ hg
      have w := (built_balanced hs hcs hb).1
      have h1 := genActs_day script hn d acct ccy _ _ hg
      have h2 : dayTotal d acct ccy ts.flatten = dayTotal d acct ccy b.post := by
        rw [← h]
        exact total_reported hs (keyFun_day d acct ccy) w
      rw [h2, build_post hb]
      simp only [Builder.new] at h1
      have h3 : dayTotal d acct ccy ([] : List Posting) = 0 := rfl
      rw [h3, zero_add] at h1
      rw [← h1]
      split
      · rename_i h0; rw [h0]
      · exact total_compactPost hs (keyFun_day d acct ccy) _

/-! ## Deduplication -/

theorem hasTxn_lines {ts us : List Txn} (h : ts.map (·.map line) = us.map (·.map line)) (d : Int) (py : Str) : hasTxn ts d py = hasTxn us d py := by
  have key : ∀ ts : List Txn, hasTxn ts d py = (ts.map (·.map line)).any fun u => u.any fun l => decide (l.date = d ∧ l.payee = py) := by
    intro ts
    unfold hasTxn
    rw [List.any_map]
    congr 1
    funext t
    simp [line, List.any_map, Function.comp_def]
    rfl
  rw [key, key, h]

theorem transactions_groups {srt} (hs : IsSort srt) {today} {b : Book} (hr : Reachable srt today b) : ∀ t ∈ b.transactions srt, IsGroup t :=
  (reachable_wf hs (reachable_filter hr .read rfl)).1.groups

/-- C88: the transactions shown are those the script generated, without the ones whose date and payee occur in the ledger as the script
left it. -/
theorem c88_exact (e : OpEnv) (hs : IsSort e.srt) (ss : Str → Option Rat) (main : Book) (hm : Reachable e.srt e.today main)
    (script : List GenAct) (all ts : List Txn) (h0 : generate e ss false main script = .shown all) (h : generate e ss true main script = .shown ts) :
    ∃ s, genActs e ss ⟨main, Builder.new⟩ script = .ok s ∧ ts.map (·.map line) =
      (all.filter fun t => t.all fun p => !hasTxn (s.main.transactions e.srt) p.date p.payee).map (·.map line) := by
  unfold generate at h0 h
  cases hg : genActs e ss ⟨main, Builder.new⟩ script with
  | err => rw [hg] at h; cases h
  | panic => rw [hg] at h; cases h
  | ok s =>
    rw [hg] at h0 h
    simp only at h0 h
    refine ⟨s, rfl, ?_⟩
    cases hb : s.bb.build e.srt with
    | none => rw [hb] at h; cases h
    | some b =>
      rw [hb] at h0 h
      simp only [Bool.false_eq_true, if_false, if_true, GenOut.shown.injEq] at h0 h
      obtain ⟨cs, hcs⟩ := genActs_built script _ _ hg
      have hr : Reachable e.srt e.today b := Built.reachable ⟨_, hcs, hb⟩ e.today
      have hm' : Reachable e.srt e.today s.main :=
        genActs_inv (fun s => Reachable e.srt e.today s.main) script (fun _ _ _ _ h1 h2 => genAct_main h1 h2) _ _ hg hm
      rw [← h, ← h0]
      exact c40_reported e.srt hs e.today b s.main hr hm'

theorem genAct_keeps {e : OpEnv} (hs : IsSort e.srt) {ss} {s s' : GenState} {a : GenAct} (h : genAct e ss s a = .ok s')
    (hr : Reachable e.srt e.today s.main) (d : Int) (hk : KeepsDate e.today d a) (py : Str) :
    hasTxn (s'.main.transactions e.srt) d py = hasTxn (s.main.transactions e.srt) d py := by
  cases a with
  | read =>
    cases h
    simp only
    rw [(c07_transactions_stable e.srt e.srt hs hs e.today s.main hr).1]
  | since x =>
    simp only [genAct] at h
    split at h
    · cases h
    · rename_i hx
      cases h
      simp only
      rw [hasTxn_lines (c09_since e.srt hs e.today s.main hr _ hx), hasTxn_filter (transactions_groups hs hr) (fun y _ => decide (_ ≤ y))]
      have : dateFromString e.today x ≤ d := hk
      simp [this]
  | asof x =>
    simp only [genAct] at h
    split at h
    · cases h
    · rename_i hx
      cases h
      simp only
      rw [hasTxn_lines (c09_asof e.srt hs e.today s.main hr _ hx), hasTxn_filter (transactions_groups hs hr) (fun y _ => decide (y < _))]
      have : d < dateFromString e.today x := hk
      simp [this]
  | map f t al => exact absurd hk id
  | add x =>
    simp only [genAct] at h
    split at h
    · cases h; rfl
    · cases h
    · cases h

/-- C88 (partial): with deduplication, no transaction is shown whose date and payee the ledger already has, provided the script renames no
accounts of the ledger and restricts it only to periods in which the transaction lies (in particular: if it only reads it). -/
theorem c88_no_duplicates_partial (e : OpEnv) (hs : IsSort e.srt) (ss : Str → Option Rat) (main : Book) (hm : Reachable e.srt e.today main)
    (script : List GenAct) (ts : List Txn) (h : generate e ss true main script = .shown ts) (t : Txn) (ht : t ∈ ts) (p : Posting) (hp : p ∈ t)
    (hk : ∀ a ∈ script, KeepsDate e.today p.date a) : hasTxn (main.transactions e.srt) p.date p.payee = false := by
  obtain ⟨all, h0⟩ : ∃ all, generate e ss false main script = .shown all := by
    unfold generate at h ⊢
    split at h
    · cases h
    · cases h
    · split at h
      · cases h
      · exact ⟨_, by simp only; rfl⟩
  obtain ⟨s, hg, hl⟩ := c88_exact e hs ss main hm script all ts h0 h
  have hinv := genActs_inv (e := e) (ss := ss) (fun s => Reachable e.srt e.today s.main ∧
      ∀ py, hasTxn (s.main.transactions e.srt) p.date py = hasTxn (main.transactions e.srt) p.date py) script
    (fun s s' a ha h1 h2 => ⟨genAct_main h1 h2.1, fun py => by rw [genAct_keeps hs h1 h2.1 p.date (hk a ha), h2.2]⟩) _ _ hg ⟨hm, fun _ => rfl⟩
  rw [← hinv.2]
  have hmem : line p ∈ (ts.map (·.map line)).flatten :=
    List.mem_flatten.2 ⟨t.map line, List.mem_map.2 ⟨t, ht, rfl⟩, List.mem_map.2 ⟨p, hp, rfl⟩⟩
  rw [hl] at hmem
  obtain ⟨ls, h1, h2⟩ := List.mem_flatten.1 hmem
  obtain ⟨u, hu, rfl⟩ := List.mem_map.1 h1
  obtain ⟨q, hq, hqp⟩ := List.mem_map.1 h2
  have h3 := List.all_eq_true.1 (List.mem_filter.1 hu).2 q hq
  have h4 : q.date = p.date ∧ q.payee = p.payee := ⟨congrArg Line.date hqp, congrArg Line.payee hqp⟩
  rw [h4.1, h4.2] at h3
  simpa using h3

/-- A ledger with a shop on the first of January. -/
private def ledgerCalls : List Call :=
  [.newTransaction 20200101 b!"Shop" [], .addPosting b!"Bank" b!"EUR" (-5) [], .addPosting b!"Food" b!"EUR" 5 []]

private def demoE : OpEnv := ⟨20200601, insSort, fun _ => true, fun _ _ => false, fun _ r _ => r, some, fun _ _ m => m⟩

private def demoAdd : ScriptAdd :=
  ⟨b!"2020-01-01", b!"Shop", .int 500, b!"EUR", 100, b!"Bank", .none, b!"EUR", 1, [], b!"Food", [], []⟩

private def shownLines : GenOut → Option (List (List Line))
  | .shown ts => some (ts.map (·.map line))
  | _ => none

/-- C88 is false of a script that restricts the ledger: what it then generates again is not recognised. -/
theorem c88_since_fails : ¬ ∀ (e : OpEnv) (_ : IsSort e.srt) (ss : Str → Option Rat) (main : Book) (_ : Reachable e.srt e.today main)
    (script : List GenAct) (ts : List Txn), generate e ss true main script = .shown ts →
    ∀ t ∈ ts, ∀ p ∈ t, hasTxn (main.transactions e.srt) p.date p.payee = false := by
  intro h
  have hb : Built insSort ledgerCalls (bookOf ledgerCalls) := bookOf_built (by decide +kernel)
  have h1 : shownLines (generate demoE (fun _ => none) true (bookOf ledgerCalls) [.since b!"2020-02-01", .add demoAdd]) =
      some [[⟨20200101, b!"Shop", b!"Bank", b!"EUR", 5⟩, ⟨20200101, b!"Shop", b!"Food", b!"EUR", -5⟩]] := by decide +kernel
  cases hg : generate demoE (fun _ => none) true (bookOf ledgerCalls) [.since b!"2020-02-01", .add demoAdd] with
  | err => rw [hg] at h1; simp [shownLines] at h1
  | panic => rw [hg] at h1; simp [shownLines] at h1
  | shown ts =>
    rw [hg] at h1
    simp only [shownLines, Option.some.injEq] at h1
    have h2 := h demoE insSort_isSort (fun _ => none) _ (Built.reachable hb 20200601) _ ts hg
    have h3 : hasTxn ts 20200101 b!"Shop" = true := by
      have key : hasTxn ts 20200101 b!"Shop" = (ts.map (·.map line)).any fun u => u.any fun l => decide (l.date = 20200101 ∧ l.payee = b!"Shop") := by
        unfold hasTxn
        rw [List.any_map]
        congr 1
        funext t
        simp [line, List.any_map, Function.comp_def]
        rfl
      rw [key, h1]
      decide
    obtain ⟨t, ht, p, hp, e1, e2⟩ := hasTxn_iff.1 h3
    have h4 := h2 t ht p hp
    rw [e1, e2] at h4
    revert h4
    decide +kernel

/-- Without the restriction nothing is shown; with another payee it is. -/
example : shownLines (generate demoE (fun _ => none) true (bookOf ledgerCalls) [.read, .add demoAdd]) = some [] := by decide +kernel

example : shownLines (generate demoE (fun _ => none) true (bookOf ledgerCalls) [.read, .asof b!"2020-03-01", .add { demoAdd with desc := b!"Rent" }]) =
    some [[⟨20200101, b!"Rent", b!"Bank", b!"EUR", 5⟩, ⟨20200101, b!"Rent", b!"Food", b!"EUR", -5⟩]] ∧
    (∀ a ∈ [GenAct.read, .asof b!"2020-03-01"], KeepsDate 20200601 20200101 a) := by
  refine ⟨by decide +kernel, ?_⟩
  intro a ha
  simp only [List.mem_cons, List.not_mem_nil, or_false] at ha
  rcases ha with rfl | rfl
  · trivial
  · show (20200101 : Int) < dateFromString 20200601 b!"2020-03-01"
    decide +kernel

example : NoNaN demoAdd := by
  intro x hx; rcases hx with hx | hx <;> cases hx

end Verif
