import Verif.Spec.Commands
import Verif.Props.Ops
import Verif.Props.Loader2
import Verif.Props.BookOp
import Verif.Props.Price

/-! # C90, C92: whole reports -/

namespace Verif
open Spec

/-- Well-formed and balanced. -/
def Book.Good (b : Book) : Prop := b.WF ∧ Balanced b.post

theorem good_op {srt} (hs : IsSort srt) {today : Int} {o : Op} {b b' : Book} (h : b.Good) (ho : o.apply srt today b = some b') : b'.Good :=
  ⟨apply_wf hs h.1 ho, apply_balanced hs h.1 h.2 ho⟩

theorem good_prices {b : Book} (h : b.Good) (q : PriceBook) : Book.Good { b with prices := q } :=
  ⟨⟨h.1.plain, h.1.index, h.1.groups, h.1.order⟩, h.2⟩

theorem good_prim {e : OpEnv} (hs : IsSort e.srt) {p : Prim} {b b' : Book} (h : b.Good) (hp : p.apply e b = some b') : b'.Good := by
  cases p <;> simp only [Prim.apply] at hp
  case mapccy s r =>
    split at hp
    · cases hp
      exact good_prices (good_op hs h (o := .mapAmount _) (today := e.today) rfl) _
    · cases hp
  case map s r alt =>
    split at hp
    · cases hp; exact good_op hs h (o := .mapAccount _) (today := e.today) rfl
    · cases hp
  case move s a f =>
    split at hp
    · cases hp; exact good_op hs h (o := .adjustPost _ _ _) (today := e.today) rfl
    · cases hp
  case asof d => cases hp; exact good_op hs h (o := .asof _) (today := e.today) rfl
  case since d => cases hp; exact good_op hs h (o := .since _) (today := e.today) rfl
  case combine t => cases hp; exact good_op hs h (o := .splitBy _) (today := e.today) rfl
  case depreciate s a n =>
    split at hp
    · cases hp; exact good_op hs h (o := .depreciate _ _ _ _) (today := e.today) rfl
    · cases hp

theorem good_runAll {f : Str → Book → OpEnd} (hf : ∀ o b b', Book.Good b → f o b = .ok b' → b'.Good) :
    ∀ (ops : List Str) (b b' : Book), b.Good → runAll f ops b = .ok b' → b'.Good := by
  intro ops
  induction ops with
  | nil => intro b b' h hb; simp only [runAll] at hb; cases hb; exact h
  | cons o ops ih =>
    intro b b' h hb
    simp only [runAll] at hb
    cases hx : f o b with
    | ok b1 => rw [hx] at hb; exact ih b1 b' (hf o b b1 h hx) hb
    | err _ _ => rw [hx] at hb; cases hb
    | panic => rw [hx] at hb; cases hb
    | diverge => rw [hx] at hb; cases hb

theorem opWrap_ok {op : Str} {x : OpEnd} {b : Book} (h : x.wrap op = .ok b) : x = .ok b := by
  cases x <;> simp only [OpEnd.wrap] at h <;> first | exact h | cases h

theorem good_bookOp {e : OpEnv} (hs : IsSort e.srt) (mac : Str → Option (List Str)) : ∀ (n : Nat) (op : Str) (b b' : Book),
    b.Good → bookOp e mac n op b = .ok b' → b'.Good := by
  intro n
  induction n with
  | zero => intro op b b' _ h; simp only [bookOp] at h; cases h
  | succ n ih =>
    intro op b b' hg h
    simp only [bookOp] at h
    cases hm : mac op with
    | some ms =>
      rw [hm] at h
      exact good_runAll (fun o b b' => ih o b b') ms b b' hg (opWrap_ok h)
    | none =>
      rw [hm] at h
      simp only [primOp] at h
      split at h
      · cases h
      · split at h
        · cases h
        · rename_i hp; cases h; exact good_prim hs hg hp

theorem good_ops {e : OpEnv} (hs : IsSort e.srt) {fuel : Nat} {a : AppConf} {args : List Str} {b b' : Book} (h : b.Good)
    (ho : opsCmd e fuel a args b = .ok b') : b'.Good := by
  unfold opsCmd at ho
  split at ho <;> cases ho
  rename_i hb
  exact good_runAll (fun o b b' hg hx => good_bookOp hs a.macros fuel o b b' hg (opWrap_ok hx)) args b b' h hb

theorem good_load {le : Env} {depth : Nat} {srt : List Posting → List Posting} (hs : IsSort srt) {a : AppConf} {b : Book}
    (h : loadCmd le depth srt a = .ok b) : b.Good := by
  unfold loadCmd at h
  split at h <;> cases h
  rename_i hb
  obtain ⟨⟨cs, bb, h1, h2, _⟩, h3⟩ := c59_loaded_book_balanced_partial srt hs le depth a.ledger b hb
  exact built_balanced hs h1 h2

theorem bind_ok {α β : Type} {x : CmdEnd α} {k : α → CmdEnd β} {y : β} (h : x.bind k = .ok y) : ∃ a, x = .ok a ∧ k a = .ok y := by
  cases x <;> simp only [CmdEnd.bind] at h
  · exact ⟨_, rfl, h⟩
  all_goals cases h

theorem convertBook_some {base : Str} {b b' : Book} (h : convertBook base b = some b') :
    b' = b.mapAmount (fun d c => (((b.prices.getPrice d c base).map (·.1)).getD 1, base)) ∧
      ∀ p ∈ b.post, ∃ rt, b.prices.getPrice p.date p.ccy base = some rt := by
  unfold convertBook at h
  split at h
  · rename_i hall
    cases h
    refine ⟨rfl, fun p hp => ?_⟩
    have := List.all_eq_true.1 hall p hp
    exact Option.isSome_iff_exists.1 this
  · cases h

theorem convertCmd_ok {a : AppConf} {cv : Bool} {b b' : Book} (h : convertCmd a cv b = .ok b') :
    if cv then a.baseCCY ≠ [] ∧ convertBook a.baseCCY b = some b' else b' = b := by
  unfold convertCmd at h
  cases cv with
  | false => simp only [Bool.false_eq_true, if_false] at h ⊢; cases h; rfl
  | true =>
    simp only [if_true] at h ⊢
    split at h
    · cases h
    · rename_i hb
      cases hc : convertBook a.baseCCY b with
      | none => rw [hc] at h; cases h
      | some b1 => rw [hc] at h; cases h; exact ⟨hb, rfl⟩

theorem good_convert {srt} (hs : IsSort srt) {a : AppConf} {cv : Bool} {b b' : Book} (hg : b.Good)
    (h : convertCmd a cv b = .ok b') : b'.Good := by
  have := convertCmd_ok h
  cases cv with
  | false => simp only [Bool.false_eq_true, if_false] at this; rw [this]; exact hg
  | true =>
    simp only [if_true] at this
    obtain ⟨e, _⟩ := convertBook_some this.2
    rw [e]; exact good_op hs hg (o := .mapAmount _) (today := 0) rfl

theorem weighted_wsum (P : Posting → Bool) (w : Posting → Rat) (l : List Posting) :
    weighted P w l = wsum (fun p => if P p then w p else 0) l := by
  induction l with
  | nil => rfl
  | cons p l ih =>
    unfold weighted at ih ⊢
    rw [List.filter_cons, wsum_cons, ← ih]
    cases h : P p <;> simp

/-- The book shown, before summing. -/
def shownBook (e : OpEnv) (a : AppConf) (r : ReportConf) (b : Book) : CmdEnd Book :=
  if r.typ = b!"Beancount" then .ok b
  else convertCmd a r.convert (if r.combineby ≠ b!"skip" then b.splitBy e.srt e.today r.combineby else b)

theorem reportTxns_ok {e : OpEnv} {a : AppConf} {r : ReportConf} {o} {b : Book} {ts : List Txn}
    (h : reportTxns e a r o b = .ok ts) (hr : r.sum = false ∨ r.typ = b!"Beancount") :
    ∃ fb, shownBook e a r b = .ok fb ∧ ts = fb.transactions e.srt := by
  unfold reportTxns at h
  unfold shownBook
  split at h
  · rename_i ht
    cases h
    exact ⟨b, by rw [if_pos ht], rfl⟩
  · rename_i ht
    obtain ⟨fb, h1, h2⟩ := bind_ok h
    rw [if_neg ht]
    refine ⟨fb, h1, ?_⟩
    unfold sumCmd at h2
    split at h2
    · cases h2
    · rw [if_neg (by rcases hr with hr | hr; simp [hr]; exact absurd hr ht)] at h2
      cases h2; rfl

theorem shown_wsum {e : OpEnv} (hs : IsSort e.srt) {a : AppConf} {r : ReportConf} {b fb : Book} (hg : b.Good)
    (h : shownBook e a r b = .ok fb) (W : Int → Str → Str → Str → Rat) :
    fb.Good ∧ wsum (fun p => W p.date p.payee p.acct p.ccy) (reported e.srt fb) =
      wsum (fun p => W (shownDate e.today r p) (shownPayee r p) p.acct (shownCCY a.baseCCY r p) *
        shownRate b.prices e.today a.baseCCY r p) (reported e.srt b) := by
  unfold shownBook at h
  by_cases ht : r.typ = b!"Beancount"
  · rw [if_pos ht] at h
    cases h
    refine ⟨hg, ?_⟩
    simp [shownDate, shownPayee, shownCCY, shownRate, combines, converts, ht]
  · rw [if_neg ht] at h
    have step1 : ∃ b1 : Book, b1 = (if r.combineby ≠ b!"skip" then b.splitBy e.srt e.today r.combineby else b) ∧ b1.Good ∧
        b1.prices = b.prices ∧ ∀ V : Int → Str → Str → Str → Rat,
          wsum (fun p => V p.date p.payee p.acct p.ccy) b1.post =
          wsum (fun p => V (shownDate e.today r p) (shownPayee r p) p.acct p.ccy) b.post := by
      by_cases hc : r.combineby ≠ b!"skip"
      · refine ⟨_, rfl, ?_⟩
        rw [if_pos hc]
        refine ⟨good_op hs hg (o := .splitBy _) (today := e.today) rfl, ?_, ?_⟩
        · unfold Book.splitBy Book.mapTransaction Book.compact; split <;> rfl
        · intro V
          unfold Book.splitBy Book.mapTransaction
          rw [compact_post _ (srt_nil hs), wsum_compactPost hs (keyFun_ofR V)]
          simp only [wsum, List.map_map]
          congr 1
          apply List.map_congr_left
          intro p _
          simp [shownDate, shownPayee, combines, ht, hc]
      · refine ⟨_, rfl, ?_⟩
        rw [if_neg hc]
        refine ⟨hg, rfl, fun V => ?_⟩
        simp only [shownDate, shownPayee, combines, hc, and_false, if_false]
    obtain ⟨b1, e1, g1, p1, w1⟩ := step1
    rw [← e1] at h
    have g2 := good_convert hs g1 h
    have hcv := convertCmd_ok h
    refine ⟨g2, ?_⟩
    rw [wsum_reported hs (keyFun_ofR W) g2.1,
      wsum_reported hs (w := fun p => W (shownDate e.today r p) (shownPayee r p) p.acct (shownCCY a.baseCCY r p) *
        shownRate b.prices e.today a.baseCCY r p) ?_ hg.1]
    · cases hb : r.convert with
      | false =>
        rw [hb] at hcv
        simp only [Bool.false_eq_true, if_false] at hcv
        subst hcv
        rw [w1 W]
        simp [shownCCY, shownRate, converts, hb]
      | true =>
        rw [hb] at hcv
        simp only [if_true] at hcv
        obtain ⟨ef, _⟩ := convertBook_some hcv.2
        have := w1 (fun d py ac c => W d py ac a.baseCCY * ((b.prices.getPrice d c a.baseCCY).map (·.1)).getD 1)
        have hcs : converts r := ⟨ht, hb⟩
        simp only [shownCCY, shownRate, if_pos hcs]
        rw [← this, ef, p1]
        simp only [Book.mapAmount, wsum, List.map_map]
        congr 1
        apply List.map_congr_left
        intro p _
        simp only [Function.comp_apply, mapAmountPost]
        ring
    · intro p q hpq
      obtain ⟨k1, k2, k3, k4⟩ := key_eq_iff.1 hpq
      simp only [shownDate, shownPayee, shownCCY, shownRate, k1, k2, k3, k4]

/-! ## C90 -/

/-- C90: a report that lists transactions (no `--sum`) shows the book left by the operations, exactly:
the amount under each date, payee, account and currency is the sum of the postings shown there, each at
its rate (1 unless amounts are converted); the list is in canonical form with running balances, and
every transaction shown balances. -/
theorem c90_report_exact (le : Env) (depth : Nat) (e : OpEnv) (hs : IsSort e.srt) (fuel : Nat) (a : AppConf) (r : ReportConf)
    (o : Int → Str → List Str → List Str) (args : List Str) (ts : List Txn)
    (h : reportCmd le depth e fuel a r o args = .ok ts) (hr : r.sum = false ∨ r.typ = b!"Beancount") :
    ∃ b0 b, loadCmd le depth e.srt a = .ok b0 ∧ opsCmd e fuel a args b0 = .ok b ∧
      (∀ d py ac c, entryTotal d py ac c ts.flatten =
        weighted (fun p => decide (shownDate e.today r p = d ∧ shownPayee r p = py ∧ p.acct = ac ∧ shownCCY a.baseCCY r p = c))
          (shownRate b.prices e.today a.baseCCY r) (reported e.srt b)) ∧
      Canonical ts ∧ RunningBalances ts.flatten ∧ ∀ t ∈ ts, Balanced t := by
  unfold reportCmd at h
  obtain ⟨b, h1, h2⟩ := bind_ok h
  obtain ⟨b0, h0, h1⟩ := bind_ok h1
  have hg := good_ops hs (good_load hs h0) h1
  obtain ⟨fb, hfb, rfl⟩ := reportTxns_ok h2 hr
  refine ⟨b0, b, h0, h1, ?_, ?_, ?_, ?_⟩
  · intro d py ac c
    obtain ⟨_, hw⟩ := shown_wsum hs hg hfb (fun d' py' a' c' => if d' = d ∧ py' = py ∧ a' = ac ∧ c' = c then 1 else 0)
    rw [weighted_wsum]
    unfold entryTotal
    rw [total_eq_wsum]
    unfold reported at hw
    simp only [decide_eq_true_eq] at hw ⊢
    rw [hw]
    congr 1
    funext p
    split_ifs <;> simp
  · exact compact_canonical hs (shown_wsum hs hg hfb (fun _ _ _ _ => 0)).1.1
  · have w := (shown_wsum hs hg hfb (fun _ _ _ _ => 0)).1.1
    show RunningBalances (reported e.srt fb)
    rw [reported_eq hs w]
    exact compactPost_running _
  · have w := (shown_wsum hs hg hfb (fun _ _ _ _ => 0)).1
    have := good_op hs w (o := .read) (today := e.today) rfl
    exact wf_balanced_trans this.1 this.2

/-- The account totals of a report that converts nothing are those of the book. -/
theorem c90_account_totals (le : Env) (depth : Nat) (e : OpEnv) (hs : IsSort e.srt) (fuel : Nat) (a : AppConf) (r : ReportConf)
    (o : Int → Str → List Str → List Str) (args : List Str) (ts : List Txn)
    (h : reportCmd le depth e fuel a r o args = .ok ts) (hr : r.sum = false ∨ r.typ = b!"Beancount") (hc : ¬ converts r) :
    ∃ b0 b, loadCmd le depth e.srt a = .ok b0 ∧ opsCmd e fuel a args b0 = .ok b ∧
      ∀ ac c, acctTotal ac c ts.flatten = acctTotal ac c (reported e.srt b) := by
  unfold reportCmd at h
  obtain ⟨b, h1, h2⟩ := bind_ok h
  obtain ⟨b0, h0, h1⟩ := bind_ok h1
  have hg := good_ops hs (good_load hs h0) h1
  obtain ⟨fb, hfb, rfl⟩ := reportTxns_ok h2 hr
  refine ⟨b0, b, h0, h1, ?_⟩
  intro ac c
  obtain ⟨_, hw⟩ := shown_wsum hs hg hfb (fun _ _ a' c' => if a' = ac ∧ c' = c then 1 else 0)
  unfold acctTotal
  rw [total_eq_wsum, total_eq_wsum]
  unfold reported at hw ⊢
  simp only [decide_eq_true_eq] at hw ⊢
  rw [hw]
  simp [shownCCY, shownRate, hc]

/-- C90, end to end: a report without operations, combination or conversion shows under each date,
payee, account and currency the sum of the amounts the ledger file posts there. -/
theorem c90_file_amounts (le : Env) (depth : Nat) (e : OpEnv) (hs : IsSort e.srt) (fuel : Nat) (a : AppConf) (r : ReportConf)
    (o : Int → Str → List Str → List Str) (ts : List Txn)
    (h : reportCmd le depth e fuel a r o [] = .ok ts) (hr : r.sum = false ∨ r.typ = b!"Beancount")
    (hc : ¬ converts r) (hk : ¬ combines r) :
    ∃ cs bb, Builder.new.calls cs = some bb ∧ (∃ als, parseFile le depth Builder.new a.ledger = .ok bb als) ∧
      ∀ d py ac c, entryTotal d py ac c ts.flatten = entrySum d py ac c (entries (-1, []) (issued Builder.new cs) cs) := by
  obtain ⟨b0, b, h0, h1, h2, _⟩ := c90_report_exact le depth e hs fuel a r o [] ts h hr
  simp only [opsCmd, bookOps, runAll] at h1
  cases h1
  unfold loadCmd at h0
  split at h0 <;> cases h0
  rename_i hb
  unfold loadBook at hb
  split at hb <;> try cases hb
  rename_i bb als hbb
  split at hb <;> try cases hb
  rename_i hbk
  obtain ⟨cs, hcs⟩ := parseFileLocal_calls le depth _ _ _ _ _ hbb
  refine ⟨cs, bb, hcs, ⟨als, hbb⟩, ?_⟩
  intro d py ac c
  rw [h2, ← c03_built_amounts e.srt hs cs bb _ hcs hbk]
  unfold weighted entryTotal total reported
  simp [shownDate, shownPayee, shownCCY, shownRate, hc, hk]

/-- A regular expression engine that takes every expression literally (only for examples). -/
def plainOps : OpEnv where
  today := 20201231
  srt := insSort
  valid := fun _ => true
  mat := fun s x => decide (s = x)
  rep := fun s r x => if s = x then r else x
  float := some
  walk := fun _ _ m => m

/-- Example settings. -/
def demoApp : AppConf where
  ledger := b!"a"
  baseCCY := b!"E"
  divider := b!":"
  all := false
  macros := fun _ => none

/-- Two purchases in the same year, with a price at the start of the year and one in July. -/
def yearFile : Str := b!"P 2020/01/01 00:00:00 U 2 E\nP 2020/07/01 00:00:00 U 3 E\n2020/02/01 Buy\n  A 1 U\n  B -1 U\n2020/07/01 Buy\n  A 10 U\n  B -10 U\n"

/-- A yearly report. -/
def yearReport (convert : Bool) (by_ : Str) : ReportConf where
  credit := []
  hidden := []
  convert := convert
  sum := false
  typ := b!"Text"
  combineby := by_

/-- What is shown: date, payee, account, currency and amount of each posting. -/
def CmdEnd.lines (x : CmdEnd (List Txn)) : Option (List (List Line)) :=
  match x with
  | .ok ts => some (ts.map (·.map line))
  | _ => none

/-- Non-vacuity: a report by year, and one without combination. -/
example : (reportCmd (demoEnv [(b!"a", yearFile)]) 1 plainOps 1 demoApp (yearReport false b!"yearly") (fun _ _ l => l) []).lines =
      some [[⟨20200101, [], b!"A", b!"U", 11⟩, ⟨20200101, [], b!"B", b!"U", -11⟩]] ∧
    (reportCmd (demoEnv [(b!"a", yearFile)]) 1 plainOps 1 demoApp (yearReport true b!"skip") (fun _ _ l => l) []).lines =
      some [[⟨20200201, b!"Buy", b!"A", b!"E", 395 / 182⟩, ⟨20200201, b!"Buy", b!"B", b!"E", -395 / 182⟩],
        [⟨20200701, b!"Buy", b!"A", b!"E", 30⟩, ⟨20200701, b!"Buy", b!"B", b!"E", -30⟩]] := by decide +kernel

/-! ## C92 -/

/-- C92, what holds: in a report of the file as it is (no operations) that converts and does not combine,
each amount shown is the sum of the amounts posted there, each times the price the file records for its
currency on its own date (exact, or interpolated between the nearest ones: `CalAnswer`), or the
reciprocal of the price recorded the other way round.
Missing: currencies with no recorded price, and combined periods (see the refutations). -/
theorem c92_converted_partial (le : Env) (depth : Nat) (e : OpEnv) (hs : IsSort e.srt) (fuel : Nat) (a : AppConf) (r : ReportConf)
    (o : Int → Str → List Str → List Str) (ts : List Txn)
    (h : reportCmd le depth e fuel a r o [] = .ok ts) (hr : r.sum = false) (hc : converts r) (hk : ¬ combines r) :
    ∃ (cs : List Call) (bb : Builder) (b : Book) (rate : Int → Str → Rat), Builder.new.calls cs = some bb ∧ (∃ als, parseFile le depth Builder.new a.ledger = .ok bb als) ∧
      bb.build e.srt = some b ∧
      (∀ d py ac c, entryTotal d py ac c ts.flatten =
        if c = a.baseCCY then weighted (fun p => decide (p.date = d ∧ p.payee = py ∧ p.acct = ac)) (fun p => rate p.date p.ccy) (reported e.srt b)
        else 0) ∧
      (∀ d, rate d a.baseCCY = 1) ∧
      ∀ (t : YMD) c, t.Valid → c ≠ a.baseCCY → (∀ q, q ∈ recorded c a.baseCCY cs ∨ q ∈ recorded a.baseCCY c cs → IsDate q.date) →
        (recorded c a.baseCCY cs ≠ [] → ∃ pt, CalAnswer (recorded c a.baseCCY cs) t (rate t.code c, pt)) ∧
        (recorded c a.baseCCY cs = [] → recorded a.baseCCY c cs ≠ [] →
          ∃ x pt, CalAnswer (recorded a.baseCCY c cs) t (x, pt) ∧ (x ≠ 0 → rate t.code c = 1 / x)) := by
  obtain ⟨b0, b, h0, h1, h2, _⟩ := c90_report_exact le depth e hs fuel a r o [] ts h (Or.inl hr)
  simp only [opsCmd, bookOps, runAll] at h1
  cases h1
  unfold loadCmd at h0
  split at h0 <;> cases h0
  rename_i hb
  unfold loadBook at hb
  split at hb <;> try cases hb
  rename_i bb als hbb
  split at hb <;> try cases hb
  rename_i hbk
  obtain ⟨cs, hcs⟩ := parseFileLocal_calls le depth _ _ _ _ _ hbb
  have hfc : FromCalls e.srt e.today cs b0 := ⟨bb, b0, [], hcs, hbk, rfl⟩
  refine ⟨cs, bb, b0, fun d c => ((b0.prices.getPrice d c a.baseCCY).map (·.1)).getD 1, hcs, ⟨als, hbb⟩, hbk, ?_, ?_, ?_⟩
  · intro d py ac c
    rw [h2]
    have e1 : ∀ p, shownDate e.today r p = p.date := fun p => by simp [shownDate, hk]
    have e2 : ∀ p, shownPayee r p = p.payee := fun p => by simp [shownPayee, hk]
    have e3 : ∀ p, shownCCY a.baseCCY r p = a.baseCCY := fun p => by simp [shownCCY, hc]
    have e4 : shownRate b0.prices e.today a.baseCCY r = fun p => ((b0.prices.getPrice p.date p.ccy a.baseCCY).map (·.1)).getD 1 := by
      funext p; simp [shownRate, hc, e1]
    simp only [e1, e2, e3, e4]
    by_cases hcc : a.baseCCY = c
    · rw [if_pos hcc.symm]; simp only [hcc, and_true]
    · rw [if_neg (Ne.symm hcc)]
      simp only [hcc, and_false, decide_false]
      simp [weighted]
  · intro d; simp [PriceBook.getPrice]
  · intro t c ht hcb hv
    obtain ⟨_, k1, k2, _⟩ := c28_lookup e.srt e.today cs b0 hfc c a.baseCCY t ht hv
    constructor
    · intro hne
      obtain ⟨x, hx, ha⟩ := k1 hcb hne
      refine ⟨x.2, ?_⟩
      simp only [hx]
      exact ha
    · intro h0' hne
      obtain ⟨x, pt, ha, hx⟩ := k2 hcb h0' hne
      refine ⟨x, pt, ha, fun hx0 => ?_⟩
      simp only [hx, if_neg hx0]
      rfl

/-- A file without any price. -/
def noPriceFile : Str := b!"2020/01/01 P\n  A 1 X\n  B -1 X\n"

/-- C92 is false for a currency without a price: the amounts are shown as if the price were 1, and
nothing tells the user. -/
theorem c92_no_price_fails : ¬ ∀ (le : Env) (depth : Nat) (e : OpEnv) (_ : IsSort e.srt) (fuel : Nat) (a : AppConf) (r : ReportConf)
    (o : Int → Str → List Str → List Str) (ts : List Txn), converts r → ¬ combines r → r.sum = false →
    reportCmd le depth e fuel a r o [] = .ok ts →
    ∀ b, loadCmd le depth e.srt a = .ok b → ∀ p ∈ reported e.srt b,
      ∃ x pt, b.prices.getPrice p.date p.ccy a.baseCCY = some (x, pt) ∧ pt ≠ .none := by
  intro h
  have hl : (match reportCmd (demoEnv [(b!"a", noPriceFile)]) 1 plainOps 1 demoApp (yearReport true b!"skip") (fun _ _ l => l) [],
      loadCmd (demoEnv [(b!"a", noPriceFile)]) 1 insSort demoApp with
      | .ok _, .ok b => (reported insSort b).any fun p => decide (b.prices.getPrice p.date p.ccy b!"E" = some (1, .none))
      | _, _ => false) = true := by decide +kernel
  cases hr : reportCmd (demoEnv [(b!"a", noPriceFile)]) 1 plainOps 1 demoApp (yearReport true b!"skip") (fun _ _ l => l) [] with
  | ok ts =>
    cases hb : loadCmd (demoEnv [(b!"a", noPriceFile)]) 1 insSort demoApp with
    | ok b =>
      rw [hr, hb] at hl
      obtain ⟨p, hp, hq⟩ := List.any_eq_true.1 hl
      obtain ⟨x, pt, h1, h2⟩ := h (demoEnv [(b!"a", noPriceFile)]) 1 plainOps insSort_isSort 1 demoApp (yearReport true b!"skip") (fun _ _ l => l) ts
        (by decide) (by decide) rfl hr b hb p hp
      have hq' := of_decide_eq_true hq
      have h1' : b.prices.getPrice p.date p.ccy b!"E" = some (x, pt) := h1
      rw [hq'] at h1'
      cases h1'
      exact h2 rfl
    | err => rw [hr, hb] at hl; cases hl
    | crash => rw [hr, hb] at hl; cases hl
    | diverge => rw [hr, hb] at hl; cases hl
    | fatal => rw [hr, hb] at hl; cases hl
  | err => rw [hr] at hl; cases hl
  | crash => rw [hr] at hl; cases hl
  | diverge => rw [hr] at hl; cases hl
  | fatal => rw [hr] at hl; cases hl

/-- C92 is false of combined reports: an amount is converted at the price of the first day of its
period, not at that of its own date. -/
theorem c92_period_start_fails : ¬ ∀ (le : Env) (depth : Nat) (e : OpEnv) (_ : IsSort e.srt) (fuel : Nat) (a : AppConf) (r : ReportConf)
    (o : Int → Str → List Str → List Str) (ts : List Txn), converts r → combines r → r.sum = false →
    reportCmd le depth e fuel a r o [] = .ok ts →
    ∀ b, loadCmd le depth e.srt a = .ok b → ∀ ac,
      acctTotal ac a.baseCCY ts.flatten =
        weighted (fun p => decide (p.acct = ac)) (fun p => ((b.prices.getPrice p.date p.ccy a.baseCCY).map (·.1)).getD 1) (reported e.srt b) := by
  intro h
  have hl : (match reportCmd (demoEnv [(b!"a", yearFile)]) 1 plainOps 1 demoApp (yearReport true b!"yearly") (fun _ _ l => l) [],
      loadCmd (demoEnv [(b!"a", yearFile)]) 1 insSort demoApp with
      | .ok ts, .ok b => decide (acctTotal b!"A" b!"E" ts.flatten ≠
          weighted (fun p => decide (p.acct = b!"A")) (fun p => ((b.prices.getPrice p.date p.ccy b!"E").map (·.1)).getD 1) (reported insSort b))
      | _, _ => false) = true := by decide +kernel
  cases hr : reportCmd (demoEnv [(b!"a", yearFile)]) 1 plainOps 1 demoApp (yearReport true b!"yearly") (fun _ _ l => l) [] with
  | ok ts =>
    cases hb : loadCmd (demoEnv [(b!"a", yearFile)]) 1 insSort demoApp with
    | ok b =>
      rw [hr, hb] at hl
      simp only [decide_eq_true_eq] at hl
      exact hl (h (demoEnv [(b!"a", yearFile)]) 1 plainOps insSort_isSort 1 demoApp (yearReport true b!"yearly") (fun _ _ l => l) ts
        (by decide) (by decide) rfl hr b hb b!"A")
    | err => rw [hr, hb] at hl; cases hl
    | crash => rw [hr, hb] at hl; cases hl
    | diverge => rw [hr, hb] at hl; cases hl
    | fatal => rw [hr, hb] at hl; cases hl
  | err => rw [hr] at hl; cases hl
  | crash => rw [hr] at hl; cases hl
  | diverge => rw [hr] at hl; cases hl
  | fatal => rw [hr] at hl; cases hl

end Verif
