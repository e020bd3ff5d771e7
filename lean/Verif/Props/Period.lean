import Verif.Props.OpText
import Verif.Props.SumCmd

/-! # C122: balances and changes

The help of `report` (report.go:33-43): from the beginning of time until a point in time you see the balances, with a start and an end date
you see the change.  So the balances at the end are the balances at the start and the changes between. -/

namespace Verif
open Spec

/-- An operation that is not the name of a macro, at the end of the arguments. -/
theorem opsCmd_snoc {e : OpEnv} {fuel : Nat} {a : AppConf} {args : List Str} {op : Str} {b0 : Book} (hm : a.macros op = none)
    {p : Prim} (hp : parsePrim e op = some p) {b' : Book} (h : opsCmd e fuel a (args ++ [op]) b0 = .ok b') :
    ∃ b, opsCmd e fuel a args b0 = .ok b ∧ p.apply e b = some b' := by
  have hrun : ∀ (f : Str → Book → OpEnd) (l : List Str) (b0 b' : Book), runAll f (l ++ [op]) b0 = .ok b' →
      ∃ b, runAll f l b0 = .ok b ∧ f op b = .ok b' := by
    intro f l
    induction l with
    | nil =>
      intro b0 b' h
      refine ⟨b0, rfl, ?_⟩
      simp only [List.nil_append, runAll] at h
      cases hf : f op b0 with
      | ok x => rw [hf] at h; exact h
      | err _ _ => rw [hf] at h; cases h
      | panic => rw [hf] at h; cases h
      | diverge => rw [hf] at h; cases h
    | cons x l ih =>
      intro b0 b' h
      simp only [List.cons_append, runAll] at h ⊢
      cases hf : f x b0 with
      | ok y => rw [hf] at h; exact ih y b' h
      | err _ _ => rw [hf] at h; cases h
      | panic => rw [hf] at h; cases h
      | diverge => rw [hf] at h; cases h
  have hb : bookOps e a.macros fuel (args ++ [op]) b0 = .ok b' := by
    unfold opsCmd at h
    split at h <;> cases h
    assumption
  obtain ⟨b, h1, h2⟩ := hrun _ _ _ _ hb
  have h2 := opWrap_ok h2
  refine ⟨b, by unfold opsCmd bookOps; rw [h1], ?_⟩
  cases fuel with
  | zero => cases h2
  | succ n =>
    simp only [bookOp, hm, primOp, hp] at h2
    cases hx : p.apply e b with
    | none => rw [hx] at h2; cases h2
    | some y => rw [hx] at h2; cases h2; rfl

/-- What the two date filters leave of a book. -/
theorem date_filters {b : Book} (w : b.WF) {d : Int} (hd : d ≠ 0) :
    (b.filterByDateAsof d).post = b.post.filter (fun p => decide (p.date < d)) ∧ (b.filterByDateAsof d).prices = b.prices ∧
    (b.filterByDateSince d).post = b.post.filter (fun p => decide (d ≤ p.date)) ∧ (b.filterByDateSince d).prices = b.prices := by
  unfold Book.filterByDateSince Book.filterByDateAsof
  rw [if_neg hd, if_neg hd, filterTransaction_dates w (fun x => decide (x ≥ d)), filterTransaction_dates w (fun x => decide (x < d))]
  exact ⟨rfl, rfl, rfl, rfl⟩

/-- The three books: up to the end, up to the start, and between. -/
structure Periods (e : OpEnv) (fuel : Nat) (a : AppConf) (args : List Str) (D1 D2 : Str) (b0 b2 b1 bd : Book) : Prop where
  closing : opsCmd e fuel a (args ++ [b!"asof=" ++ D2]) b0 = .ok b2
  opening : opsCmd e fuel a (args ++ [b!"asof=" ++ D1]) b0 = .ok b1
  change : opsCmd e fuel a (args ++ [b!"since=" ++ D1, b!"asof=" ++ D2]) b0 = .ok bd

theorem periods_split {e : OpEnv} (hs : IsSort e.srt) {t : YMD} (ht : t.Valid) (htoday : e.today = t.code) {fuel : Nat} {a : AppConf}
    {args : List Str} {D1 D2 : Str} {d1 d2 : YMD} (hm1 : MeansDay t D1 d1) (hm2 : MeansDay t D2 d2) (hv1 : d1.Valid) (hv2 : d2.Valid)
    (hle : d1.code ≤ d2.code) (hmac : ∀ op ∈ [b!"asof=" ++ D1, b!"since=" ++ D1, b!"asof=" ++ D2], a.macros op = none) {b0 b2 b1 bd : Book} (hg : b0.Good)
    (h : Periods e fuel a args D1 D2 b0 b2 b1 bd) :
    b1.prices = b2.prices ∧ bd.prices = b2.prices ∧ ∀ w : Posting → Rat, KeyFun w →
      wsum w (reported e.srt b2) = wsum w (reported e.srt b1) + wsum w (reported e.srt bd) := by
  obtain ⟨p1, p2⟩ := c61_days e t ht htoday D1 d1 hm1 hv1
  obtain ⟨p3, _⟩ := c61_days e t ht htoday D2 d2 hm2 hv2
  have z1 : d1.code ≠ 0 := by have := code_pos hv1; omega
  have z2 : d2.code ≠ 0 := by have := code_pos hv2; omega
  obtain ⟨b, h1, h2⟩ := opsCmd_snoc (hmac _ (by simp)) p3 h.closing
  obtain ⟨b', h3, h4⟩ := opsCmd_snoc (hmac _ (by simp)) p1 h.opening
  rw [h1] at h3
  cases h3
  have hch := h.change
  rw [show args ++ [b!"since=" ++ D1, b!"asof=" ++ D2] = (args ++ [b!"since=" ++ D1]) ++ [b!"asof=" ++ D2] by simp] at hch
  obtain ⟨bs, h5, h6⟩ := opsCmd_snoc (hmac _ (by simp)) p3 hch
  have gs := good_ops hs hg h5
  obtain ⟨b'', h7, h8⟩ := opsCmd_snoc (hmac _ (by simp)) p2 h5
  rw [h1] at h7
  cases h7
  have gb := good_ops hs hg h1
  have g1 := good_ops hs hg h.opening
  have g2 := good_ops hs hg h.closing
  have gd := good_ops hs hg h.change
  injection h2 with h2
  injection h4 with h4
  injection h6 with h6
  injection h8 with h8
  have f2 := date_filters gb.1 z2
  have f1 := date_filters gb.1 z1
  have fd := date_filters gs.1 z2
  refine ⟨?_, ?_, fun w hw => ?_⟩
  · rw [← h2, ← h4, f1.2.1, f2.2.1]
  · rw [← h6, ← h2, fd.2.1, ← h8, f1.2.2.2, f2.2.1]
  · rw [wsum_reported hs hw g2.1, wsum_reported hs hw g1.1, wsum_reported hs hw gd.1, ← h2, ← h4, ← h6, f2.1, f1.1, fd.1, ← h8, f1.2.2.1]
    rw [wsum_filter_split w (fun p => decide (p.date < d1.code)) (b.post.filter fun p => decide (p.date < d2.code)),
      List.filter_filter, List.filter_filter, List.filter_filter]
    congr 2
    · apply List.filter_congr
      intro p _
      simp only [Bool.and_eq_decide, decide_eq_true_eq, decide_eq_decide]
      omega
    · apply List.filter_congr
      intro p _
      rw [Bool.eq_iff_iff]
      simp only [Bool.and_eq_true, Bool.not_eq_true', decide_eq_true_eq, decide_eq_false_iff_not]
      omega

theorem shown_congr {p q : Posting} (h : key p = key q) (prices : PriceBook) (today : Int) (base : Str) (r : ReportConf) :
    p.acct = q.acct ∧ shownDate today r p = shownDate today r q ∧ shownPayee r p = shownPayee r q ∧ shownCCY base r p = shownCCY base r q ∧
      shownRate prices today base r p = shownRate prices today base r q ∧ sumRate prices today base r p = sumRate prices today base r q := by
  obtain ⟨k1, k2, k3, k4⟩ := key_eq_iff.1 h
  have h1 : shownDate today r p = shownDate today r q := by simp only [shownDate, k1]
  have h2 : shownCCY base r p = shownCCY base r q := by simp only [shownCCY, k4]
  have h3 : shownRate prices today base r p = shownRate prices today base r q := by simp only [shownRate, h1, k4]
  refine ⟨k3, h1, by simp only [shownPayee, k2], h2, h3, ?_⟩
  unfold sumRate
  rw [h1, h2, h3, k4]

theorem shownKey (prices : PriceBook) (today : Int) (base : Str) (r : ReportConf) (P : Int → Str → Str → Str → Bool) :
    KeyFun (fun p : Posting => if P (shownDate today r p) (shownPayee r p) p.acct (shownCCY base r p) then shownRate prices today base r p else 0) := by
  intro p q hpq
  obtain ⟨k1, k2, k3, k4, k5, _⟩ := shown_congr hpq prices today base r
  simp only [k1, k2, k3, k4, k5]

theorem columnKey (prices : PriceBook) (today : Int) (base : Str) (r : ReportConf) (P : Int → Str → Str → Bool) :
    KeyFun (fun p : Posting => if P (shownDate today r p) (shownPayee r p) p.acct then sumRate prices today base r p else 0) := by
  intro p q hpq
  obtain ⟨k1, k2, k3, k4, _, k5⟩ := shown_congr hpq prices today base r
  simp only [k1, k2, k3, k5]

/-- C122, listings: what a report up to the end date shows is what the report up to the start date shows and what the report between the two
shows, entry by entry (under the dates, payees, accounts and currencies shown), also when amounts are converted. -/
theorem c122_listing (le : Env) (depth : Nat) (e : OpEnv) (hs : IsSort e.srt) (t : YMD) (ht : t.Valid) (htoday : e.today = t.code) (fuel : Nat)
    (a : AppConf) (r : ReportConf) (hr : r.sum = false ∨ r.typ = b!"Beancount") (o : Int → Str → List Str → List Str) (args : List Str)
    (D1 D2 : Str) (d1 d2 : YMD) (hm1 : MeansDay t D1 d1) (hm2 : MeansDay t D2 d2) (hv1 : d1.Valid) (hv2 : d2.Valid) (hle : d1.code ≤ d2.code)
    (hmac : ∀ op ∈ [b!"asof=" ++ D1, b!"since=" ++ D1, b!"asof=" ++ D2], a.macros op = none) (closing opening change : List Txn)
    (h2 : reportCmd le depth e fuel a r o (args ++ [b!"asof=" ++ D2]) = .ok closing)
    (h1 : reportCmd le depth e fuel a r o (args ++ [b!"asof=" ++ D1]) = .ok opening)
    (hd : reportCmd le depth e fuel a r o (args ++ [b!"since=" ++ D1, b!"asof=" ++ D2]) = .ok change) (d : Int) (py ac c : Str) :
    entryTotal d py ac c closing.flatten = entryTotal d py ac c opening.flatten + entryTotal d py ac c change.flatten := by
  obtain ⟨b0, b2, x0, x2, y2, _⟩ := c90_report_exact le depth e hs fuel a r o _ _ h2 hr
  obtain ⟨b0', b1, x0', x1, y1, _⟩ := c90_report_exact le depth e hs fuel a r o _ _ h1 hr
  obtain ⟨b0'', bd, x0'', xd, yd, _⟩ := c90_report_exact le depth e hs fuel a r o _ _ hd hr
  rw [x0] at x0' x0''
  cases x0'
  cases x0''
  obtain ⟨e1, ed, hw⟩ := periods_split hs ht htoday hm1 hm2 hv1 hv2 hle hmac (good_load hs x0) ⟨x2, x1, xd⟩
  rw [y2, y1, yd, e1, ed, weighted_wsum, weighted_wsum, weighted_wsum]
  exact hw _ (shownKey b2.prices e.today a.baseCCY r fun d' py' ac' c' => decide (d' = d ∧ py' = py ∧ ac' = ac ∧ c' = c))

/-- C122, balances: for every account and currency, the balance at the end date is the balance at the start date and the change between. -/
theorem c122_balances (le : Env) (depth : Nat) (e : OpEnv) (hs : IsSort e.srt) (t : YMD) (ht : t.Valid) (htoday : e.today = t.code) (fuel : Nat)
    (a : AppConf) (r : ReportConf) (hr : r.sum = false ∨ r.typ = b!"Beancount") (o : Int → Str → List Str → List Str) (args : List Str)
    (D1 D2 : Str) (d1 d2 : YMD) (hm1 : MeansDay t D1 d1) (hm2 : MeansDay t D2 d2) (hv1 : d1.Valid) (hv2 : d2.Valid) (hle : d1.code ≤ d2.code)
    (hmac : ∀ op ∈ [b!"asof=" ++ D1, b!"since=" ++ D1, b!"asof=" ++ D2], a.macros op = none) (closing opening change : List Txn)
    (h2 : reportCmd le depth e fuel a r o (args ++ [b!"asof=" ++ D2]) = .ok closing)
    (h1 : reportCmd le depth e fuel a r o (args ++ [b!"asof=" ++ D1]) = .ok opening)
    (hd : reportCmd le depth e fuel a r o (args ++ [b!"since=" ++ D1, b!"asof=" ++ D2]) = .ok change) (ac c : Str) :
    acctTotal ac c closing.flatten = acctTotal ac c opening.flatten + acctTotal ac c change.flatten := by
  have tot : ∀ args ts, reportCmd le depth e fuel a r o args = .ok ts → ∃ b0 b, loadCmd le depth e.srt a = .ok b0 ∧ opsCmd e fuel a args b0 = .ok b ∧
      acctTotal ac c ts.flatten = wsum (fun p => if decide (p.acct = ac ∧ shownCCY a.baseCCY r p = c) then shownRate b.prices e.today a.baseCCY r p else 0)
        (reported e.srt b) := by
    intro args ts h
    unfold reportCmd at h
    obtain ⟨b, h1, h2⟩ := bind_ok h
    obtain ⟨b0, h0, h1⟩ := bind_ok h1
    have hg := good_ops hs (good_load hs h0) h1
    obtain ⟨fb, hfb, rfl⟩ := reportTxns_ok h2 hr
    refine ⟨b0, b, h0, h1, ?_⟩
    obtain ⟨_, hw⟩ := shown_wsum hs hg hfb (fun _ _ a' c' => if a' = ac ∧ c' = c then 1 else 0)
    unfold acctTotal
    rw [total_eq_wsum]
    unfold reported at hw ⊢
    simp only [decide_eq_true_eq] at hw ⊢
    rw [hw]
    congr 1
    funext p
    split_ifs <;> simp
  obtain ⟨b0, b2, x0, x2, y2⟩ := tot _ _ h2
  obtain ⟨b0', b1, x0', x1, y1⟩ := tot _ _ h1
  obtain ⟨b0'', bd, x0'', xd, yd⟩ := tot _ _ hd
  rw [x0] at x0' x0''
  cases x0'
  cases x0''
  obtain ⟨e1, ed, hw⟩ := periods_split hs ht htoday hm1 hm2 hv1 hv2 hle hmac (good_load hs x0) ⟨x2, x1, xd⟩
  rw [y2, y1, yd, e1, ed]
  exact hw _ (shownKey b2.prices e.today a.baseCCY r fun _ _ ac' c' => decide (ac' = ac ∧ c' = c))

/-- C122, summaries: with `--sum` (before the signs of credit accounts are turned and the hidden account is left out, which is the same in all three
reports), in every column a row of the report up to the end date is the sum of the rows of the two other reports, if all three have it: as a subtotal
(first part), or as an account of its own in the same currency (second part). -/
theorem c122_summary (le : Env) (depth : Nat) (e : OpEnv) (hs : IsSort e.srt) (t : YMD) (ht : t.Valid) (htoday : e.today = t.code) (fuel : Nat)
    (a : AppConf) (hdiv : a.divider ≠ []) (r : ReportConf) (hr : r.sum = true) (hty : r.typ ≠ b!"Beancount") (o : Int → Str → List Str → List Str)
    (ho : ∀ d py l, (o d py l).Perm l) (args : List Str)
    (D1 D2 : Str) (d1 d2 : YMD) (hm1 : MeansDay t D1 d1) (hm2 : MeansDay t D2 d2) (hv1 : d1.Valid) (hv2 : d2.Valid) (hle : d1.code ≤ d2.code)
    (hmac : ∀ op ∈ [b!"asof=" ++ D1, b!"since=" ++ D1, b!"asof=" ++ D2], a.macros op = none) (closing opening change : List Txn)
    (h2 : reportCmd le depth e fuel a r o (args ++ [b!"asof=" ++ D2]) = .ok closing)
    (h1 : reportCmd le depth e fuel a r o (args ++ [b!"asof=" ++ D1]) = .ok opening)
    (hd : reportCmd le depth e fuel a r o (args ++ [b!"since=" ++ D1, b!"asof=" ++ D2]) = .ok change) :
    ∃ (S2 S1 Sd : List Str) (gs2 gs1 gsd : List Txn),
      closing = gs2.map (shown (if r.credit = [] then none else some (e.mat r.credit)) r.hidden) ∧
      opening = gs1.map (shown (if r.credit = [] then none else some (e.mat r.credit)) r.hidden) ∧
      change = gsd.map (shown (if r.credit = [] then none else some (e.mat r.credit)) r.hidden) ∧
      ∀ g2 ∈ gs2, ∀ g1 ∈ gs1, ∀ gd ∈ gsd, ∀ x2 ∈ g2, ∀ x1 ∈ g1, ∀ xd ∈ gd, x1.date = x2.date → x1.payee = x2.payee → x1.acct = x2.acct →
        xd.date = x2.date → xd.payee = x2.payee → xd.acct = x2.acct →
        (x2.acct ∈ S2 → x2.acct ∈ S1 → x2.acct ∈ Sd → x2.acctlevel = (levelOf S2 a.divider x2.acct : Int) →
          x1.acctlevel = (levelOf S1 a.divider x2.acct : Int) → xd.acctlevel = (levelOf Sd a.divider x2.acct : Int) → x2.val = x1.val + xd.val) ∧
        (x2.acct ∉ S2 → x2.acct ∉ S1 → x2.acct ∉ Sd → x1.ccy = x2.ccy → xd.ccy = x2.ccy → x2.val = x1.val + xd.val) := by
  obtain ⟨b0, b2, x0, x2, S2, gs2, y2, z2⟩ := c116_summary le depth e hs fuel a hdiv r hr hty o ho _ _ h2
  obtain ⟨b0', b1, x0', x1, S1, gs1, y1, z1⟩ := c116_summary le depth e hs fuel a hdiv r hr hty o ho _ _ h1
  obtain ⟨b0'', bd, x0'', xd, Sd, gsd, yd, zd⟩ := c116_summary le depth e hs fuel a hdiv r hr hty o ho _ _ hd
  rw [x0] at x0' x0''
  cases x0'
  cases x0''
  obtain ⟨e1, ed, hw⟩ := periods_split hs ht htoday hm1 hm2 hv1 hv2 hle hmac (good_load hs x0) ⟨x2, x1, xd⟩
  rw [e1] at z1
  rw [ed] at zd
  refine ⟨S2, S1, Sd, gs2, gs1, gsd, y2, y1, yd, ?_⟩
  intro g2 hg2 g1 hg1 gd hgd r2 hr2 r1 hr1 rd hrd q1 q2 q3 q4 q5 q6
  have sub : ∀ {prices : PriceBook} {ps : List Posting} {S : List Str} {gs : List Txn}, SummaryOf prices e.today a r ps S gs → ∀ g ∈ gs, ∀ x ∈ g,
      x.acct ∈ S → x.acctlevel = (levelOf S a.divider x.acct : Int) → x.val = columnTree prices e.today a r x.date x.payee x.acct ps := by
    intro prices ps S gs hz g hg x hx hS hl
    obtain ⟨y, h1, _, h3⟩ := (hz.columns g hg).sums x.acct hS
    have : x ∈ g.filter (fun y => decide (y.acct = x.acct ∧ y.acctlevel = (levelOf S a.divider x.acct : Int))) :=
      List.mem_filter.2 ⟨hx, by simp [hl]⟩
    rw [h1, List.mem_singleton] at this
    rw [this] at h3 ⊢
    exact h3
  have own : ∀ {prices : PriceBook} {ps : List Posting} {S : List Str} {gs : List Txn}, SummaryOf prices e.today a r ps S gs → ∀ g ∈ gs, ∀ x ∈ g,
      x.acct ∉ S → x.val = columnEntry prices e.today a r x.date x.payee x.acct x.ccy ps := by
    intro prices ps S gs hz g hg x hx hS
    rcases (hz.columns g hg).rows x hx with ⟨h, _⟩ | h
    · exact absurd h hS
    · exact h
  constructor
  · intro s2 s1 sd l2 l1 ld
    rw [sub z2 g2 hg2 r2 hr2 s2 l2, sub z1 g1 hg1 r1 hr1 (by rw [q3]; exact s1) (by rw [q3]; exact l1),
      sub zd gd hgd rd hrd (by rw [q6]; exact sd) (by rw [q6]; exact ld), q1, q2, q3, q4, q5, q6]
    unfold columnTree InColumn
    rw [weighted_wsum, weighted_wsum, weighted_wsum]
    exact hw _ (columnKey b2.prices e.today a.baseCCY r fun d py ac => decide ((d = r2.date ∧ py = r2.payee) ∧ AtOrAbove a.divider r2.acct ac))
  · intro s2 s1 sd c1 cd
    rw [own z2 g2 hg2 r2 hr2 s2, own z1 g1 hg1 r1 hr1 (by rw [q3]; exact s1), own zd gd hgd rd hrd (by rw [q6]; exact sd), q1, q2, q3, q4, q5, q6, c1, cd]
    unfold columnEntry InColumn
    rw [weighted_wsum, weighted_wsum, weighted_wsum]
    exact hw _ (shownKey b2.prices e.today a.baseCCY r fun d py ac c => decide ((d = r2.date ∧ py = r2.payee) ∧ ac = r2.acct ∧ c = r2.ccy))

/-! Non-vacuity: the reports of `yearFile` at the start of March 2020 and at the end of the year, and between. -/

example : plainOps.today = YMD.code ⟨2020, 12, 31⟩ ∧ MeansDay ⟨2020, 12, 31⟩ b!"2020-03" ⟨2020, 3, 1⟩ ∧ MeansDay ⟨2020, 12, 31⟩ b!"next year" ⟨2021, 1, 1⟩ :=
  ⟨rfl, .month b!"2020" 45 b!"03" (by unfold Digits; decide) (by unfold DateSep; decide) (by unfold Digits; decide),
    .relative b!"next" b!" " b!"year" 1 _ (by unfold PeriodShift; decide) (by decide) (by unfold WordSep; decide) ⟨12, by decide, by decide⟩⟩

example : (reportCmd (demoEnv [(b!"a", yearFile)]) 1 plainOps 1 demoApp (yearReport false b!"yearly") (fun _ _ l => l) [b!"asof=next year"]).lines =
      some [[⟨20200101, [], b!"A", b!"U", 11⟩, ⟨20200101, [], b!"B", b!"U", -11⟩]] ∧
    (reportCmd (demoEnv [(b!"a", yearFile)]) 1 plainOps 1 demoApp (yearReport false b!"yearly") (fun _ _ l => l) [b!"asof=2020-03"]).lines =
      some [[⟨20200101, [], b!"A", b!"U", 1⟩, ⟨20200101, [], b!"B", b!"U", -1⟩]] ∧
    (reportCmd (demoEnv [(b!"a", yearFile)]) 1 plainOps 1 demoApp (yearReport false b!"yearly") (fun _ _ l => l)
        [b!"since=2020-03", b!"asof=next year"]).lines =
      some [[⟨20200101, [], b!"A", b!"U", 10⟩, ⟨20200101, [], b!"B", b!"U", -10⟩]] := by decide +kernel

/-- Two transactions between accounts of one tree. -/
def periodFile : Str := b!"2020/02/01 Buy\n  Assets:Cash -6 E\n  Assets:Bank -1 E\n  Gold 7 E\n2020/02/02 Sell\n  Assets:Bank 3 E\n  Assets:Cash 1 E\n  Gold -4 E\n"

/-- The subtotal of Assets in a summary by year. -/
def yearSummary (args : List Str) : Option (List (List Line)) :=
  (reportCmd (demoEnv [(b!"a", periodFile)]) 1 plainOps 1 demoApp { yearReport false b!"yearly" with sum := true } (fun _ _ l => l) args).lines.map
    fun ts => ts.map fun t => t.filter fun l => decide (l.ccy = b!"E" ∧ l.acct = b!"Assets")

example : yearSummary [b!"asof=2021"] = some [[⟨20200101, [], b!"Assets", b!"E", -3⟩]] ∧
    yearSummary [b!"asof=2020-02-02"] = some [[⟨20200101, [], b!"Assets", b!"E", -7⟩]] ∧
    yearSummary [b!"since=2020-02-02", b!"asof=2021"] = some [[⟨20200101, [], b!"Assets", b!"E", 4⟩]] := by decide +kernel

end Verif
