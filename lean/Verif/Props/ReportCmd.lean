import Verif.Model.ReportCmd
import Verif.Spec.ReportCmd
import Verif.Props.ReportText
import Verif.Props.HtmlText
import Verif.Props.JsonOut
import Verif.Props.SumCmd
import Verif.Props.ExportCmd

/-! # C130: the report command, from the ledger file to what is shown -/

namespace Verif
open Spec

theorem shown_ccys {e : OpEnv} {a : AppConf} {r : ReportConf} {b fb : Book} (h : shownBook e a r b = .ok fb) : fb.ccy = b.ccy := by
  unfold shownBook at h
  split at h
  · cases h; rfl
  · have hcv := convertCmd_ok h
    have h1 : (if r.combineby ≠ b!"skip" then b.splitBy e.srt e.today r.combineby else b).ccy = b.ccy := by
      split
      · unfold Book.splitBy Book.mapTransaction Book.compact; split <;> rfl
      · rfl
    split at hcv
    · rw [(convertBook_some hcv.2).1, ← h1]; rfl
    · rw [hcv, h1]

theorem bookFmt_ccy (l : Lang) (x : PrintEnv) {b b' : Book} (h : b.ccy = b'.ccy) : bookFmt l x b = bookFmt l x b' := by
  unfold bookFmt; rw [h]

/-- The command is the report of `reportCmd`, printed with the decimals of the book. -/
theorem full_of_cmd {le : Env} {depth : Nat} {e : OpEnv} {fuel : Nat} {a : AppConf} {r : ReportConf} {o : Int → Str → List Str → List Str} {l : Lang}
    {x : PrintEnv} {sc : ScreenEnv} {css : Str} {args : List Str} {b0 b : Book} (h0 : loadCmd le depth e.srt a = .ok b0)
    (h1 : opsCmd e fuel a args b0 = .ok b) {ts : List Txn} (h : reportTxns e a r o b = .ok ts) :
    ∃ fb, shownBook e a r b = .ok fb ∧ reportFull le depth e fuel a r o l x sc css args = reportPrint l x sc r.typ css fb ts := by
  unfold reportTxns at h
  unfold reportFull reportShow shownBook
  rw [h0, CmdEnd.bind, h1, CmdEnd.bind]
  split at h
  · rename_i ht
    cases h
    exact ⟨b, by rw [if_pos ht], by simp only [if_pos ht]⟩
  · rename_i ht
    obtain ⟨fb, k1, k2⟩ := bind_ok h
    refine ⟨fb, by rw [if_neg ht]; exact k1, ?_⟩
    simp only [if_neg ht]
    rw [k1, CmdEnd.bind, k2, CmdEnd.bind]

theorem weighted_ne {sel : Posting → Bool} {rate : Posting → Rat} {l : List Posting} (h : weighted sel rate l ≠ 0) : ∃ p ∈ l, sel p = true := by
  by_contra hno
  apply h
  unfold weighted
  rw [List.filter_eq_nil_iff.2 fun p hp hs => hno ⟨p, hp, hs⟩]
  rfl

/-- What is shown has the names of the book. -/
theorem plain_shown {e : OpEnv} (hs : IsSort e.srt) {a : AppConf} {r : ReportConf} {b fb : Book} (hg : b.Good)
    (h : shownBook e a r b = .ok fb) {prt : Nat → Bool} (hp : PlainNames prt a (reported e.srt b)) :
    ∀ p ∈ reported e.srt fb, (p.acct ≠ [] ∧ ¬ a.divider <:+ p.acct ∧ 27 ∉ p.acct) ∧ PlainCCY prt p.ccy := by
  intro p hpm
  obtain ⟨d, py, hne⟩ := (shown_pairs hs hg h p.acct p.ccy).2 ⟨p, hpm, rfl, rfl⟩
  obtain ⟨q, hq, hsel⟩ := weighted_ne hne
  simp only [decide_eq_true_eq] at hsel
  rw [← hsel.2.1, ← hsel.2.2]
  refine ⟨hp.accts q hq, ?_⟩
  unfold shownCCY
  split
  · exact hp.base
  · exact hp.ccys q hq

/-- **C130**, text (partial: plain names, C129).  `report --sum --type Text` of a ledger whose summary is not empty prints lines that are, as seen, the whole
table of that summary: the columns whose figures add up what the book has on the accounts (C116). -/
theorem c130_text_partial (le : Env) (depth : Nat) (e : OpEnv) (hs : IsSort e.srt) (fuel : Nat) (a : AppConf) (hd : a.divider ≠ []) (r : ReportConf)
    (hr : r.sum = true) (ht : r.typ = b!"Text") (o : Int → Str → List Str → List Str) (ho : ∀ d py l, (o d py l).Perm l) (args : List Str)
    (x : PrintEnv) (hx : SoundPrint x) (sc : ScreenEnv) (hp : AsciiPrint sc.prt) (css : Str)
    (ts : List Txn) (h : reportCmd le depth e fuel a r o args = .ok ts) (hts : ts ≠ []) :
    ∃ b0 b, loadCmd le depth e.srt a = .ok b0 ∧ opsCmd e fuel a args b0 = .ok b ∧ (PlainNames sc.prt a (reported e.srt b) →
      ∃ (S : List Str) (gs : List Txn) (last : Txn) (lines : List (List Nat)),
        reportFull le depth e fuel a r o .english x sc css args = .ok (.text lines.flatten) ∧
        SummaryOf b.prices e.today a r (reported e.srt b) S gs ∧
        ts = gs.map (Verif.shown (if r.credit = [] then none else some (e.mat r.credit)) r.hidden) ∧
        ts.getLast? = some last ∧
        WholeTable (reportTable sc.prt x.letter dateString (bookFmt .english x b).number ts last) (lines.map plain) ∧
        (∀ t ∈ ts, ∀ p ∈ t, ∃ v ∈ last, SameRow p v) ∧
        ∀ t ∈ ts, ∀ p ∈ t, FitsDecimals (decimalsOf (bookFmt .english x b) p.ccy) p.val →
          decimalValue ((bookFmt .english x b).number p.ccy p.val) = p.val) := by
  have htb : r.typ ≠ b!"Beancount" := by rw [ht]; decide
  obtain ⟨b0, b, h0, h1, S, gs, e1, e2⟩ := c116_summary le depth e hs fuel a hd r hr htb o ho args ts h
  refine ⟨b0, b, h0, h1, fun hpl => ?_⟩
  have h2 : reportTxns e a r o b = .ok ts := by
    unfold reportCmd at h
    rw [h0, CmdEnd.bind, h1, CmdEnd.bind] at h
    exact h
  obtain ⟨fb, hfb, hfull⟩ := full_of_cmd (l := .english) (x := x) (sc := sc) (css := css) h0 h1 h2
  obtain ⟨fb', hfb', hacc⟩ := sumTxns_ok h2 hr htb
  rw [hfb] at hfb'
  cases hfb'
  have hg := good_ops hs (good_load hs h0) h1
  have hf := (shown_wsum hs hg hfb (fun _ _ _ _ => 0)).1
  have hnames := plain_shown hs hg hfb hpl
  have hne : fb.transactions e.srt ≠ [] := by
    intro hn
    obtain ⟨gs', rfl, g2, _⟩ := accumulate_good hs hf.1 hf.2 ho hacc
    rw [hn] at g2
    cases g2
    exact hts rfl
  obtain ⟨last, lines, c1, c2, c3, c4, c5⟩ := text_sum_good e.srt hs fb hf.1 hf.2 a.baseCCY a.divider hd hpl.base.1 _ r.hidden o ho ts hacc hne sc.prt hp
    (fun p hpm => ⟨(hnames p hpm).1.1, (hnames p hpm).1.2.1, (hnames p hpm).1.2.2, (hnames p hpm).2.1, (hnames p hpm).2.2⟩) hpl.base.2 sc.width
    (bookFmt .english x fb) (bookFmt_sound hx fb) sc.colour
  rw [bookFmt_ccy _ _ (shown_ccys hfb)] at c2 c3 c5
  refine ⟨S, gs, last, lines, ?_, e2, e1, c1, c3, c4, c5⟩
  rw [hfull, ht, reportPrint, if_pos rfl, bookFmt_ccy _ _ (shown_ccys hfb), c2]

/-! ## The other formats -/

theorem grouped_chars (sep : Str) : ∀ (n : Nat) (s : Str), ∀ c ∈ grouped sep n s, c ∈ sep ∨ c ∈ s := by
  intro n
  induction n with
  | zero => intro s c h; exact Or.inr h
  | succ n ih =>
    intro s c h
    rw [grouped] at h
    split at h
    · exact Or.inr h
    · rcases List.mem_append.1 h with h | h
      · rcases ih _ c h with h | h
        · exact Or.inl h
        · exact Or.inr (List.mem_of_mem_take h)
      · rcases List.mem_append.1 h with h | h
        · exact Or.inl h
        · exact Or.inr (List.mem_of_mem_drop h)

theorem bookFmt_noTags (l : Lang) (x : PrintEnv) (b : Book) : NumbersNoTags (bookFmt l x b) := by
  constructor
  · intro n h
    rcases grouped_chars _ _ _ _ h with h | h
    · cases l <;> simp [Lang.separator] at h
    · have := natDec_digits n _ h
      omega
  · show l.point ≠ 60
    cases l <;> decide

theorem accumulate_levels {srt : List Posting → List Posting} (hs : IsSort srt) {b : Book} (w : b.WF) (hbal : Balanced b.post)
    {base div : Str} {credit : Option (Str → Bool)} {hidden : Str} {o : Int → Str → List Str → List Str}
    (ho : ∀ d py l, (o d py l).Perm l) {ts : List Txn} (h : b.accumulate srt base div credit hidden o = some ts) :
    ∀ t ∈ ts, ∀ p ∈ t, 0 ≤ p.acctlevel := by
  obtain ⟨gs, rfl, g2, _⟩ := accumulate_good hs w hbal ho h
  intro t ht p hpt
  obtain ⟨g, hg, rfl⟩ := List.mem_map.1 ht
  obtain ⟨u, _, h1, _, h3⟩ := forall₂_mem_right g2 hg
  have hm : rowKey p ∈ (hideFlip credit hidden g).map rowKey := List.mem_map.2 ⟨p, hpt, rfl⟩
  rw [hideFlip_keys, List.mem_filter] at hm
  have hc : p.acctlevel = (rowKey p).level := rfl
  rw [hc]
  rcases List.mem_append.1 ((report_keys h1 h3).mem_iff.1 hm.1) with hm | hm
  · obtain ⟨e, he, e1⟩ := List.mem_map.1 hm
    rw [← e1]
    unfold leafKey
    split <;> simp
  · obtain ⟨k, _, e1⟩ := List.mem_map.1 hm
    rw [← e1]
    unfold sumKey
    split <;> simp

/-- **C130**, formats: the transactions reported do not depend on whether they are shown as text, JSON, HTML or in ledger format. -/
theorem c130_formats (le : Env) (depth : Nat) (e : OpEnv) (fuel : Nat) (a : AppConf) (r : ReportConf) (o : Int → Str → List Str → List Str)
    (args : List Str) (typ : Str) (h : r.typ ≠ b!"Beancount") (h' : typ ≠ b!"Beancount") :
    reportCmd le depth e fuel a { r with typ := typ } o args = reportCmd le depth e fuel a r o args := by
  have : reportTxns e a { r with typ := typ } o = reportTxns e a r o := by
    funext b
    unfold reportTxns
    rw [if_neg h, if_neg h']
    rfl
  unfold reportCmd
  rw [this]

/-- **C130**, HTML (partial: texts without `<`, C79).  The page of `report --sum --type HTML` shows the style sheet and then, transaction by transaction,
date, payee, and each label with its currency and amount, of the same summary as the text report. -/
theorem c130_html_partial (le : Env) (depth : Nat) (e : OpEnv) (hs : IsSort e.srt) (fuel : Nat) (a : AppConf) (r : ReportConf)
    (hr : r.sum = true) (ht : r.typ = b!"HTML") (o : Int → Str → List Str → List Str) (ho : ∀ d py l, (o d py l).Perm l) (args : List Str) (l : Lang)
    (x : PrintEnv) (sc : ScreenEnv) (css : Str) (ts : List Txn) (h : reportCmd le depth e fuel a r o args = .ok ts) (hts : ts ≠ [])
    (hn : ∀ t ∈ ts, NoTags t) :
    ∃ b0 b, loadCmd le depth e.srt a = .ok b0 ∧ opsCmd e fuel a args b0 = .ok b ∧
      ∀ page, reportFull le depth e fuel a r o l x sc css args = .ok (.text page) →
        ∃ style, styleOf sc css = some style ∧
          (60 ∉ style → htmlLeaves page = some ((b!"style", [10] ++ style ++ [10]) :: ts.flatMap (txnLeaves (bookFmt l x b)))) := by
  have htb : r.typ ≠ b!"Beancount" := by rw [ht]; decide
  obtain ⟨b, h1, h2⟩ := bind_ok h
  obtain ⟨b0, h0, h1⟩ := bind_ok h1
  refine ⟨b0, b, h0, h1, fun page hpage => ?_⟩
  obtain ⟨fb, hfb, hfull⟩ := full_of_cmd (l := l) (x := x) (sc := sc) (css := css) h0 h1 h2
  obtain ⟨fb', hfb', hacc⟩ := sumTxns_ok h2 hr htb
  rw [hfb] at hfb'
  cases hfb'
  have hg := good_ops hs (good_load hs h0) h1
  have hf := (shown_wsum hs hg hfb (fun _ _ _ _ => 0)).1
  have hlev := accumulate_levels hs hf.1 hf.2 ho hacc
  rw [hfull, ht, reportPrint, if_neg (by decide), if_neg (by decide), if_pos rfl] at hpage
  split at hpage
  · cases hpage
  · rename_i style hst
    refine ⟨style, hst, fun h60 => ?_⟩
    have hp := orCrash_ok hpage
    obtain ⟨pcs, hpcs, hp⟩ := Option.map_eq_some_iff.1 hp
    cases hp
    rw [c79_shown_partial _ (bookFmt_noTags l x fb) style ts pcs h60 hts hn hlev hpcs, bookFmt_ccy _ _ (shown_ccys hfb)]

/-- **C130**, style sheet: the text given with `--htmlcss`, or the content of the file named after `file:`; a file that cannot be read is an error and
nothing is shown. -/
theorem c130_style (le : Env) (depth : Nat) (e : OpEnv) (fuel : Nat) (a : AppConf) (r : ReportConf)
    (ht : r.typ = b!"HTML") (o : Int → Str → List Str → List Str) (args : List Str) (l : Lang)
    (x : PrintEnv) (sc : ScreenEnv) (css : Str) :
    (∀ name, css = b!"file:" ++ name → styleOf sc css = sc.read name) ∧
    (css ≠ [] → (∀ name, css ≠ b!"file:" ++ name) → styleOf sc css = some css) ∧
    (css = [] → styleOf sc css = some sc.sheet) ∧
    ∀ ts, reportCmd le depth e fuel a r o args = .ok ts → styleOf sc css = none → reportFull le depth e fuel a r o l x sc css args = .err := by
  refine ⟨?_, ?_, ?_, ?_⟩
  · rintro name rfl
    unfold styleOf fileOrStr
    rw [if_neg (by simp), if_pos (by simp [List.isPrefixOf])]
    rfl
  · intro h1 h2
    unfold styleOf fileOrStr
    rw [if_neg h1, if_neg]
    intro hp
    obtain ⟨name, hname⟩ := List.isPrefixOf_iff_prefix.1 hp
    exact h2 name hname.symm
  · rintro rfl
    rfl
  · intro ts h hst
    obtain ⟨b, h1, h2⟩ := bind_ok h
    obtain ⟨b0, h0, h1⟩ := bind_ok h1
    obtain ⟨fb, hfb, hfull⟩ := full_of_cmd (l := l) (x := x) (sc := sc) (css := css) h0 h1 h2
    rw [hfull, ht, reportPrint, if_neg (by decide), if_neg (by decide), if_pos rfl, hst]

/-- Every transaction reported has one date and one payee. -/
theorem report_one_key {le : Env} {depth : Nat} {e : OpEnv} (hs : IsSort e.srt) {fuel : Nat} {a : AppConf} {r : ReportConf}
    {o : Int → Str → List Str → List Str} (ho : ∀ d py l, (o d py l).Perm l) {args : List Str} {ts : List Txn}
    (h : reportCmd le depth e fuel a r o args = .ok ts) : ∀ t ∈ ts, ∀ p ∈ t, ∀ q ∈ t, p.date = q.date ∧ p.payee = q.payee := by
  obtain ⟨b, h1, h2⟩ := bind_ok h
  obtain ⟨b0, h0, h1⟩ := bind_ok h1
  have hg := good_ops hs (good_load hs h0) h1
  unfold reportTxns at h2
  split at h2
  · cases h2
    exact (compact_canonical hs hg.1).oneTxn
  · rename_i htb
    by_cases hr : r.sum = true
    · have h2' : reportTxns e a r o b = .ok ts := by unfold reportTxns; rw [if_neg htb]; exact h2
      obtain ⟨fb, hfb, hacc⟩ := sumTxns_ok h2' hr htb
      have hf := (shown_wsum hs hg hfb (fun _ _ _ _ => 0)).1
      obtain ⟨gs, rfl, g2, _⟩ := accumulate_good hs hf.1 hf.2 ho hacc
      intro t ht p hp q hq
      obtain ⟨g, hgm, rfl⟩ := List.mem_map.1 ht
      obtain ⟨u, _, k1, _, k3⟩ := forall₂_mem_right g2 hgm
      have key : ∀ p ∈ hideFlip (if r.credit = [] then none else some (e.mat r.credit)) r.hidden g, ∃ x ∈ g, p.date = x.date ∧ p.payee = x.payee := by
        intro p hp
        unfold hideFlip at hp
        obtain ⟨x, hx, rfl⟩ := List.mem_map.1 hp
        refine ⟨x, (List.mem_filter.1 hx).1, ?_⟩
        split
        · split <;> exact ⟨rfl, rfl⟩
        · exact ⟨rfl, rfl⟩
      obtain ⟨x, hx, x1, x2⟩ := key p hp
      obtain ⟨y, hy, y1, y2⟩ := key q hq
      rw [x1, x2, y1, y2]
      obtain ⟨B, hbl, hpm, _⟩ := k3
      obtain ⟨w, hw⟩ := List.exists_mem_of_ne_nil _ k1.1
      obtain ⟨a1, a2⟩ := block_keys k1 hbl x (hpm.mem_iff.1 hx) w hw
      obtain ⟨b1, b2⟩ := block_keys k1 hbl y (hpm.mem_iff.1 hy) w hw
      exact ⟨a1.trans b1.symm, a2.trans b2.symm⟩
    · obtain ⟨fb, k1, k2⟩ := bind_ok h2
      have hfb : shownBook e a r b = .ok fb := by unfold shownBook; rw [if_neg htb]; exact k1
      have hf := (shown_wsum hs hg hfb (fun _ _ _ _ => 0)).1
      unfold sumCmd at k2
      simp only [if_neg hr] at k2
      split at k2
      · cases k2
      · cases k2
        exact (compact_canonical hs hf.1).oneTxn

/-- **C130**, JSON: `report --type Json`, when no transaction is left without rows, gives the reported transactions in order: of each its date, payee and note and
its rows in order with account, currency and amount. -/
theorem c130_json (le : Env) (depth : Nat) (e : OpEnv) (hs : IsSort e.srt) (fuel : Nat) (a : AppConf) (r : ReportConf)
    (ht : r.typ = b!"Json") (o : Int → Str → List Str → List Str) (ho : ∀ d py l, (o d py l).Perm l) (args : List Str) (l : Lang)
    (x : PrintEnv) (hx : SoundPrint x) (hd : FormatsDays x.tm) (sc : ScreenEnv) (css : Str) (ts : List Txn)
    (h : reportCmd le depth e fuel a r o args = .ok ts) (hne : ∀ t ∈ ts, t ≠ []) (hord : ∀ t ∈ ts, ∀ p ∈ t, Ordinary p.val) :
    ∃ js, reportFull le depth e fuel a r o l x sc css args = .ok (.json (.arr js)) ∧ List.Forall₂ TxnSays js ts := by
  have hkey := report_one_key hs ho h
  obtain ⟨b, h1, h2⟩ := bind_ok h
  obtain ⟨b0, h0, h1⟩ := bind_ok h1
  obtain ⟨fb, hfb, hfull⟩ := full_of_cmd (l := l) (x := x) (sc := sc) (css := css) h0 h1 h2
  have : ∀ ts : List Txn, (∀ t ∈ ts, t ≠ []) → ∃ l, ts.mapM (jsonTxn x.tm x.fl) = some l := by
    intro ts
    induction ts with
    | nil => intro _; exact ⟨[], rfl⟩
    | cons t ts ih =>
      intro h
      obtain ⟨l, hl⟩ := ih fun t ht => h t (List.mem_cons_of_mem _ ht)
      obtain ⟨p, t', rfl⟩ := List.exists_cons_of_ne_nil (h t (by simp))
      rw [List.mapM_cons, hl]
      exact ⟨_, rfl⟩
  obtain ⟨js, hjs⟩ := this ts hne
  refine ⟨js, ?_, mapM_some_forall₂ hjs fun t htm j hj => jsonTxn_says hd hx.float (hkey t htm) (hord t htm) hj⟩
  rw [hfull, ht, reportPrint, if_neg (by decide), if_pos rfl, exportJSON, hjs]
  rfl

/-! ## Examples -/

def demoScreen : ScreenEnv := ⟨asciiPrt, 80, false, fun n => if n = b!"s.css" then some b!"css" else none, []⟩

def sumReport (typ : Str) : ReportConf := { yearReport false b!"skip" with sum := true, typ := typ }

/-- What the text report on the file of `sumFile` looks like. -/
example : (reportFull (demoEnv [(b!"a", sumFile)]) 1 plainOps 1 demoApp (sumReport b!"Text") (fun _ _ l => l) .english demoPrint demoScreen [] []).text? =
    some (b!"Account 2020/02/01 2020/02/02\nAssets  E       -7 E        6\n  Bank  E       -1 E        6\n        E       -1 E        0\n" ++
      b!"        U        0 U        3\n  Cash  E       -6 E        0\n\nGold    E        7 E       -6\n        E        7 E        0\n" ++
      b!"        U        0 U       -3\n") := by decide +kernel

def plainNamesB (prt : Nat → Bool) (a : AppConf) (ps : List Posting) : Bool :=
  ps.all (fun p => !p.acct.isEmpty && !a.divider.isSuffixOf p.acct && p.acct.all (· ≠ 27) && !p.ccy.isEmpty && p.ccy.all fun c => prt c && c ≠ 27 && c ≠ 9) &&
    (!a.baseCCY.isEmpty && a.baseCCY.all fun c => prt c && c ≠ 27 && c ≠ 9)

theorem plainNames_of_b {prt : Nat → Bool} {a : AppConf} {ps : List Posting} (h : plainNamesB prt a ps = true) : PlainNames prt a ps := by
  simp only [plainNamesB, Bool.and_eq_true, List.all_eq_true, Bool.not_eq_true', decide_eq_true_eq, List.isEmpty_eq_false_iff] at h
  obtain ⟨h1, h2, h3⟩ := h
  refine ⟨fun p hp => ?_, fun p hp => ⟨(h1 p hp).1.2, fun c hc => ?_⟩, h2, fun c hc => ?_⟩
  · obtain ⟨⟨⟨⟨k1, k2⟩, k3⟩, _⟩, _⟩ := h1 p hp
    refine ⟨k1, fun hsuf => ?_, fun hm => k3 27 hm rfl⟩
    rw [List.isSuffixOf_iff_suffix.2 hsuf] at k2
    cases k2
  · obtain ⟨⟨k1, k2⟩, k3⟩ := (h1 p hp).2 c hc
    exact ⟨k1, k2, k3⟩
  · obtain ⟨⟨k1, k2⟩, k3⟩ := h3 c hc
    exact ⟨k1, k2, k3⟩

/-- The command succeeds with a result of which the test is true. -/
def CmdEnd.okB {α : Type} (p : α → Bool) : CmdEnd α → Bool
  | .ok a => p a
  | _ => false

theorem okB_ok {α : Type} {p : α → Bool} {x : CmdEnd α} (h : x.okB p = true) : ∃ a, x = .ok a ∧ p a = true := by
  cases x with
  | ok a => exact ⟨a, rfl, h⟩
  | err => cases h
  | crash => cases h
  | diverge => cases h
  | fatal => cases h

/-- Non-vacuity of the theorems above. -/
example : IsSort plainOps.srt ∧ demoApp.divider ≠ [] ∧ SoundPrint demoPrint ∧ AsciiPrint demoScreen.prt ∧
    (∃ ts, reportCmd (demoEnv [(b!"a", sumFile)]) 1 plainOps 1 demoApp (sumReport b!"Text") (fun _ _ l => l) [] = .ok ts ∧ ts ≠ [] ∧
      (∀ t ∈ ts, t ≠ []) ∧ ∀ t ∈ ts, NoTags t) ∧
    ∃ b, loadCmd (demoEnv [(b!"a", sumFile)]) 1 insSort demoApp = .ok b ∧ PlainNames demoScreen.prt demoApp (reported insSort b) := by
  refine ⟨insSort_isSort, by decide, demoPrint_sound, asciiPrt_ok, ?_, ?_⟩
  · have hc : (reportCmd (demoEnv [(b!"a", sumFile)]) 1 plainOps 1 demoApp (sumReport b!"Text") (fun _ _ l => l) []).okB (fun ts =>
        decide (ts ≠ []) && decide (∀ t ∈ ts, t ≠ []) && decide (∀ t ∈ ts, (∀ p ∈ t, 60 ∉ p.payee ∧ 60 ∉ p.acctterm ∧ 60 ∉ p.ccy))) = true := by decide +kernel
    obtain ⟨ts, e1, e2⟩ := okB_ok hc
    simp only [Bool.and_eq_true, decide_eq_true_eq] at e2
    exact ⟨ts, e1, e2.1.1, e2.1.2, fun t ht => ⟨fun p hp => (e2.2 t ht p hp).1, fun p hp => (e2.2 t ht p hp).2.1, fun p hp => (e2.2 t ht p hp).2.2⟩⟩
  · have hc : (loadCmd (demoEnv [(b!"a", sumFile)]) 1 insSort demoApp).okB (fun b => plainNamesB asciiPrt demoApp (reported insSort b)) = true := by
      decide +kernel
    obtain ⟨b, e1, e2⟩ := okB_ok hc
    exact ⟨b, e1, plainNames_of_b e2⟩

/-- C130 is false of a ledger with nothing to report: the text report crashes, though there is no fault in the ledger. -/
theorem c130_text_fails : ¬ ∀ (le : Env) (depth : Nat) (e : OpEnv) (_ : IsSort e.srt) (fuel : Nat) (a : AppConf) (_ : a.divider ≠ []) (r : ReportConf)
    (_ : r.sum = true) (_ : r.typ = b!"Text") (o : Int → Str → List Str → List Str) (_ : ∀ d py l, (o d py l).Perm l) (args : List Str)
    (x : PrintEnv) (_ : SoundPrint x) (sc : ScreenEnv) (_ : AsciiPrint sc.prt) (css : Str) (ts : List Txn),
    reportCmd le depth e fuel a r o args = .ok ts → ∃ page, reportFull le depth e fuel a r o .english x sc css args = .ok (.text page) := by
  intro h
  have hc : (reportCmd (demoEnv [(b!"a", [])]) 1 plainOps 1 demoApp (sumReport b!"Text") (fun _ _ l => l) []).okB (fun _ => true) = true := by decide +kernel
  have hd : (reportFull (demoEnv [(b!"a", [])]) 1 plainOps 1 demoApp (sumReport b!"Text") (fun _ _ l => l) .english demoPrint demoScreen [] []).okB
    (fun _ => true) = false := by decide +kernel
  obtain ⟨ts, hts, _⟩ := okB_ok hc
  obtain ⟨page, hp⟩ := h (demoEnv [(b!"a", [])]) 1 plainOps insSort_isSort 1 demoApp (by decide) (sumReport b!"Text") rfl rfl (fun _ _ l => l)
    (fun _ _ _ => .refl _) [] demoPrint demoPrint_sound demoScreen asciiPrt_ok [] ts hts
  rw [hp] at hd
  cases hd

end Verif
