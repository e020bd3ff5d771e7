import Verif.Props.ReportCmd
import Verif.Props.SavedLedger

/-! # C131: a report in ledger format is a ledger -/

namespace Verif
open Spec

theorem report_saved {le : Env} {depth : Nat} {e : OpEnv} (hs : IsSort e.srt) {fuel : Nat} {a : AppConf} {r : ReportConf} (hr : r.sum = false)
    (ht : LedgerReport r) {o : Int → Str → List Str → List Str} {args : List Str} {x : PrintEnv} (hx : SoundPrint x) {sc : ScreenEnv} {css : Str}
    {b0 b : Book} (h0 : loadCmd le depth e.srt a = .ok b0) (h1 : opsCmd e fuel a args b0 = .ok b) {fb : Book} (hfb : shownBook e a r b = .ok fb)
    (hcmd : reportCmd le depth e fuel a r o args = .ok (fb.transactions e.srt))
    (hp : ∀ t ∈ fb.transactions e.srt, PrintableTxn (bookFmt .english x b) t) :
    ∃ text, reportFull le depth e fuel a r o .english x sc css args = .ok (.text text) ∧
      ∀ (le1 : Env), le1.letter 10 = false → ∀ (depth1 : Nat) (a1 : AppConf), le1.files a1.ledger = some text →
        ∃ bk, loadCmd le1 (depth1 + 1) e.srt a1 = .ok bk ∧ bk.transactions e.srt = (fb.transactions e.srt).map asLoaded ∧ bk.prices = [] := by
  have h2 : reportTxns e a r o b = .ok (fb.transactions e.srt) := by
    unfold reportCmd at hcmd
    rw [h0, CmdEnd.bind, h1, CmdEnd.bind] at hcmd
    exact hcmd
  obtain ⟨fb', hfb', hfull⟩ := full_of_cmd (l := .english) (x := x) (sc := sc) (css := css) h0 h1 h2
  rw [hfb] at hfb'
  cases hfb'
  have hg := good_ops hs (good_load hs h0) h1
  have hf := (shown_wsum hs hg hfb (fun _ _ _ _ => 0)).1
  have hccy := bookFmt_ccy .english x (shown_ccys hfb)
  obtain ⟨text, k1, k2⟩ := export_reload_good hs hf.1 hf.2 (bookFmt_sound hx fb) (by rw [hccy]; exact hp)
  refine ⟨text, ?_, fun le1 hl depth1 a1 hfile => ?_⟩
  · rw [hfull, reportPrint, if_neg ht.1, if_neg ht.2.1, if_neg ht.2.2.1, if_neg ht.2.2.2, k1]
    rfl
  · obtain ⟨bk, m1, m2, m3⟩ := k2 le1 hl depth1 a1.ledger hfile
    exact ⟨bk, loadCmd_ok m1, m2, m3⟩

/-- **C131** (partial: English, what the format can express).  A report in ledger format, not a summary, saved to a file and loaded from there is a ledger with
the transactions reported, and no prices. -/
theorem c131_saved_partial (le : Env) (depth : Nat) (e : OpEnv) (hs : IsSort e.srt) (fuel : Nat) (a : AppConf) (r : ReportConf) (hr : r.sum = false)
    (ht : LedgerReport r) (o : Int → Str → List Str → List Str) (args : List Str) (x : PrintEnv) (hx : SoundPrint x) (sc : ScreenEnv) (css : Str)
    (ts : List Txn) (h : reportCmd le depth e fuel a r o args = .ok ts) :
    ∃ b0 b, loadCmd le depth e.srt a = .ok b0 ∧ opsCmd e fuel a args b0 = .ok b ∧ ((∀ t ∈ ts, PrintableTxn (bookFmt .english x b) t) →
      ∃ text, reportFull le depth e fuel a r o .english x sc css args = .ok (.text text) ∧
        ∀ (le1 : Env), le1.letter 10 = false → ∀ (depth1 : Nat) (a1 : AppConf), le1.files a1.ledger = some text →
          ∃ bk, loadCmd le1 (depth1 + 1) e.srt a1 = .ok bk ∧ bk.transactions e.srt = ts.map asLoaded ∧ bk.prices = []) := by
  obtain ⟨b, h1, h2⟩ := bind_ok h
  obtain ⟨b0, h0, h1⟩ := bind_ok h1
  obtain ⟨fb, hfb, rfl⟩ := reportTxns_ok h2 (.inl hr)
  exact ⟨b0, b, h0, h1, fun hp => report_saved hs hr ht hx h0 h1 hfb h hp⟩

theorem keys_of_totals {l m : List Posting} (h : ∀ u : Weight, wsum (wt u) l = wsum (wt u) m) (k : Key) :
    total (fun p => decide (key p = k)) l = total (fun p => decide (key p = k)) m := by
  rw [total_eq_wsum, total_eq_wsum]
  have hk : (fun p : Posting => if decide (key p = k) = true then (1 : Rat) else 0) =
      wt (fun D P A C => if (toLex (D, toLex (P, toLex (A, C)))) = k then 1 else 0) := by
    funext p
    show _ = if key p = k then (1 : Rat) else 0
    by_cases hh : key p = k
    · rw [if_pos hh, if_pos (decide_eq_true hh)]
    · rw [if_neg hh, if_neg (by simpa using hh)]
  rw [hk]
  exact h _

/-- Books with the same totals list the same transactions. -/
theorem sameTxns_of_totals {srt} (hs : IsSort srt) {b b' : Book} (hb : b.Good) (hb' : b'.Good)
    (h : ∀ u : Weight, wsum (wt u) b.post = wsum (wt u) b'.post) : SameTxns (b.transactions srt) (b'.transactions srt) := by
  rw [← forall₂_alikes, transactions_eq hs hb.1, transactions_eq hs hb'.1]
  refine groupTxns_alike ?_
  rw [forall₂_alike]
  exact compactPost_unique hs hs hb.1.plain hb'.1.plain (keys_of_totals h)

theorem noPrices (d : Int) (u c : Str) : PriceBook.getPrice [] d u c = some (1, if u = c then .exact else .none) := by
  unfold PriceBook.getPrice
  split
  · rfl
  · rfl

/-- Reporting without prices never crashes. -/
theorem shown_noPrices {e : OpEnv} {a : AppConf} {r : ReportConf} {b fb : Book} (hfb : shownBook e a r b = .ok fb) {bk : Book} (hk : bk.prices = []) :
    ∃ fk, shownBook e a r bk = .ok fk := by
  unfold shownBook at *
  split
  · exact ⟨_, rfl⟩
  · rename_i ht
    rw [if_neg ht] at hfb
    unfold convertCmd at *
    split
    · rename_i hc
      rw [if_pos hc] at hfb
      split at hfb
      · cases hfb
      · rename_i hne
        rw [if_neg hne]
        have hpr : (if r.combineby ≠ b!"skip" then bk.splitBy e.srt e.today r.combineby else bk).prices = [] := by
          split
          · rw [← hk]
            unfold Book.splitBy Book.mapTransaction Book.compact; split <;> rfl
          · exact hk
        unfold convertBook
        rw [if_pos]
        · exact ⟨_, rfl⟩
        · rw [List.all_eq_true]
          intro p _
          rw [hpr, noPrices]
          rfl
    · exact ⟨_, rfl⟩

theorem shownDate_twice {today : Int} {r : ReportConf} (hc : r.combineby ∈ periods) {p q : Posting} (hd : IsDate p.date) (hq : q.date = shownDate today r p) :
    shownDate today r q = shownDate today r p := by
  unfold shownDate at *
  split
  · rename_i h
    rw [if_pos h] at hq
    rw [hq]
    refine floor_finer (.same ?_) hd
    unfold periods at hc
    rcases List.mem_cons.1 hc with hc | hc
    · exact absurd hc h.2
    · exact hc
  · rename_i h
    rw [if_neg h] at hq
    exact hq

/-- **C131** (partial: as above, and real dates): reporting the saved report with the same options shows the same transactions again. -/
theorem c131_again_partial (le : Env) (depth : Nat) (e : OpEnv) (hs : IsSort e.srt) (fuel : Nat) (a : AppConf) (r : ReportConf) (hr : r.sum = false)
    (ht : LedgerReport r) (hc : r.combineby ∈ periods) (o : Int → Str → List Str → List Str) (args : List Str) (x : PrintEnv) (hx : SoundPrint x)
    (sc : ScreenEnv) (css : Str) (ts : List Txn) (h : reportCmd le depth e fuel a r o args = .ok ts) :
    ∃ b0 b, loadCmd le depth e.srt a = .ok b0 ∧ opsCmd e fuel a args b0 = .ok b ∧ ((∀ t ∈ ts, PrintableTxn (bookFmt .english x b) t) →
      (∀ p ∈ reported e.srt b, IsDate p.date) →
      ∃ text, reportFull le depth e fuel a r o .english x sc css args = .ok (.text text) ∧
        ∀ (le1 : Env), le1.letter 10 = false → ∀ (depth1 : Nat) (f1 : Str), le1.files f1 = some text →
          ∃ ts', reportCmd le1 (depth1 + 1) e fuel (a.reading f1) r o [] = .ok ts' ∧ SameTxns ts' ts) := by
  obtain ⟨b, h1, h2⟩ := bind_ok h
  obtain ⟨b0, h0, h1⟩ := bind_ok h1
  obtain ⟨fb, hfb, rfl⟩ := reportTxns_ok h2 (.inl hr)
  refine ⟨b0, b, h0, h1, fun hp hd => ?_⟩
  obtain ⟨text, k1, k2⟩ := report_saved (sc := sc) (css := css) hs hr ht hx h0 h1 hfb h hp
  refine ⟨text, k1, fun le1 hl depth1 f1 hfile => ?_⟩
  obtain ⟨bk, m1, m2, m3⟩ := k2 le1 hl depth1 (a.reading f1) hfile
  obtain ⟨fk, hfk⟩ := shown_noPrices hfb m3
  have hg := good_ops hs (good_load hs h0) h1
  have gk := good_load hs m1
  have htx : reportTxns e (a.reading f1) r o bk = .ok (fk.transactions e.srt) := by
    unfold reportTxns at h2 ⊢
    unfold shownBook at hfk hfb
    rw [if_neg ht.2.2.2] at h2 hfk hfb ⊢
    rw [hfb, CmdEnd.bind] at h2
    have : convertCmd (a.reading f1) = convertCmd a := rfl
    rw [this, hfk, CmdEnd.bind]
    unfold sumCmd at h2 ⊢
    split at h2
    · cases h2
    · rename_i hv
      rw [if_neg hv, hr]
      rfl
  refine ⟨fk.transactions e.srt, ?_, ?_⟩
  · unfold reportCmd
    rw [m1]
    exact htx
  refine sameTxns_of_totals hs (shown_wsum hs gk hfk (fun _ _ _ _ => 0)).1 (shown_wsum hs hg hfb (fun _ _ _ _ => 0)).1 fun u => ?_
  rw [← wsum_reported hs (wt_key u) (shown_wsum hs gk hfk u).1.1, ← wsum_reported hs (wt_key u) (shown_wsum hs hg hfb u).1.1]
  have e1 := (shown_wsum hs gk hfk u).2
  have e2 := (shown_wsum hs hg hfb u).2
  have e3 := (shown_wsum hs hg hfb (fun D P A C => u (shownDate e.today r ⟨D, P, [], A, C, 0, [], 0, 0, [], []⟩)
    (shownPayee r ⟨D, P, [], A, C, 0, [], 0, 0, [], []⟩) A (shownCCY a.baseCCY r ⟨D, P, [], A, C, 0, [], 0, 0, [], []⟩))).2
  have hrate : ∀ q : Posting, shownRate bk.prices e.today a.baseCCY r q = 1 := by
    intro q
    unfold shownRate
    rw [m3, noPrices]
    split <;> rfl
  have hl1 : wsum (fun p => u (shownDate e.today r p) (shownPayee r p) p.acct (shownCCY a.baseCCY r p) * shownRate bk.prices e.today a.baseCCY r p) (reported e.srt bk) =
      wsum (wt fun D P A C => u (shownDate e.today r ⟨D, P, [], A, C, 0, [], 0, 0, [], []⟩)
        (shownPayee r ⟨D, P, [], A, C, 0, [], 0, 0, [], []⟩) A (shownCCY a.baseCCY r ⟨D, P, [], A, C, 0, [], 0, 0, [], []⟩)) (reported e.srt fb) := by
    unfold reported
    rw [m2, ← wsum_asLoaded]
    refine wsum_congr fun p _ => ?_
    rw [hrate, mul_one]
    rfl
  show wsum (fun p => u p.date p.payee p.acct p.ccy) _ = wsum (fun p => u p.date p.payee p.acct p.ccy) _
  rw [e1, hl1, e2]
  refine Eq.trans e3 (wsum_congr fun p hpm => ?_)
  congr 1
  congr 1
  · exact shownDate_twice hc (hd p hpm) rfl
  · unfold shownPayee; split <;> rfl
  · unfold shownCCY; split <;> rfl

/-! ## Examples -/

def yearLedger : ReportConf := { yearReport true b!"yearly" with typ := b!"Ledger" }

/-- The ledger of `sumFile` by years in euros, and a report of that file. -/
example : (reportFull (demoEnv [(b!"a", sumFile)]) 1 plainOps 1 demoApp yearLedger (fun _ _ l => l) .english demoPrint demoScreen [] []).text? =
    some b!"2020/01/01 \n  Assets:Bank  E 5\n  Assets:Cash  E -6\n  Gold  E 1\n\n" ∧
    (reportFull (demoEnv [(b!"a", b!"2020/01/01 \n  Assets:Bank  E 5\n  Assets:Cash  E -6\n  Gold  E 1\n\n")]) 1 plainOps 1 demoApp yearLedger
      (fun _ _ l => l) .english demoPrint demoScreen [] []).text? =
    some b!"2020/01/01 \n  Assets:Bank  E 5\n  Assets:Cash  E -6\n  Gold  E 1\n\n" := by decide +kernel

example : LedgerReport yearLedger ∧ yearLedger.combineby ∈ periods ∧ yearLedger.sum = false := by decide

/-- Non-vacuity. -/
example : ∃ ts b, reportCmd (demoEnv [(b!"a", sumFile)]) 1 plainOps 1 demoApp yearLedger (fun _ _ l => l) [] = .ok ts ∧ ts ≠ [] ∧
    loadCmd (demoEnv [(b!"a", sumFile)]) 1 insSort demoApp = .ok b ∧ (∀ t ∈ ts, PrintableTxn (bookFmt .english demoPrint b) t) ∧
    ∀ p ∈ reported insSort b, IsDate p.date := by
  have hc : (reportCmd (demoEnv [(b!"a", sumFile)]) 1 plainOps 1 demoApp yearLedger (fun _ _ l => l) []).okB (fun ts => !ts.isEmpty &&
      (loadCmd (demoEnv [(b!"a", sumFile)]) 1 insSort demoApp).okB fun b => ts.all (printableB (bookFmt .english demoPrint b)) &&
        decide (∀ p ∈ reported insSort b, p.date = 20200201 ∨ p.date = 20200202)) = true := by decide +kernel
  obtain ⟨ts, e1, e2⟩ := okB_ok hc
  rw [Bool.and_eq_true] at e2
  obtain ⟨e2, e3⟩ := e2
  obtain ⟨b, e4, e5⟩ := okB_ok e3
  rw [Bool.and_eq_true] at e5
  refine ⟨ts, b, e1, ?_, e4, ?_, ?_⟩
  · rintro rfl; cases e2
  · intro t ht
    exact printable_of_b (List.all_eq_true.1 e5.1 t ht)
  · intro p hp
    rcases of_decide_eq_true e5.2 p hp with h | h
    · exact ⟨⟨2020, 2, 1⟩, by decide, h⟩
    · exact ⟨⟨2020, 2, 2⟩, by decide, h⟩

/-- C131 is false of summaries: the subtotals are printed like postings, and the transactions no longer balance. -/
theorem c131_sum_fails : ¬ ∀ (le : Env) (depth : Nat) (e : OpEnv) (_ : IsSort e.srt) (fuel : Nat) (a : AppConf) (r : ReportConf)
    (_ : LedgerReport r) (o : Int → Str → List Str → List Str) (_ : ∀ d py l, (o d py l).Perm l) (args : List Str) (x : PrintEnv) (_ : SoundPrint x)
    (sc : ScreenEnv) (css : Str) (ts : List Txn) (b : Book) (_ : reportCmd le depth e fuel a r o args = .ok ts)
    (_ : ((loadCmd le depth e.srt a).bind (opsCmd e fuel a args)) = .ok b) (_ : ∀ t ∈ ts, PrintableTxn (bookFmt .english x b) t) (text : Str),
    reportFull le depth e fuel a r o .english x sc css args = .ok (.text text) →
    ∀ (le1 : Env), le1.letter 10 = false → ∀ (depth1 : Nat) (a1 : AppConf), le1.files a1.ledger = some text →
      ∃ bk, loadCmd le1 (depth1 + 1) e.srt a1 = .ok bk := by
  intro h
  have hc : (reportCmd (demoEnv [(b!"a", sumFile)]) 1 plainOps 1 demoApp { yearLedger with sum := true } (fun _ _ l => l) []).okB (fun ts =>
      (loadCmd (demoEnv [(b!"a", sumFile)]) 1 insSort demoApp).okB fun b => ts.all (printableB (bookFmt .english demoPrint b))) = true := by decide +kernel
  obtain ⟨ts, e1, e2⟩ := okB_ok hc
  obtain ⟨b, e3, e4⟩ := okB_ok e2
  have ht : reportFull (demoEnv [(b!"a", sumFile)]) 1 plainOps 1 demoApp { yearLedger with sum := true } (fun _ _ l => l) .english demoPrint demoScreen [] [] =
      .ok (.text b!"2020/01/01 \n  Gold  E 1\n  Assets  E -1\n  Assets:Bank  E 5\n  Assets:Cash  E -6\n\n") :=
    text_some (by decide +kernel)
  have hl : (loadCmd (demoEnv [(b!"a", b!"2020/01/01 \n  Gold  E 1\n  Assets  E -1\n  Assets:Bank  E 5\n  Assets:Cash  E -6\n\n")]) 1 insSort demoApp).okB
      (fun _ => true) = false := by decide +kernel
  have h1 : ((loadCmd (demoEnv [(b!"a", sumFile)]) 1 plainOps.srt demoApp).bind (opsCmd plainOps 1 demoApp [])) = .ok b := by
    rw [show plainOps.srt = insSort from rfl, e3]; rfl
  obtain ⟨bk, hbk⟩ := h _ _ plainOps insSort_isSort _ _ _ (by decide) _ (fun _ _ _ => .refl _) _ demoPrint demoPrint_sound _ _ ts b e1 h1
    (fun t ht => printable_of_b (List.all_eq_true.1 e4 t ht)) _ ht
    (demoEnv [(b!"a", b!"2020/01/01 \n  Gold  E 1\n  Assets  E -1\n  Assets:Bank  E 5\n  Assets:Cash  E -6\n\n")]) (by decide) 0 demoApp (by decide)
  have hbk' : loadCmd (demoEnv [(b!"a", b!"2020/01/01 \n  Gold  E 1\n  Assets  E -1\n  Assets:Bank  E 5\n  Assets:Cash  E -6\n\n")]) 1 insSort demoApp = .ok bk := hbk
  rw [hbk'] at hl
  cases hl

end Verif
