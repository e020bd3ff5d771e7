import Verif.Spec.Parts
import Verif.Props.Laws
import Verif.Props.Generate

/-! # C124: a ledger in parts -/

namespace Verif
open Spec

/-- A weight that does not look at the payee. -/
def NoPayee (u : Weight) : Prop := ∀ D P P' A C, u D P A C = u D P' A C

theorem pull_noPayee (e : OpEnv) (p : Prim) {u : Weight} (h : NoPayee u) : NoPayee (pull e p u) := by
  intro D P P' A C
  cases p with
  | mapccy s r => exact h _ _ _ _ _
  | map s r alt => exact h _ _ _ _ _
  | move s a f => simp only [pull]; rw [h D P P' A C, h D P P' (e.rep s a A) C]
  | asof d => simp only [pull]; rw [h D P P' A C]
  | since d => simp only [pull]; rw [h D P P' A C]
  | combine t => rfl
  | depreciate s a n =>
    simp only [pull]
    rw [h D P P' A C, h D P P' (e.rep s a A) C, show (fun d => u d P (e.rep s a A) C) = fun d => u d P' (e.rep s a A) C from funext fun d => h _ _ _ _ _,
      show (fun d => u d P A C) = fun d => u d P' A C from funext fun d => h _ _ _ _ _]

/-- A step that does the same to every book: totals after it are totals before it, of another weight. -/
def Linear (f : Book → OpEnd) : Prop :=
  ∃ (U : Weight → Weight) (Q : PriceBook → PriceBook), (∀ u, NoPayee u → NoPayee (U u)) ∧
    ∀ b c, b.Good → f b = .ok c → c.Good ∧ c.prices = Q b.prices ∧ ∀ u, wsum (wt u) c.post = wsum (wt (U u)) b.post

theorem Linear.wrap {f : Book → OpEnd} (h : Linear f) (op : Str) : Linear fun b => (f b).wrap op := by
  obtain ⟨U, Q, h1, h2⟩ := h
  exact ⟨U, Q, h1, fun b c hb hc => h2 b c hb (opWrap_ok hc)⟩

theorem linear_runAll {f : Str → Book → OpEnd} (hf : ∀ o, Linear (f o)) : ∀ os, Linear (runAll f os) := by
  intro os
  induction os with
  | nil => exact ⟨id, id, fun u hu => hu, fun b c hb hc => by cases hc; exact ⟨hb, rfl, fun u => rfl⟩⟩
  | cons o os ih =>
    obtain ⟨U, Q, h1, h2⟩ := hf o
    obtain ⟨V, R, h3, h4⟩ := ih
    refine ⟨fun u => U (V u), fun q => R (Q q), fun u hu => h1 _ (h3 u hu), fun b c hb hc => ?_⟩
    simp only [runAll] at hc
    cases hx : f o b with
    | ok d =>
      rw [hx] at hc
      obtain ⟨g1, p1, w1⟩ := h2 b d hb hx
      obtain ⟨g2, p2, w2⟩ := h4 d c g1 hc
      exact ⟨g2, by rw [p2, p1], fun u => by rw [w2, w1]⟩
    | err _ _ => rw [hx] at hc; cases hc
    | panic => rw [hx] at hc; cases hc
    | diverge => rw [hx] at hc; cases hc

theorem linear_bookOp {e : OpEnv} (hs : IsSort e.srt) (mac : Str → Option (List Str)) : ∀ (n : Nat) (op : Str), Linear (bookOp e mac n op) := by
  intro n
  induction n with
  | zero => intro op; exact ⟨id, id, fun u hu => hu, fun b c _ hc => by cases hc⟩
  | succ n ih =>
    intro op
    cases hm : mac op with
    | some ms =>
      have := (linear_runAll ih ms).wrap op
      simpa only [bookOp, hm] using this
    | none =>
      cases hp : parsePrim e op with
      | none =>
        refine ⟨id, id, fun u hu => hu, fun b c _ hc => ?_⟩
        simp only [bookOp, hm, primOp, hp] at hc
        cases hc
      | some p =>
        refine ⟨pull e p, pricesTo e p, fun u hu => pull_noPayee e p hu, fun b c hb hc => ?_⟩
        simp only [bookOp, hm, primOp, hp] at hc
        cases hx : p.apply e b with
        | none => rw [hx] at hc; cases hc
        | some d => rw [hx] at hc; cases hc; exact ⟨good_prim hs hb hx, prim_prices hx, prim_pull hs hb.1 hx⟩

theorem ops_linear {e : OpEnv} (hs : IsSort e.srt) (fuel : Nat) (a : AppConf) (args : List Str) :
    ∃ (U : Weight → Weight) (Q : PriceBook → PriceBook), (∀ u, NoPayee u → NoPayee (U u)) ∧
      ∀ b c, b.Good → opsCmd e fuel a args b = .ok c → c.Good ∧ c.prices = Q b.prices ∧ ∀ u, wsum (wt u) c.post = wsum (wt (U u)) b.post := by
  obtain ⟨U, Q, h1, h2⟩ := linear_runAll (fun o => (linear_bookOp hs a.macros fuel o).wrap o) args
  refine ⟨U, Q, h1, fun b c hb hc => h2 b c hb ?_⟩
  unfold opsCmd at hc
  split at hc <;> cases hc
  assumption

/-! ## The loaded books -/

/-- The weighted sum of entries. -/
def esum (u : Weight) (l : List Entry) : Rat := (l.map fun x => u x.date x.payee x.acct x.ccy * x.amt).sum

theorem esum_append (u : Weight) (l m : List Entry) : esum u (l ++ m) = esum u l + esum u m := by simp [esum]

theorem wsum_built {srt} (hs : IsSort srt) {cs : List Call} {b : Book} (h : Built srt cs b) (u : Weight) :
    wsum (wt u) b.post = esum u (entries (-1, []) (issued Builder.new cs) cs) := by
  obtain ⟨bb, h1, h2⟩ := h
  obtain ⟨e1, _⟩ := builder_post cs bb h1
  have hw : wsum (wt u) b.post = wsum (wt u) bb.post := by
    rw [build_post h2]
    split
    · rename_i h0; rw [h0]
    · exact wsum_compactPost hs (wt_key u) _
  rw [hw, ← e1]
  unfold wsum esum
  rw [List.map_map]
  rfl

theorem built_pricesAfter {srt} {cs : List Call} {b : Book} (h : Built srt cs b) : b.prices = (pricesAfter Builder.new.prices (priceLines cs)).build := by
  obtain ⟨bb, h1, h2⟩ := h
  rw [← prices_lines cs _ _ h1]
  unfold Builder.build at h2
  cases hc : bb.checkAndClear with
  | none => rw [hc] at h2; cases h2
  | some c =>
    rw [hc] at h2
    simp only [Option.some.injEq] at h2
    rw [← h2, compact_prices]
    show c.prices.build = _
    rw [(checkAndClear_fields hc).2]

theorem filed_dates {taken : List (Int × Str)} {cs : List Call} {ns : List (Int × Str)} (h : FiledAs taken cs ns) : ns.map (·.1) = (headers cs).map (·.1) := by
  induction h with
  | nil => rfl
  | addPosting _ _ _ _ _ _ _ _ ih => exact ih
  | addPrice _ _ _ _ _ _ _ _ ih => exact ih
  | fresh _ d p n cs ns _ _ ih => show d :: _ = d :: _; rw [ih]
  | again _ d p n cs ns k _ _ _ _ _ ih => show d :: _ = d :: _; rw [ih]

theorem esum_names {u : Weight} (hu : NoPayee u) : ∀ (cs : List Call) (cur cur' : Int × Str) (ns ns' : List (Int × Str)), cur.1 = cur'.1 →
    ns.map (·.1) = ns'.map (·.1) → esum u (entries cur ns cs) = esum u (entries cur' ns' cs) := by
  intro cs
  induction cs with
  | nil => intro cur cur' ns ns' _ _; cases ns <;> cases ns' <;> rfl
  | cons x cs ih =>
    intro cur cur' ns ns' hc hn
    cases x with
    | addPosting a c v n =>
      have e1 : ∀ cur ns, entries cur ns (.addPosting a c v n :: cs) = ⟨cur.1, cur.2, a, c, v⟩ :: entries cur ns cs := by
        intro cur ns; cases ns <;> rfl
      rw [e1, e1]
      have := ih cur cur' ns ns' hc hn
      simp only [esum, List.map_cons, List.sum_cons] at this ⊢
      rw [this, hc, hu cur'.1 cur.2 cur'.2]
    | addPrice d q c v =>
      have e1 : ∀ cur ns, entries cur ns (.addPrice d q c v :: cs) = entries cur ns cs := by
        intro cur ns; cases ns <;> rfl
      rw [e1, e1]
      exact ih cur cur' ns ns' hc hn
    | newTransaction d p n =>
      cases ns with
      | nil => cases ns' with
        | nil => rfl
        | cons m ns' => cases hn
      | cons m ns => cases ns' with
        | nil => cases hn
        | cons m' ns' =>
          rw [List.map_cons, List.map_cons, List.cons.injEq] at hn
          exact ih m m' ns ns' hn.1 hn.2

theorem wsum_read {srt} (hs : IsSort srt) {cs : List Call} {b : Book} (h : Built srt cs b) {u : Weight} (hu : NoPayee u) :
    wsum (wt u) b.post = esum u (entries (-1, []) (headers cs) cs) := by
  rw [wsum_built hs h]
  obtain ⟨bb, h1, _⟩ := h
  exact esum_names hu cs _ _ _ _ rfl (filed_dates (filedAs_aux cs _ bb [] seenInv_new h1))

theorem entries_append : ∀ (cs cs' : List Call) (cur : Int × Str), ∃ cur', entries cur (headers (cs ++ cs')) (cs ++ cs') =
    entries cur (headers cs) cs ++ entries cur' (headers cs') cs' := by
  intro cs
  induction cs with
  | nil => intro cs' cur; exact ⟨cur, by rw [show entries cur (headers []) [] = [] from rfl]; rfl⟩
  | cons x cs ih =>
    intro cs' cur
    cases x with
    | addPosting a c v n =>
      obtain ⟨cur', h⟩ := ih cs' cur
      refine ⟨cur', ?_⟩
      have e1 : ∀ ns cs, entries cur ns (.addPosting a c v n :: cs) = ⟨cur.1, cur.2, a, c, v⟩ :: entries cur ns cs := by
        intro ns cs; cases ns <;> rfl
      rw [List.cons_append, e1, e1]
      show _ :: entries cur (headers (cs ++ cs')) (cs ++ cs') = _
      rw [h]
      rfl
    | addPrice d q c v =>
      obtain ⟨cur', h⟩ := ih cs' cur
      refine ⟨cur', ?_⟩
      have e1 : ∀ ns cs, entries cur ns (.addPrice d q c v :: cs) = entries cur ns cs := by
        intro ns cs; cases ns <;> rfl
      rw [List.cons_append, e1, e1]
      exact h
    | newTransaction d p n => exact ih cs' (d, p)

theorem entries_starts : ∀ (cs : List Call), Starts cs → ∀ (cur cur' : Int × Str), entries cur (headers cs) cs = entries cur' (headers cs) cs := by
  intro cs
  induction cs with
  | nil => intro _ cur cur'; rfl
  | cons x cs ih =>
    intro h cur cur'
    cases x with
    | addPosting a c v n => exact h.elim
    | addPrice d q c v =>
      have e1 : ∀ cur ns, entries cur ns (.addPrice d q c v :: cs) = entries cur ns cs := by
        intro cur ns; cases ns <;> rfl
      rw [e1, e1]
      exact ih h cur cur'
    | newTransaction d p n => rfl

theorem entries_priced : ∀ (ps : List Call), (∀ x ∈ ps, ∃ d u c v, x = Call.addPrice d u c v) → ∀ (cs : List Call) (cur : Int × Str),
    entries cur (headers (ps ++ cs)) (ps ++ cs) = entries cur (headers cs) cs := by
  intro ps
  induction ps with
  | nil => intro _ cs cur; rfl
  | cons x ps ih =>
    intro h cs cur
    obtain ⟨d, u, c, v, rfl⟩ := h x (by simp)
    have e1 : ∀ ns cs, entries cur ns (.addPrice d u c v :: cs) = entries cur ns cs := by
      intro ns cs; cases ns <;> rfl
    rw [List.cons_append, e1]
    exact ih (fun y hy => h y (by simp [hy])) cs cur

theorem parts_entries {cs cs1 cs2 : List Call} (h : InParts cs cs1 cs2) (u : Weight) :
    esum u (entries (-1, []) (headers cs) cs) = esum u (entries (-1, []) (headers cs1) cs1) + esum u (entries (-1, []) (headers cs2) cs2) := by
  obtain ⟨ps, ds1, ds2, hp, hst, rfl, rfl, rfl⟩ := h.parts
  rw [entries_priced ps hp, entries_priced ps hp, entries_priced ps hp]
  obtain ⟨cur', h⟩ := entries_append ds1 ds2 (-1, [])
  rw [h, esum_append, entries_starts ds2 hst cur' (-1, [])]

/-- The three books. -/
theorem loaded_parts {le : Env} (he : le.Ok) (hl : PlainLetters le) {fs : Str → Option (List FileLine)} (hdisk : OnDisk le fs) {f f1 f2 : Str}
    {ls ls1 ls2 : List FileLine} (hf : fs f = some ls) (hf1 : fs f1 = some ls1) (hf2 : fs f2 = some ls2) {cs cs1 cs2 : List Call}
    (hs0 : FileSays fs le.join f [] [] ls cs) (hs1 : FileSays fs le.join f1 [] [] ls1 cs1) (hs2 : FileSays fs le.join f2 [] [] ls2 cs2)
    (h : InParts cs cs1 cs2) {srt : List Posting → List Posting} (hs : IsSort srt) {depth : Nat} {b b1 b2 : Book}
    (h0 : loadBook srt le depth f = .ok b) (h1 : loadBook srt le depth f1 = .ok b1) (h2 : loadBook srt le depth f2 = .ok b2) {u : Weight} (hu : NoPayee u) :
    wsum (wt u) b.post = wsum (wt u) b1.post + wsum (wt u) b2.post := by
  have one : ∀ {f : Str} {ls : List FileLine} {cs : List Call} {b : Book}, fs f = some ls → FileSays fs le.join f [] [] ls cs → loadBook srt le depth f = .ok b →
      wsum (wt u) b.post = esum u (entries (-1, []) (headers cs) cs) := by
    intro f ls cs b hf hsay hb
    obtain ⟨ds, s1, b1, _⟩ := c96_loaded_book he hl hdisk hf hb
    obtain ⟨k1, _, k3⟩ := (readings_shuffled hsay [] ds (.refl _) s1).facts
    rw [wsum_read hs b1 hu, ← k1]
    exact (((k3 (-1, []) (headers cs)).map _).sum_eq).symm
  rw [one hf hs0 h0, one hf1 hs1 h1, one hf2 hs2 h2, parts_entries h]

theorem loaded_prices {le : Env} (he : le.Ok) (hl : PlainLetters le) {fs : Str → Option (List FileLine)} (hdisk : OnDisk le fs) {f f1 : Str}
    {ls ls1 : List FileLine} (hf : fs f = some ls) (hf1 : fs f1 = some ls1) {cs cs1 : List Call}
    (hs0 : FileSays fs le.join f [] [] ls cs) (hs1 : FileSays fs le.join f1 [] [] ls1 cs1)
    (h : priceLines cs = priceLines cs1) {srt : List Posting → List Posting} {depth : Nat} {b b1 : Book}
    (h0 : loadBook srt le depth f = .ok b) (h1 : loadBook srt le depth f1 = .ok b1) : b.prices = b1.prices := by
  have one : ∀ {f : Str} {ls : List FileLine} {cs : List Call} {b : Book}, fs f = some ls → FileSays fs le.join f [] [] ls cs → loadBook srt le depth f = .ok b →
      b.prices = (pricesAfter Builder.new.prices (priceLines cs)).build := by
    intro f ls cs b hf hsay hb
    obtain ⟨ds, s1, b1, _⟩ := c96_loaded_book he hl hdisk hf hb
    rw [built_pricesAfter b1, (readings_shuffled hsay [] ds (.refl _) s1).facts.2.1]
  rw [one hf hs0 h0, one hf1 hs1 h1, h]

/-! ## Reports -/

/-- A posting with nothing but a date, an account and a currency. -/
def bare (D : Int) (A C : Str) : Posting := ⟨D, [], [], A, C, 0, [], 0, 0, [], []⟩

/-- The weight of a shown figure: of the chosen dates, accounts and currencies. -/
def chosenWeight (prices : PriceBook) (today : Int) (base : Str) (r : ReportConf) (P : Int → Str → Str → Bool) : Weight := fun D _ A C =>
  if P (shownDate today r (bare D A C)) A (shownCCY base r (bare D A C)) then shownRate prices today base r (bare D A C) else 0

theorem report_chosen {le : Env} {depth : Nat} {e : OpEnv} (hs : IsSort e.srt) {fuel : Nat} {a : AppConf} {r : ReportConf}
    (hr : r.sum = false ∨ r.typ = b!"Beancount") {o : Int → Str → List Str → List Str} {args : List Str} {ts : List Txn}
    (h : reportCmd le depth e fuel a r o args = .ok ts) (P : Int → Str → Str → Bool) :
    ∃ b0 b, loadCmd le depth e.srt a = .ok b0 ∧ opsCmd e fuel a args b0 = .ok b ∧
      chosenTotal P ts.flatten = wsum (wt (chosenWeight b.prices e.today a.baseCCY r P)) b.post := by
  unfold reportCmd at h
  obtain ⟨b, h1, h2⟩ := bind_ok h
  obtain ⟨b0, h0, h1⟩ := bind_ok h1
  have hg := good_ops hs (good_load hs h0) h1
  obtain ⟨fb, hfb, rfl⟩ := reportTxns_ok h2 hr
  refine ⟨b0, b, h0, h1, ?_⟩
  obtain ⟨_, hw⟩ := shown_wsum hs hg hfb (fun d _ a' c' => if P d a' c' then 1 else 0)
  unfold chosenTotal
  rw [total_eq_wsum]
  unfold reported at hw
  rw [hw, ← wsum_reported hs (wt_key _) hg.1]
  unfold reported
  congr 1
  funext p
  show _ = if P (shownDate e.today r p) p.acct (shownCCY a.baseCCY r p) then shownRate b.prices e.today a.baseCCY r p else 0
  split_ifs <;> simp

/-- Three ledgers on one disk: one that says what the two others say, one after the other, with the same prices before. -/
structure OnePlusOne (le : Env) (f f1 f2 : Str) (cs cs1 cs2 : List Call) : Prop where
  ok : le.Ok
  letters : PlainLetters le
  disk : ∃ fs ls ls1 ls2, OnDisk le fs ∧ fs f = some ls ∧ fs f1 = some ls1 ∧ fs f2 = some ls2 ∧ FileSays fs le.join f [] [] ls cs ∧
    FileSays fs le.join f1 [] [] ls1 cs1 ∧ FileSays fs le.join f2 [] [] ls2 cs2
  parts : InParts cs cs1 cs2

theorem loadCmd_book {le : Env} {depth : Nat} {srt : List Posting → List Posting} {a : AppConf} {b : Book} (h : loadCmd le depth srt a = .ok b) :
    loadBook srt le depth a.ledger = .ok b := by
  unfold loadCmd at h
  split at h <;> cases h
  assumption

/-- The three books after the same operations. -/
theorem parts_ops {le : Env} {depth : Nat} {e : OpEnv} (hs : IsSort e.srt) {fuel : Nat} {a : AppConf} {f1 f2 : Str} {cs cs1 cs2 : List Call}
    (h : OnePlusOne le a.ledger f1 f2 cs cs1 cs2) {args : List Str} {b0 b0' b0'' b b1 b2 : Book} (l0 : loadCmd le depth e.srt a = .ok b0)
    (l1 : loadCmd le depth e.srt (a.reading f1) = .ok b0') (l2 : loadCmd le depth e.srt (a.reading f2) = .ok b0'') (o0 : opsCmd e fuel a args b0 = .ok b)
    (o1 : opsCmd e fuel a args b0' = .ok b1) (o2 : opsCmd e fuel a args b0'' = .ok b2) :
    (∀ u, NoPayee u → wsum (wt u) b.post = wsum (wt u) b1.post + wsum (wt u) b2.post) ∧
    (priceLines cs = priceLines cs1 → b.prices = b1.prices) ∧ (priceLines cs = priceLines cs2 → b.prices = b2.prices) := by
  obtain ⟨U, Q, hU, hlin⟩ := ops_linear hs fuel a args
  obtain ⟨_, p0, w0⟩ := hlin b0 b (good_load hs l0) o0
  obtain ⟨_, p1, w1⟩ := hlin b0' b1 (good_load hs l1) o1
  obtain ⟨_, p2, w2⟩ := hlin b0'' b2 (good_load hs l2) o2
  obtain ⟨fs, ls, ls1, ls2, hd, f0, g1, g2, s0, s1, s2⟩ := h.disk
  have k0 := loadCmd_book l0
  have k1 := loadCmd_book l1
  have k2 := loadCmd_book l2
  refine ⟨fun u hu => ?_, fun hp => ?_, fun hp => ?_⟩
  · rw [w0, w1, w2]
    exact loaded_parts h.ok h.letters hd f0 g1 g2 s0 s1 s2 h.parts hs k0 k1 k2 (hU u hu)
  · rw [p0, p1, loaded_prices h.ok h.letters hd f0 g1 s0 s1 hp k0 k1]
  · rw [p0, p2, loaded_prices h.ok h.letters hd f0 g2 s0 s2 hp k0 k2]

/-- **C124** (a), listings: the report of a ledger that consists of two parts (a file that includes two files, a file with another one appended) shows, under
any dates, accounts and currencies, the sum of what the reports of the two parts show, after any operations.  If amounts are converted the prices must be
the same in all three. -/
theorem c124_listing (le : Env) (depth : Nat) (e : OpEnv) (hs : IsSort e.srt) (fuel : Nat) (a : AppConf) (f1 f2 : Str) (cs cs1 cs2 : List Call)
    (h : OnePlusOne le a.ledger f1 f2 cs cs1 cs2) (r : ReportConf) (hr : r.sum = false ∨ r.typ = b!"Beancount")
    (hc : ¬ converts r ∨ (priceLines cs = priceLines cs1 ∧ priceLines cs = priceLines cs2)) (o o1 o2 : Int → Str → List Str → List Str) (args : List Str)
    (ts ts1 ts2 : List Txn) (h0 : reportCmd le depth e fuel a r o args = .ok ts) (h1 : reportCmd le depth e fuel (a.reading f1) r o1 args = .ok ts1)
    (h2 : reportCmd le depth e fuel (a.reading f2) r o2 args = .ok ts2) (P : Int → Str → Str → Bool) :
    chosenTotal P ts.flatten = chosenTotal P ts1.flatten + chosenTotal P ts2.flatten := by
  obtain ⟨b0, b, l0, p0, t0⟩ := report_chosen hs hr h0 P
  obtain ⟨b0', b1, l1, p1, t1⟩ := report_chosen hs hr h1 P
  obtain ⟨b0'', b2, l2, p2, t2⟩ := report_chosen hs hr h2 P
  obtain ⟨hw, q1, q2⟩ := parts_ops hs h l0 l1 l2 p0 p1 p2
  have hsame : chosenWeight b.prices e.today a.baseCCY r P = chosenWeight b1.prices e.today a.baseCCY r P ∧
      chosenWeight b.prices e.today a.baseCCY r P = chosenWeight b2.prices e.today a.baseCCY r P := by
    rcases hc with hc | ⟨hc1, hc2⟩
    · constructor <;> (unfold chosenWeight shownRate; simp only [hc, if_false])
    · rw [← q1 hc1, ← q2 hc2]; exact ⟨rfl, rfl⟩
  rw [t0, t1, t2]
  show _ = wsum (wt (chosenWeight b1.prices e.today a.baseCCY r P)) b1.post + wsum (wt (chosenWeight b2.prices e.today a.baseCCY r P)) b2.post
  rw [← hsame.1, ← hsame.2]
  exact hw _ fun D P P' A C => rfl

/-- The weight of a row of a summary. -/
def rowWeight (prices : PriceBook) (today : Int) (base : Str) (r : ReportConf) (P : Int → Str → Str → Bool) (own : Bool) : Weight := fun D _ A C =>
  if P (shownDate today r (bare D A C)) A (shownCCY base r (bare D A C)) then
    (if own then shownRate prices today base r (bare D A C) else sumRate prices today base r (bare D A C)) else 0

/-- **C124** (b), summaries: the same for the rows of summaries (before signs are turned and the hidden account is left out): a row of the whole is the sum of
the rows of the parts, if all three have it, as a subtotal or as an account of its own in the same currency. -/
theorem c124_summary (le : Env) (depth : Nat) (e : OpEnv) (hs : IsSort e.srt) (fuel : Nat) (a : AppConf) (hdiv : a.divider ≠ []) (f1 f2 : Str)
    (cs cs1 cs2 : List Call) (h : OnePlusOne le a.ledger f1 f2 cs cs1 cs2) (r : ReportConf) (hr : r.sum = true) (hcomb : combines r)
    (hc : priceLines cs = priceLines cs1 ∧ priceLines cs = priceLines cs2) (o : Int → Str → List Str → List Str) (ho : ∀ d py l, (o d py l).Perm l)
    (args : List Str) (ts ts1 ts2 : List Txn) (h0 : reportCmd le depth e fuel a r o args = .ok ts)
    (h1 : reportCmd le depth e fuel (a.reading f1) r o args = .ok ts1) (h2 : reportCmd le depth e fuel (a.reading f2) r o args = .ok ts2) :
    ∃ (b b1 b2 : Book) (S S1 S2 : List Str) (gs gs1 gs2 : List Txn),
      (loadCmd le depth e.srt a).bind (opsCmd e fuel a args) = .ok b ∧
      (loadCmd le depth e.srt (a.reading f1)).bind (opsCmd e fuel a args) = .ok b1 ∧
      (loadCmd le depth e.srt (a.reading f2)).bind (opsCmd e fuel a args) = .ok b2 ∧
      SummaryOf b.prices e.today a r (reported e.srt b) S gs ∧ SummaryOf b1.prices e.today a r (reported e.srt b1) S1 gs1 ∧
      SummaryOf b2.prices e.today a r (reported e.srt b2) S2 gs2 ∧
      ts = gs.map (shown (if r.credit = [] then none else some (e.mat r.credit)) r.hidden) ∧
      ts1 = gs1.map (shown (if r.credit = [] then none else some (e.mat r.credit)) r.hidden) ∧
      ts2 = gs2.map (shown (if r.credit = [] then none else some (e.mat r.credit)) r.hidden) ∧
      (∀ d py k, columnTree b.prices e.today a r d py k (reported e.srt b) =
        columnTree b1.prices e.today a r d py k (reported e.srt b1) + columnTree b2.prices e.today a r d py k (reported e.srt b2)) ∧
      (∀ d py ac c, columnEntry b.prices e.today a r d py ac c (reported e.srt b) =
        columnEntry b1.prices e.today a r d py ac c (reported e.srt b1) + columnEntry b2.prices e.today a r d py ac c (reported e.srt b2)) ∧
      ∀ g ∈ gs, ∀ g1 ∈ gs1, ∀ g2 ∈ gs2, ∀ x ∈ g, ∀ x1 ∈ g1, ∀ x2 ∈ g2, x1.date = x.date → x1.payee = x.payee → x1.acct = x.acct →
        x2.date = x.date → x2.payee = x.payee → x2.acct = x.acct →
        (x.acct ∈ S → x.acct ∈ S1 → x.acct ∈ S2 → x.acctlevel = (levelOf S a.divider x.acct : Int) →
          x1.acctlevel = (levelOf S1 a.divider x.acct : Int) → x2.acctlevel = (levelOf S2 a.divider x.acct : Int) → x.val = x1.val + x2.val) ∧
        (x.acct ∉ S → x.acct ∉ S1 → x.acct ∉ S2 → x1.ccy = x.ccy → x2.ccy = x.ccy → x.val = x1.val + x2.val) := by
  obtain ⟨b0, b, l0, p0, S, gs, y0, z0⟩ := c116_summary le depth e hs fuel a hdiv r hr hcomb.1 o ho _ _ h0
  obtain ⟨b0', b1, l1, p1, S1, gs1, y1, z1⟩ := c116_summary le depth e hs fuel (a.reading f1) hdiv r hr hcomb.1 o ho _ _ h1
  obtain ⟨b0'', b2, l2, p2, S2, gs2, y2, z2⟩ := c116_summary le depth e hs fuel (a.reading f2) hdiv r hr hcomb.1 o ho _ _ h2
  obtain ⟨hw, q1, q2⟩ := parts_ops hs h l0 l1 l2 p0 p1 p2
  have q1 := q1 hc.1
  have q2 := q2 hc.2
  have gb := good_ops hs (good_load hs l0) p0
  have gb1 := good_ops hs (good_load hs l1) p1
  have gb2 := good_ops hs (good_load hs l2) p2
  have sub : ∀ {a : AppConf} {prices : PriceBook} {ps : List Posting} {S : List Str} {gs : List Txn}, SummaryOf prices e.today a r ps S gs → ∀ g ∈ gs, ∀ x ∈ g,
      x.acct ∈ S → x.acctlevel = (levelOf S a.divider x.acct : Int) → x.val = columnTree prices e.today a r x.date x.payee x.acct ps := by
    intro a prices ps S gs hz g hg x hx hS hl
    obtain ⟨y, h1, _, h3⟩ := (hz.columns g hg).sums x.acct hS
    have : x ∈ g.filter (fun y => decide (y.acct = x.acct ∧ y.acctlevel = (levelOf S a.divider x.acct : Int))) :=
      List.mem_filter.2 ⟨hx, by simp [hl]⟩
    rw [h1, List.mem_singleton] at this
    rw [this] at h3 ⊢
    exact h3
  have own : ∀ {a : AppConf} {prices : PriceBook} {ps : List Posting} {S : List Str} {gs : List Txn}, SummaryOf prices e.today a r ps S gs → ∀ g ∈ gs, ∀ x ∈ g,
      x.acct ∉ S → x.val = columnEntry prices e.today a r x.date x.payee x.acct x.ccy ps := by
    intro a prices ps S gs hz g hg x hx hS
    rcases (hz.columns g hg).rows x hx with ⟨h, _⟩ | h
    · exact absurd h hS
    · exact h
  have tree : ∀ {a : AppConf} {b : Book}, b.Good → ∀ d py ac, columnTree b.prices e.today a r d py ac (reported e.srt b) =
      wsum (wt (rowWeight b.prices e.today a.baseCCY r (fun d' ac' _ => decide ((d' = d ∧ [] = py) ∧ AtOrAbove a.divider ac ac')) false)) b.post := by
    intro a b gb d py ac
    unfold columnTree
    rw [weighted_wsum, ← wsum_reported hs (wt_key _) gb.1]
    refine wsum_congr fun p _ => ?_
    have hp : shownPayee r p = [] := if_pos hcomb
    have hiff : (InColumn e.today r d py p ∧ AtOrAbove a.divider ac p.acct) ↔
        ((shownDate e.today r p = d ∧ [] = py) ∧ AtOrAbove a.divider ac p.acct) := by unfold InColumn; rw [hp]
    show (if decide _ = true then _ else 0) = (if decide ((shownDate e.today r p = d ∧ [] = py) ∧ AtOrAbove a.divider ac p.acct) = true then _ else 0)
    rw [decide_eq_decide.2 hiff]
    rfl
  have entry : ∀ {a : AppConf} {b : Book}, b.Good → ∀ d py ac c, columnEntry b.prices e.today a r d py ac c (reported e.srt b) =
      wsum (wt (rowWeight b.prices e.today a.baseCCY r (fun d' ac' c' => decide ((d' = d ∧ [] = py) ∧ ac' = ac ∧ c' = c)) true)) b.post := by
    intro a b gb d py ac c
    unfold columnEntry
    rw [weighted_wsum, ← wsum_reported hs (wt_key _) gb.1]
    refine wsum_congr fun p _ => ?_
    have hp : shownPayee r p = [] := if_pos hcomb
    have hiff : (InColumn e.today r d py p ∧ p.acct = ac ∧ shownCCY a.baseCCY r p = c) ↔
        ((shownDate e.today r p = d ∧ [] = py) ∧ p.acct = ac ∧ shownCCY a.baseCCY r p = c) := by unfold InColumn; rw [hp]
    show (if decide _ = true then _ else 0) = (if decide ((shownDate e.today r p = d ∧ [] = py) ∧ p.acct = ac ∧ shownCCY a.baseCCY r p = c) = true then _ else 0)
    rw [decide_eq_decide.2 hiff]
    rfl
  have addTree : ∀ d py k, columnTree b.prices e.today a r d py k (reported e.srt b) =
        columnTree b1.prices e.today a r d py k (reported e.srt b1) + columnTree b2.prices e.today a r d py k (reported e.srt b2) := by
    intro d py k
    rw [tree gb, tree gb1, tree gb2, ← q1, ← q2]
    exact hw _ fun D P P' A C => rfl
  have addEntry : ∀ d py ac c, columnEntry b.prices e.today a r d py ac c (reported e.srt b) =
        columnEntry b1.prices e.today a r d py ac c (reported e.srt b1) + columnEntry b2.prices e.today a r d py ac c (reported e.srt b2) := by
    intro d py ac c
    rw [entry gb, entry gb1, entry gb2, ← q1, ← q2]
    exact hw _ fun D P P' A C => rfl
  refine ⟨b, b1, b2, S, S1, S2, gs, gs1, gs2, by rw [l0]; exact p0, by rw [l1]; exact p1, by rw [l2]; exact p2, z0, ⟨z1.1, fun g hg => ⟨(z1.2 g hg).1, (z1.2 g hg).2, (z1.2 g hg).3, (z1.2 g hg).4, (z1.2 g hg).5⟩, z1.3, z1.4, z1.5⟩,
    ⟨z2.1, fun g hg => ⟨(z2.2 g hg).1, (z2.2 g hg).2, (z2.2 g hg).3, (z2.2 g hg).4, (z2.2 g hg).5⟩, z2.3, z2.4, z2.5⟩, y0, y1, y2,
    addTree, addEntry, ?_⟩
  intro g hg g1 hg1 g2 hg2 x hx x1 hx1 x2 hx2 e1 e2 e3 e4 e5 e6
  constructor
  · intro s s1 s2 t t1 t2
    rw [sub z0 g hg x hx s t, sub z1 g1 hg1 x1 hx1 (by rw [e3]; exact s1) (by rw [e3]; exact t1),
      sub z2 g2 hg2 x2 hx2 (by rw [e6]; exact s2) (by rw [e6]; exact t2), e1, e2, e3, e4, e5, e6]
    exact addTree _ _ _
  · intro s s1 s2 c1 c2
    rw [own z0 g hg x hx s, own z1 g1 hg1 x1 hx1 (by rw [e3]; exact s1), own z2 g2 hg2 x2 hx2 (by rw [e6]; exact s2),
      e1, e2, e3, e4, e5, e6, c1, c2]
    exact addEntry _ _ _ _

/-! Non-vacuity: a ledger that includes a file of prices and the files of two years, and the ledgers of one year each. -/

def partPrices : List FileLine := [demoMain[3]]

def partPost (acct num : Str) (minus : Bool) : FileLine := .posting {
  sp0 := [32, 32], acct, sp1 := [32], minus, ccyFirst := false, quoted := false, ccy := b!"X", sp2 := [32],
  num := ⟨false, num, none⟩, note := none, sp3 := [], sp4 := [] }

def partOne : List FileLine := [.txn (demoTxn ⟨b!"2020", b!"1", b!"2"⟩ ⟨2020, 1, 2⟩ b!"shop"), partPost b!"A" b!"5" false, partPost b!"B" b!"5" true]

def partTwo : List FileLine := [.txn (demoTxn ⟨b!"2020", b!"1", b!"2"⟩ ⟨2020, 1, 2⟩ b!"bank"), partPost b!"A" b!"7" false, partPost b!"C" b!"7" true]

def partIncl (f : Str) : FileLine := .incl [32] true f

def partFiles : List (Str × List FileLine) := [
  (b!"prices", partPrices), (b!"a", partOne), (b!"b", partTwo),
  (b!"whole", [partIncl b!"prices", partIncl b!"a", partIncl b!"b"]),
  (b!"one", [partIncl b!"prices", partIncl b!"a"]), (b!"two", [partIncl b!"prices", partIncl b!"b"])]

def partDisk (f : Str) : Option (List FileLine) := (partFiles.find? fun x => decide (x.1 = f)).map (·.2)

def partEnv : Env := demoEnv (partFiles.map fun x => (x.1, fileText x.2))

example : partEnv.files b!"whole" = some b!"include \"prices\"\ninclude \"a\"\ninclude \"b\"\n" := by decide +kernel
example : partEnv.files b!"b" = some b!"2020/1/2 * bank ; note\n  A 7 X\n  C -7 X\n" := by decide +kernel

theorem part_txn (t : FileLine) (h : t ∈ partOne ∨ t ∈ partTwo) : t.Valid := by
  have hnote : (⟨some b!"note", [32], [32]⟩ : NoteText).Valid := by
    refine ⟨by decide, ?_, ?_⟩
    · rintro s ⟨⟩; decide
    · rintro s c r ⟨⟩ h; cases h; decide
  simp only [partOne, partTwo, List.mem_cons, List.not_mem_nil, or_false] at h
  rcases h with (rfl | rfl | rfl) | (rfl | rfl | rfl)
  · exact ⟨⟨by decide, by decide, by decide⟩, by decide, by decide, by decide, by decide, by decide, by decide, by decide, hnote⟩
  · exact ⟨⟨by decide, by decide, by decide, by decide, ⟨⟨by decide, by rintro f ⟨⟩⟩, by decide, by decide⟩, ⟨_, _, rfl, by decide⟩,
        by decide, by decide, by rintro _ c r ⟨⟩; decide, by decide, by rintro n ⟨⟩⟩, by decide⟩
  · exact ⟨⟨by decide, by decide, by decide, by decide, ⟨⟨by decide, by rintro f ⟨⟩⟩, by decide, by decide⟩, ⟨_, _, rfl, by decide⟩,
        by decide, by decide, by rintro _ c r ⟨⟩; decide, by decide, by rintro n ⟨⟩⟩, by decide⟩
  · exact ⟨⟨by decide, by decide, by decide⟩, by decide, by decide, by decide, by decide, by decide, by decide, by decide, hnote⟩
  · exact ⟨⟨by decide, by decide, by decide, by decide, ⟨⟨by decide, by rintro f ⟨⟩⟩, by decide, by decide⟩, ⟨_, _, rfl, by decide⟩,
        by decide, by decide, by rintro _ c r ⟨⟩; decide, by decide, by rintro n ⟨⟩⟩, by decide⟩
  · exact ⟨⟨by decide, by decide, by decide, by decide, ⟨⟨by decide, by rintro f ⟨⟩⟩, by decide, by decide⟩, ⟨_, _, rfl, by decide⟩,
        by decide, by decide, by rintro _ c r ⟨⟩; decide, by decide, by rintro n ⟨⟩⟩, by decide⟩

theorem part_disk : OnDisk partEnv partDisk := by
  have hi : ∀ f, f ∈ [b!"prices", b!"a", b!"b"] → (partIncl f).Valid ∧ ∀ sp q g, partIncl f = .incl sp q g → (partDisk (partEnv.join f g)).isSome = true := by
    intro f hf
    simp only [List.mem_cons, List.not_mem_nil, or_false] at hf
    rcases hf with rfl | rfl | rfl <;>
    · refine ⟨⟨by decide, by decide, by decide, by decide, by decide⟩, ?_⟩
      rintro sp q g ⟨⟩
      decide +kernel
  have hmem : ∀ f ls, partDisk f = some ls → (f, ls) ∈ partFiles := by
    intro f ls h
    unfold partDisk at h
    rw [Option.map_eq_some_iff] at h
    obtain ⟨x, hx, rfl⟩ := h
    have h1 := List.mem_of_find?_eq_some hx
    have h2 := List.find?_some hx
    simp only [decide_eq_true_eq] at h2
    rw [← h2]; exact h1
  intro f ls hf
  have hm := hmem f ls hf
  simp only [partFiles, List.mem_cons, Prod.mk.injEq, List.not_mem_nil, or_false] at hm
  rcases hm with ⟨rfl, rfl⟩ | ⟨rfl, rfl⟩ | ⟨rfl, rfl⟩ | ⟨rfl, rfl⟩ | ⟨rfl, rfl⟩ | ⟨rfl, rfl⟩
  · refine ⟨by decide +kernel, fun l hl => ?_⟩
    have hl' : l = demoMain[3] := List.mem_singleton.1 hl
    subst hl'
    refine ⟨((demo_disk b!"main" demoMain rfl).2 demoMain[3] (List.getElem_mem _)).1, ?_⟩
    rintro sp q g ⟨⟩
  · refine ⟨by decide +kernel, fun l hl => ⟨part_txn l (.inl hl), ?_⟩⟩
    rintro sp q g rfl
    simp [partOne, partPost] at hl
  · refine ⟨by decide +kernel, fun l hl => ⟨part_txn l (.inr hl), ?_⟩⟩
    rintro sp q g rfl
    simp [partTwo, partPost] at hl
  · refine ⟨by decide +kernel, fun l hl => ?_⟩
    simp only [List.mem_cons, List.not_mem_nil, or_false] at hl
    rcases hl with rfl | rfl | rfl <;> exact hi _ (by decide)
  · refine ⟨by decide +kernel, fun l hl => ?_⟩
    simp only [List.mem_cons, List.not_mem_nil, or_false] at hl
    rcases hl with rfl | rfl <;> exact hi _ (by decide)
  · refine ⟨by decide +kernel, fun l hl => ?_⟩
    simp only [List.mem_cons, List.not_mem_nil, or_false] at hl
    rcases hl with rfl | rfl <;> exact hi _ (by decide)

def partCalls0 : List Call := [.addPrice 20200102 b!"X" b!"Y" (3 / 2)]
def partCalls1 : List Call := [.newTransaction 20200102 b!"shop" b!"note", .addPosting b!"A" b!"X" 5 [], .addPosting b!"B" b!"X" (-5) []]
def partCalls2 : List Call := [.newTransaction 20200102 b!"bank" b!"note", .addPosting b!"A" b!"X" 7 [], .addPosting b!"C" b!"X" (-7) []]

theorem part_prices (fn pre) : FileSays partDisk partEnv.join fn [] pre partPrices partCalls0 := by
  have h1 : (3 / 2 : Rat) = (⟨false, b!"1", some b!"5"⟩ : Numeral).value := by decide +kernel
  unfold partCalls0
  rw [h1]
  exact .price _ _ _ _ _ _ (.nil _ _ _)

theorem part_one (fn pre) : FileSays partDisk partEnv.join fn [] pre partOne partCalls1 := by
  have h1 : (5 : Rat) = 1 * (⟨false, b!"5", none⟩ : Numeral).value := by decide +kernel
  have h2 : (-5 : Rat) = -1 * (⟨false, b!"5", none⟩ : Numeral).value := by decide +kernel
  unfold partCalls1
  rw [h2, h1]
  exact .txn _ _ _ _ _ _ (.posting _ _ _ _ _ _ (.posting _ _ _ _ _ _ (.nil _ _ _)))

theorem part_two (fn pre) : FileSays partDisk partEnv.join fn [] pre partTwo partCalls2 := by
  have h1 : (7 : Rat) = 1 * (⟨false, b!"7", none⟩ : Numeral).value := by decide +kernel
  have h2 : (-7 : Rat) = -1 * (⟨false, b!"7", none⟩ : Numeral).value := by decide +kernel
  unfold partCalls2
  rw [h2, h1]
  exact .txn _ _ _ _ _ _ (.posting _ _ _ _ _ _ (.posting _ _ _ _ _ _ (.nil _ _ _)))

/-- The hypotheses of C124 hold of the three ledgers. -/
theorem part_demo : OnePlusOne partEnv b!"whole" b!"one" b!"two" (partCalls0 ++ (partCalls1 ++ (partCalls2 ++ [])))
    (partCalls0 ++ (partCalls1 ++ [])) (partCalls0 ++ (partCalls2 ++ [])) where
  ok := demoEnv_ok _
  letters := demo_letters _
  disk := ⟨partDisk, _, _, _, part_disk, rfl, rfl, rfl,
    .incl _ _ _ _ _ _ _ _ _ _ rfl (part_prices _ _) (.incl _ _ _ _ _ _ _ _ _ _ rfl (part_one _ _) (.incl _ _ _ _ _ _ _ _ _ _ rfl (part_two _ _) (.nil _ _ _))),
    .incl _ _ _ _ _ _ _ _ _ _ rfl (part_prices _ _) (.incl _ _ _ _ _ _ _ _ _ _ rfl (part_one _ _) (.nil _ _ _)),
    .incl _ _ _ _ _ _ _ _ _ _ rfl (part_prices _ _) (.incl _ _ _ _ _ _ _ _ _ _ rfl (part_two _ _) (.nil _ _ _))⟩
  parts := ⟨partCalls0, partCalls1 ++ [], partCalls2 ++ [], by intro x hx; rw [partCalls0, List.mem_singleton] at hx; exact ⟨_, _, _, _, hx⟩, by simp [partCalls2, Starts], by simp, rfl, rfl⟩

def partApp (f : Str) : AppConf := { demoApp with ledger := f, baseCCY := b!"Y" }
def partConf (sum : Bool) : ReportConf := { yearReport true b!"year" with sum := sum }

example : priceLines (partCalls0 ++ (partCalls1 ++ (partCalls2 ++ []))) = priceLines (partCalls0 ++ (partCalls1 ++ [])) := rfl

/-- The totals of account A, at the price of 1.5: 18 = 7.5 + 10.5; in the report listing and as the row of a summary. -/
def partShown (sum : Bool) (f : Str) : Option Rat :=
  match reportCmd partEnv 5 plainOps 100 (partApp f) (partConf sum) (fun _ _ l => l) [] with
  | .ok ts => some (chosenTotal (fun _ ac _ => decide (ac = b!"A")) ts.flatten)
  | _ => none

example : partShown false b!"whole" = some 18 ∧ partShown false b!"one" = some (15 / 2) ∧ partShown false b!"two" = some (21 / 2) := by
  decide +kernel
example : partShown true b!"whole" = some 18 ∧ partShown true b!"one" = some (15 / 2) ∧ partShown true b!"two" = some (21 / 2) := by
  decide +kernel

end Verif
