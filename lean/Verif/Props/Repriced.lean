import Verif.Spec.Repriced
import Verif.Props.Scaled
import Verif.Props.OnDay

/-! # C160: a ledger with all its prices multiplied -/

namespace Verif
open Spec

/-! ## Prices multiplied -/

/-- A price multiplied. -/
def timesPrice (k : Rat) (q : Price) : Price := ⟨q.date, k * q.val⟩

theorem insertPrice_times (k : Rat) (q : Price) : ∀ l, insertPrice (timesPrice k q) (l.map (timesPrice k)) = (insertPrice q l).map (timesPrice k)
  | [] => rfl
  | r :: l => by
    simp only [List.map_cons, insertPrice]
    by_cases h : q.date < r.date
    · rw [if_pos h, if_pos (show (timesPrice k q).date < (timesPrice k r).date from h)]; rfl
    · rw [if_neg h, if_neg (show ¬ (timesPrice k q).date < (timesPrice k r).date from h), insertPrice_times k q l]; rfl

theorem sortPrices_times (k : Rat) (l : PriceList) : sortPrices (l.map (timesPrice k)) = (sortPrices l).map (timesPrice k) := by
  have : ∀ (l acc : PriceList), (l.map (timesPrice k)).foldl (fun acc q => insertPrice q acc) (acc.map (timesPrice k)) =
      (l.foldl (fun acc q => insertPrice q acc) acc).map (timesPrice k) := by
    intro l
    induction l with
    | nil => intro acc; rfl
    | cons q l ih => intro acc; simp only [List.map_cons, List.foldl_cons]; rw [insertPrice_times, ih]
  exact this l []

theorem searchLoop_times (k : Rat) (p : PriceList) (date : Int) : ∀ (n lo hi : Nat), searchLoop (p.map (timesPrice k)) date n lo hi = searchLoop p date n lo hi
  | 0, _, _ => rfl
  | n + 1, lo, hi => by
    simp only [searchLoop, List.getElem?_map]
    split
    · cases p[(lo + hi) / 2]? with
      | none => rfl
      | some q =>
        simp only [Option.map_some]
        rw [searchLoop_times k p date n, searchLoop_times k p date n]
        rfl
    · rfl

/-- A price list with all its prices multiplied gives every price multiplied. -/
theorem getPrice_times (k : Rat) (p : PriceList) (date : Int) :
    PriceList.getPrice (p.map (timesPrice k)) date = (PriceList.getPrice p date).map fun x => (k * x.1, x.2) := by
  unfold PriceList.getPrice
  rw [List.head?_map, List.getLast?_map, List.length_map, searchLoop_times]
  cases p.head? with
  | none => rfl
  | some q =>
    cases p.getLast? with
    | none => rfl
    | some q' =>
      simp only [Option.map_some]
      rw [show (timesPrice k q).date = q.date from rfl, show (timesPrice k q').date = q'.date from rfl]
      split_ifs
      · rfl
      · rfl
      · cases searchLoop p date (p.length + 1) 0 p.length with
        | found i => simp only [List.getElem?_map]; cases p[i]? <;> rfl
        | stop i =>
          simp only [List.getElem?_map]
          cases p[i]? with
          | none => rfl
          | some lo =>
            cases p[i + 1]? with
            | none => rfl
            | some hi =>
              simp only [Option.map_some, interpolate]
              rw [show (timesPrice k lo).date = lo.date from rfl, show (timesPrice k hi).date = hi.date from rfl]
              cases daysSince date lo.date with
              | none => rfl
              | some x =>
                cases daysSince hi.date lo.date with
                | none => rfl
                | some y =>
                  simp only
                  cases newRat x y with
                  | none => rfl
                  | some f =>
                    simp only [Option.map_some, Option.some.injEq, Prod.mk.injEq, and_true]
                    show (k * hi.val - k * lo.val) * f + k * lo.val = k * ((hi.val - lo.val) * f + lo.val)
                    ring
        | panic => rfl
        | outOfFuel => rfl

/-! ## The ledgers -/

theorem headers_reprice (k : Rat) (base : Str) (cs : List Call) : headers (cs.map (repriceCall k base)) = headers cs := by
  induction cs with
  | nil => rfl
  | cons c cs ih => cases c <;> simp only [List.map_cons, repriceCall, headers, ih]

theorem entries_reprice (k : Rat) (base : Str) : ∀ (cs : List Call) (cur : Int × Str) (ns : List (Int × Str)),
    entries cur ns (cs.map (repriceCall k base)) = entries cur ns cs := by
  intro cs
  induction cs with
  | nil => intro cur ns; rfl
  | cons c cs ih =>
    intro cur ns
    cases c with
    | newTransaction d p n =>
      cases ns with
      | nil => rfl
      | cons n ns => simp only [List.map_cons, repriceCall, entries, ih]
    | _ => simp only [List.map_cons, repriceCall, entries, ih]

theorem recorded_reprice (k : Rat) (base u c : Str) (cs : List Call) :
    recorded u c (cs.map (repriceCall k base)) = if c = base then (recorded u c cs).map (timesPrice k) else recorded u c cs := by
  induction cs with
  | nil => split <;> rfl
  | cons x cs ih =>
    cases x with
    | addPrice d u' c' v =>
      simp only [List.map_cons, repriceCall, recorded]
      by_cases h : u' = u ∧ c' = c
      · rw [if_pos h, if_pos h, ih, h.2]
        by_cases hc : c = base
        · rw [if_pos hc, if_pos hc, if_pos hc]; rfl
        · rw [if_neg hc, if_neg hc, if_neg hc]
      · rw [if_neg h, if_neg h, ih]
    | _ => simp only [List.map_cons, repriceCall, recorded, ih]

/-- Two ledgers, the second one the first with its prices in the base currency multiplied by `k`; none gives the price of the base currency itself. -/
structure Repriced (k : Rat) (base : Str) (le le' : Env) (f f' : Str) (cs : List Call) : Prop where
  ok : le.Ok
  ok' : le'.Ok
  letters : PlainLetters le
  letters' : PlainLetters le'
  unpriced : ∀ x ∈ priceLines cs, x.2.1 ≠ base
  disk : ∃ fs ls fs' ls', OnDisk le fs ∧ fs f = some ls ∧ FileSays fs le.join f [] [] ls cs ∧
    OnDisk le' fs' ∧ fs' f' = some ls' ∧ FileSays fs' le'.join f' [] [] ls' (cs.map (repriceCall k base))

/-- The prices of the two books in the base currency. -/
theorem reprice_find {k : Rat} {le le' : Env} {depth depth' : Nat} {srt : List Posting → List Posting} {a : AppConf} {f' : Str} {cs : List Call}
    (h : Repriced k a.baseCCY le le' a.ledger f' cs) {b0 b0' : Book} (l0 : loadCmd le depth srt a = .ok b0)
    (l1 : loadCmd le' depth' srt (a.reading f') = .ok b0') (d : Int) (c : Str) :
    b0'.prices.getPrice d c a.baseCCY =
      if Standing a.baseCCY cs c then b0.prices.getPrice d c a.baseCCY else (b0.prices.getPrice d c a.baseCCY).map fun x => (k * x.1, x.2) := by
  obtain ⟨fs, ls, fs', ls', hd, hf, hsay, hd', hf', hsay'⟩ := h.disk
  obtain ⟨ds, s1, ⟨bb, x1, x2⟩, _⟩ := c96_loaded_book h.ok h.letters hd hf (loadCmd_book l0)
  obtain ⟨ds', s2, ⟨bb', y1, y2⟩, _⟩ := c96_loaded_book h.ok' h.letters' hd' hf' (loadCmd_book l1)
  obtain ⟨_, i2, _⟩ := (readings_shuffled hsay [] ds (.refl _) s1).facts
  obtain ⟨_, j2, _⟩ := (readings_shuffled hsay' [] ds' (.refl _) s2).facts
  have e0 : ∀ u c, b0.prices.find (u, c) = if recorded u c cs = [] then none else some (sortPrices (recorded u c cs)) := by
    intro u c
    rw [built_prices x1 x2, recorded_lines u c ds, ← i2, ← recorded_lines]
  have e1 : ∀ u, b0'.prices.find (u, a.baseCCY) =
      if recorded u a.baseCCY cs = [] then none else some ((sortPrices (recorded u a.baseCCY cs)).map (timesPrice k)) := by
    intro u
    rw [built_prices y1 y2, recorded_lines u _ ds', ← j2, ← recorded_lines, recorded_reprice, if_pos rfl, sortPrices_times]
    simp only [List.map_eq_nil_iff]
  have hnil : ∀ c, recorded a.baseCCY c cs = [] := by
    intro c
    rw [recorded_lines, List.map_eq_nil_iff, List.filter_eq_nil_iff]
    intro x hx hh
    exact h.unpriced x hx (of_decide_eq_true hh).1
  have e2 : ∀ c, b0'.prices.find (a.baseCCY, c) = none := by
    intro c
    rw [built_prices y1 y2, recorded_lines _ c ds', ← j2, ← recorded_lines, recorded_reprice, hnil]
    simp
  unfold PriceBook.getPrice
  by_cases hb : c = a.baseCCY
  · rw [if_pos hb, if_pos hb, if_pos (.inl hb)]
  · rw [if_neg hb, if_neg hb, e0, e1, e0, e2, hnil c]
    by_cases hr : recorded c a.baseCCY cs = []
    · have hst : Standing a.baseCCY cs c := by
        refine .inr fun x hx hxb hxc => ?_
        rw [recorded_lines, List.map_eq_nil_iff, List.filter_eq_nil_iff] at hr
        exact hr x hx (by simp [hxc, hxb])
      rw [if_pos hst]
      simp [hr]
    · have hst : ¬ Standing a.baseCCY cs c := by
        rintro (h1 | h1)
        · exact hb h1
        · apply hr
          rw [recorded_lines, List.map_eq_nil_iff, List.filter_eq_nil_iff]
          intro x hx hh
          exact h1 x hx (of_decide_eq_true hh).2 (of_decide_eq_true hh).1
      rw [if_neg hst, if_neg hr, if_neg hr]
      simp only
      exact getPrice_times k _ d

/-- Amounts in the base currency and in currencies without a price are taken as they are. -/
theorem standing_one {k : Rat} {le le' : Env} {depth : Nat} {srt : List Posting → List Posting} {a : AppConf} {f' : Str} {cs : List Call}
    (h : Repriced k a.baseCCY le le' a.ledger f' cs) {b0 : Book} (l0 : loadCmd le depth srt a = .ok b0) (d : Int) {c : Str}
    (hst : Standing a.baseCCY cs c) : (b0.prices.getPrice d c a.baseCCY).map (·.1) = some 1 := by
  obtain ⟨fs, ls, fs', ls', hd, hf, hsay, hd', hf', hsay'⟩ := h.disk
  obtain ⟨ds, s1, ⟨bb, x1, x2⟩, _⟩ := c96_loaded_book h.ok h.letters hd hf (loadCmd_book l0)
  obtain ⟨_, i2, _⟩ := (readings_shuffled hsay [] ds (.refl _) s1).facts
  have e0 : ∀ u c, b0.prices.find (u, c) = if recorded u c cs = [] then none else some (sortPrices (recorded u c cs)) := by
    intro u c
    rw [built_prices x1 x2, recorded_lines u c ds, ← i2, ← recorded_lines]
  unfold PriceBook.getPrice
  by_cases hb : c = a.baseCCY
  · rw [if_pos hb]; rfl
  · have h1 : recorded c a.baseCCY cs = [] := by
      rw [recorded_lines, List.map_eq_nil_iff, List.filter_eq_nil_iff]
      intro x hx hh
      exact hst.resolve_left hb x hx (of_decide_eq_true hh).2 (of_decide_eq_true hh).1
    have h2 : recorded a.baseCCY c cs = [] := by
      rw [recorded_lines, List.map_eq_nil_iff, List.filter_eq_nil_iff]
      intro x hx hh
      exact h.unpriced x hx (of_decide_eq_true hh).1
    rw [if_neg hb, e0, e0, h1, h2]
    rfl

/-! ## Operations that keep prices -/

theorem parsePrim_mapccy {e : OpEnv} {op s r : Str} (h : parsePrim e op = some (.mapccy s r)) : RenamesCCY op := by
  unfold parsePrim at h
  cases hp : opPrefix op with
  | none => rw [hp] at h; cases h
  | some x =>
    obtain ⟨typ, act⟩ := x
    rw [hp] at h
    simp only at h
    by_cases ht : typ = b!"mapccy"
    · exact ⟨act, by rw [opPrefix_inv hp, ht]; rfl⟩
    · exfalso
      rw [if_neg ht] at h
      split_ifs at h
      all_goals first
        | cases h
        | (rw [Option.map_eq_some_iff] at h; obtain ⟨_, _, h⟩ := h; cases h)
        | (rw [Option.bind_eq_some_iff] at h; obtain ⟨_, _, h⟩ := h; rw [Option.map_eq_some_iff] at h; obtain ⟨_, _, h⟩ := h; cases h)

theorem runAll_prices {f : Str → Book → OpEnd} : ∀ {l : List Str}, (∀ o ∈ l, ∀ b c, f o b = .ok c → c.prices = b.prices) →
    ∀ b c, runAll f l b = .ok c → c.prices = b.prices
  | [], _, b, c, h => by cases h; rfl
  | o :: l, hf, b, c, h => by
    simp only [runAll] at h
    cases hx : f o b with
    | ok d =>
      rw [hx] at h
      rw [runAll_prices (fun o ho => hf o (by simp [ho])) d c h, hf o (by simp) b d hx]
    | _ => rw [hx] at h; cases h

theorem bookOp_prices {e : OpEnv} {mac : Str → Option (List Str)} {args : List Str} (h : ∀ op, Used mac args op → ¬ RenamesCCY op) :
    ∀ (n : Nat) (op : Str), Used mac args op → ∀ b c, bookOp e mac n op b = .ok c → c.prices = b.prices
  | 0, _, _, b, c, hb => by cases hb
  | n + 1, op, hu, b, c, hb => by
    simp only [bookOp] at hb
    cases hm : mac op with
    | some ms =>
      rw [hm] at hb
      exact runAll_prices (fun o ho => bookOp_prices h n o (.within hu hm ho)) b c (opWrap_ok hb)
    | none =>
      rw [hm] at hb
      simp only [primOp] at hb
      cases hp : parsePrim e op with
      | none => rw [hp] at hb; cases hb
      | some p =>
        rw [hp] at hb
        simp only at hb
        cases hx : p.apply e b with
        | none => rw [hx] at hb; cases hb
        | some d =>
          rw [hx] at hb
          cases hb
          rw [prim_prices hx]
          cases p with
          | mapccy s r => exact absurd (parsePrim_mapccy hp) (h op hu)
          | _ => rfl

theorem opsCmd_prices {e : OpEnv} {a : AppConf} {args : List Str} (h : ∀ op, Used a.macros args op → ¬ RenamesCCY op) {fuel : Nat} {b c : Book}
    (hb : opsCmd e fuel a args b = .ok c) : c.prices = b.prices := by
  unfold opsCmd bookOps at hb
  split at hb <;> cases hb
  rename_i hx
  exact runAll_prices (fun o ho b c hc => bookOp_prices h fuel o (.given ho) b c (opWrap_ok hc)) b _ hx

/-! ## The report -/

/-- What stays of one posting's place in the listing. -/
def shownU (today : Int) (r : ReportConf) (u : Weight) : Weight := fun D P A C => u (shownDate today r (bare D A C)) P A C

/-- The book whose postings are shown, before it is converted. -/
theorem report_split {le : Env} {depth : Nat} {e : OpEnv} (hs : IsSort e.srt) {fuel : Nat} {a : AppConf} {r : ReportConf} (ht : r.typ ≠ b!"Beancount")
    (hr : r.sum = false) {o : Int → Str → List Str → List Str} {args : List Str} {ts : List Txn}
    (h : reportCmd le depth e fuel a r o args = .ok ts) :
    ∃ b0 b b1 : Book, loadCmd le depth e.srt a = .ok b0 ∧ opsCmd e fuel a args b0 = .ok b ∧
      (r.convert = true → ∀ p ∈ b1.post, (b.prices.getPrice p.date p.ccy a.baseCCY).isSome = true) ∧
      (∀ u, NoPayee u → wsum (wt u) b1.post = wsum (wt (shownU e.today r u)) b.post) ∧
      ∀ P, chosenTotal P ts.flatten = wsum (wt fun D _ A C =>
        if P D A (if r.convert = true then a.baseCCY else C) then
          (if r.convert = true then ((b.prices.getPrice D C a.baseCCY).map (·.1)).getD 1 else 1) else 0) b1.post := by
  have hh := h
  unfold reportCmd at h
  obtain ⟨b, h1, h2⟩ := bind_ok h
  obtain ⟨b0, h0, h1⟩ := bind_ok h1
  have hg := good_ops hs (good_load hs h0) h1
  obtain ⟨fb, hfb, _⟩ := reportTxns_ok h2 (.inl hr)
  unfold shownBook at hfb
  rw [if_neg ht] at hfb
  have hcv : converts r ↔ r.convert = true := by unfold converts; simp [ht]
  have step1 : ∃ b1 : Book, b1 = (if r.combineby ≠ b!"skip" then b.splitBy e.srt e.today r.combineby else b) ∧
      b1.prices = b.prices ∧ ∀ u, NoPayee u → wsum (wt u) b1.post = wsum (wt (shownU e.today r u)) b.post := by
    by_cases hc : r.combineby ≠ b!"skip"
    · refine ⟨_, rfl, ?_⟩
      rw [if_pos hc]
      refine ⟨?_, ?_⟩
      · unfold Book.splitBy Book.mapTransaction Book.compact; split <;> rfl
      · intro u hu
        unfold Book.splitBy Book.mapTransaction
        rw [compact_post _ (srt_nil hs), wsum_compactPost hs (wt_key u)]
        simp only [wsum, List.map_map]
        congr 1
        apply List.map_congr_left
        intro p _
        simp only [Function.comp, wt, shownU, shownDate, bare, combines, ht, hc, ne_eq, not_false_eq_true, and_self, if_true]
        rw [hu _ _ p.payee]
    · refine ⟨_, rfl, ?_⟩
      rw [if_neg hc]
      refine ⟨rfl, fun u _ => ?_⟩
      congr 1
      funext p
      simp only [wt, shownU, shownDate, bare, combines, hc, and_false, if_false]
  obtain ⟨b1, e1, p1, w1⟩ := step1
  rw [← e1] at hfb
  have hk := convertCmd_ok hfb
  obtain ⟨b0', b', l0', l1', hP⟩ := report_chosen hs (.inl hr) hh (fun _ _ _ => true)
  refine ⟨b0, b, b1, h0, h1, ?_, w1, ?_⟩
  · intro hc
    rw [if_pos hc] at hk
    have hk := hk.2
    unfold convertBook at hk
    split at hk
    · rename_i hall
      intro p hp
      have := List.all_eq_true.1 hall p hp
      rw [p1] at this
      exact this
    · cases hk
  · intro P
    obtain ⟨c0, c, k0, k1, hP⟩ := report_chosen hs (.inl hr) hh P
    rw [h0] at k0; cases k0
    rw [h1] at k1; cases k1
    rw [hP, w1 _ fun D P P' A C => rfl]
    congr 1
    funext p
    simp only [wt, chosenWeight, shownU, shownCCY, shownRate, hcv]
    rfl

/-- The postings of the two books after the same operations weigh the same. -/
theorem reprice_ops {k : Rat} {le le' : Env} {depth depth' : Nat} {e : OpEnv} (hs : IsSort e.srt) {fuel : Nat} {a : AppConf} {f' : Str} {cs : List Call}
    (h : Repriced k a.baseCCY le le' a.ledger f' cs) {args : List Str} {b0 b0' b b' : Book} (l0 : loadCmd le depth e.srt a = .ok b0)
    (l1 : loadCmd le' depth' e.srt (a.reading f') = .ok b0') (o0 : opsCmd e fuel a args b0 = .ok b) (o1 : opsCmd e fuel a args b0' = .ok b') :
    ∀ u, NoPayee u → wsum (wt u) b'.post = wsum (wt u) b.post := by
  obtain ⟨U, Q, hU, hlin⟩ := ops_linear hs fuel a args
  obtain ⟨_, _, w0⟩ := hlin b0 b (good_load hs l0) o0
  obtain ⟨_, _, w1⟩ := hlin b0' b' (good_load hs l1) o1
  obtain ⟨fs, ls, fs', ls', hd, hf, hsay, hd', hf', hsay'⟩ := h.disk
  obtain ⟨ds, s1, b1, _⟩ := c96_loaded_book h.ok h.letters hd hf (loadCmd_book l0)
  obtain ⟨ds', s2, b2, _⟩ := c96_loaded_book h.ok' h.letters' hd' hf' (loadCmd_book l1)
  obtain ⟨i1, i2, i3⟩ := (readings_shuffled hsay [] ds (.refl _) s1).facts
  obtain ⟨j1, j2, j3⟩ := (readings_shuffled hsay' [] ds' (.refl _) s2).facts
  intro u hu
  rw [w0, w1, wsum_read hs b1 (hU u hu), wsum_read hs b2 (hU u hu), ← i1, ← j1]
  have q1 : esum (U u) (entries (-1, []) (headers cs) ds) = esum (U u) (entries (-1, []) (headers cs) cs) := (((i3 _ _).map _).sum_eq).symm
  have q2 : esum (U u) (entries (-1, []) (headers (cs.map (repriceCall k a.baseCCY))) ds') =
    esum (U u) (entries (-1, []) (headers (cs.map (repriceCall k a.baseCCY))) (cs.map (repriceCall k a.baseCCY))) := (((j3 _ _).map _).sum_eq).symm
  rw [q1, q2, headers_reprice, entries_reprice]

/-- **C160** (a): what the converted report shows, in any account and on any dates, of the ledger with all prices in the base currency multiplied by `k` is `k`
times what it shows of the ledger, but for the amounts in the base currency itself and in currencies without such a price, which stay. -/
theorem c160_converted {k : Rat} {le le' : Env} (depth depth' : Nat) (e : OpEnv) (hs : IsSort e.srt) (fuel : Nat) (a : AppConf) (f' : Str) (cs : List Call)
    (h : Repriced k a.baseCCY le le' a.ledger f' cs) (args : List Str) (hm : ∀ op, Used a.macros args op → ¬ RenamesCCY op) (r : ReportConf)
    (hr : r.sum = false) (ht : r.typ ≠ b!"Beancount") (o o' o0 : Int → Str → List Str → List Str) (ts ts' t0 : List Txn)
    (h0 : reportCmd le depth e fuel a { r with convert := true } o args = .ok ts)
    (h1 : reportCmd le' depth' e fuel (a.reading f') { r with convert := true } o' args = .ok ts')
    (h2 : reportCmd le depth e fuel a { r with convert := false } o0 args = .ok t0) (P : Int → Str → Bool) :
    chosenTotal (fun d ac _ => P d ac) ts'.flatten = k * chosenTotal (fun d ac _ => P d ac) ts.flatten +
      (1 - k) * chosenTotal (fun d ac c => P d ac && decide (Standing a.baseCCY cs c)) t0.flatten := by
  obtain ⟨b0, b, s, l0, p0, ok0, w0, t0'⟩ := report_split hs (r := { r with convert := true }) ht hr h0
  obtain ⟨b0', b', s', l1, p1, ok1, w1, t1'⟩ := report_split hs (r := { r with convert := true }) ht hr h1
  obtain ⟨c0, c, s'', l2, p2, _, w2, t2'⟩ := report_split hs (r := { r with convert := false }) ht hr h2
  rw [l0] at l2; cases l2
  rw [p0] at p2; cases p2
  have hpost := reprice_ops hs h l0 l1 p0 p1
  have hq : ∀ d c, b'.prices.getPrice d c a.baseCCY = if Standing a.baseCCY cs c then b.prices.getPrice d c a.baseCCY else
      (b.prices.getPrice d c a.baseCCY).map fun x => (k * x.1, x.2) := by
    intro d c
    rw [opsCmd_prices hm p1, opsCmd_prices (a := a) hm p0]
    exact reprice_find h l0 l1 d c
  rw [t0' , t1', t2']
  simp only [if_true, Bool.false_eq_true, if_false]
  -- the rates of the second ledger in those of the first
  have r1 : wsum (wt fun D _ A C => if P D A = true then ((b'.prices.getPrice D C (a.reading f').baseCCY).map (·.1)).getD 1 else 0) s'.post =
      wsum (wt fun D _ A C => k * (if P D A = true then ((b.prices.getPrice D C a.baseCCY).map (·.1)).getD 1 else 0) +
        (1 - k) * (if (P D A && decide (Standing a.baseCCY cs C)) = true then 1 else 0)) s'.post := by
    refine wsum_congr fun p hp => ?_
    have hsome := ok1 rfl p hp
    show (if P p.date p.acct = true then ((b'.prices.getPrice p.date p.ccy a.baseCCY).map (·.1)).getD 1 else 0) = _
    change (b'.prices.getPrice p.date p.ccy a.baseCCY).isSome = true at hsome
    rw [hq] at hsome ⊢
    simp only [wt]
    by_cases hP : P p.date p.acct = true
    · by_cases hst : Standing a.baseCCY cs p.ccy
      · have h1 : (b.prices.getPrice p.date p.ccy a.baseCCY).map (·.1) = some 1 := by
          rw [opsCmd_prices hm p0]; exact standing_one h l0 p.date hst
        simp only [hP, hst, if_true, decide_true, Bool.and_self, h1, Option.getD_some]; ring
      · rw [if_neg hst] at hsome ⊢
        simp only [hP, hst, if_true, decide_false, Bool.and_false, Bool.false_eq_true, if_false]
        cases hg : b.prices.getPrice p.date p.ccy a.baseCCY with
        | none => rw [hg] at hsome; cases hsome
        | some x => simp
    · simp [hP]
  rw [r1]
  have hA : ∀ q : PriceBook, NoPayee (fun D _ A C => if P D A = true then ((q.getPrice D C a.baseCCY).map (·.1)).getD 1 else 0) := fun q D P P' A C => rfl
  have hB : NoPayee (fun D _ A C => if (P D A && decide (Standing a.baseCCY cs C)) = true then 1 else 0) := fun D P P' A C => rfl
  rw [w1 _ fun D P P' A C => rfl, hpost _ fun D P P' A C => rfl, w0 _ (hA _), w2 _ hB]
  have lin : ∀ (x y : Rat) (V W : Posting → Rat) (l : List Posting), wsum (fun p => x * V p + y * W p) l = x * wsum V l + y * wsum W l := by
    intro x y V W l
    induction l with
    | nil => simp
    | cons p l ih => rw [wsum_cons, wsum_cons, wsum_cons, ih]; ring
  exact lin k (1 - k) _ _ _

/-- **C160** (b): if all amounts shown there are in currencies with a price, they are multiplied. -/
theorem c160_multiplied {k : Rat} {le le' : Env} (depth depth' : Nat) (e : OpEnv) (hs : IsSort e.srt) (fuel : Nat) (a : AppConf) (f' : Str) (cs : List Call)
    (h : Repriced k a.baseCCY le le' a.ledger f' cs) (args : List Str) (hm : ∀ op, Used a.macros args op → ¬ RenamesCCY op) (r : ReportConf)
    (hr : r.sum = false) (ht : r.typ ≠ b!"Beancount") (o o' o0 : Int → Str → List Str → List Str) (ts ts' t0 : List Txn)
    (h0 : reportCmd le depth e fuel a { r with convert := true } o args = .ok ts)
    (h1 : reportCmd le' depth' e fuel (a.reading f') { r with convert := true } o' args = .ok ts')
    (h2 : reportCmd le depth e fuel a { r with convert := false } o0 args = .ok t0) (P : Int → Str → Bool)
    (hp : ∀ t ∈ t0, ∀ x ∈ t, P x.date x.acct = true → ¬ Standing a.baseCCY cs x.ccy) :
    chosenTotal (fun d ac _ => P d ac) ts'.flatten = k * chosenTotal (fun d ac _ => P d ac) ts.flatten := by
  have hz : chosenTotal (fun d ac c => P d ac && decide (Standing a.baseCCY cs c)) t0.flatten = 0 := by
    unfold chosenTotal total
    rw [List.filter_eq_nil_iff.2]
    · rfl
    · intro x hx hh
      obtain ⟨t, ht, hxt⟩ := List.mem_flatten.1 hx
      rw [Bool.and_eq_true] at hh
      exact hp t ht x hxt hh.1 (of_decide_eq_true hh.2)
  rw [c160_converted depth depth' e hs fuel a f' cs h args hm r hr ht o o' o0 ts ts' t0 h0 h1 h2 P, hz]
  ring

/-- **C160** (c): without conversion the listing shows the same. -/
theorem c160_unconverted {k : Rat} {le le' : Env} (depth depth' : Nat) (e : OpEnv) (hs : IsSort e.srt) (fuel : Nat) (a : AppConf) (f' : Str)
    (cs : List Call) (h : Repriced k a.baseCCY le le' a.ledger f' cs) (args : List Str) (r : ReportConf) (hr : r.sum = false ∨ r.typ = b!"Beancount")
    (hc : ¬ converts r) (o o' : Int → Str → List Str → List Str) (ts ts' : List Txn) (h0 : reportCmd le depth e fuel a r o args = .ok ts)
    (h1 : reportCmd le' depth' e fuel (a.reading f') r o' args = .ok ts') (P : Int → Str → Str → Bool) :
    chosenTotal P ts'.flatten = chosenTotal P ts.flatten := by
  obtain ⟨b0, b, l0, p0, t0⟩ := report_chosen hs hr h0 P
  obtain ⟨b0', b', l1, p1, t1⟩ := report_chosen hs hr h1 P
  rw [t0, t1]
  have hsame : chosenWeight b'.prices e.today (a.reading f').baseCCY r P = chosenWeight b.prices e.today a.baseCCY r P := by
    unfold chosenWeight shownRate
    simp only [hc, if_false]
    rfl
  rw [hsame]
  exact reprice_ops hs h l0 l1 p0 p1 _ fun D P P' A C => rfl

/-! Non-vacuity: the price of 1.5 and three times that price. -/

def dearLine : FileLine := .price {
    sp0 := [32], day := ⟨b!"2020", b!"01", b!"02"⟩, date := ⟨2020, 1, 2⟩, sp1 := [32], hour := b!"00", minute := b!"00", second := b!"00",
    sp2 := [32], unitQuoted := false, unit := b!"X", sp3 := [32], ccyFirst := false, quoted := false, ccy := b!"Y", sp4 := [32],
    num := ⟨false, b!"4", some b!"5"⟩ }

/-- An amount in a currency that has no price. -/
def freePost (acct num : Str) (minus : Bool) : FileLine := .posting {
  sp0 := [32, 32], acct, sp1 := [32], minus, ccyFirst := false, quoted := false, ccy := b!"W", sp2 := [32],
  num := ⟨false, num, none⟩, note := none, sp3 := [], sp4 := [] }

def priceTail : List FileLine := partOne ++ [freePost b!"A" b!"2" false, freePost b!"C" b!"2" true]
def cheapLines : List FileLine := demoMain[3] :: priceTail
def dearLines : List FileLine := dearLine :: priceTail

def dearFiles : List (Str × List FileLine) := [(b!"cheap", cheapLines), (b!"dear", dearLines)]
def dearDisk (f : Str) : Option (List FileLine) := (dearFiles.find? fun x => decide (x.1 = f)).map (·.2)
def dearEnv : Env := demoEnv (dearFiles.map fun x => (x.1, fileText x.2))

theorem dear_line : (∀ l ∈ cheapLines, l.Valid) ∧ ∀ l ∈ dearLines, l.Valid := by
  have hp : demoMain[3].Valid := ((demo_disk b!"main" demoMain rfl).2 demoMain[3] (List.getElem_mem _)).1
  have hq : dearLine.Valid := ⟨⟨by decide, by decide, by decide⟩, by decide, by decide, by decide, by decide, by decide, by decide,
          ⟨⟨by decide, by rintro f ⟨⟩; decide⟩, by decide, by decide⟩, ⟨_, _, rfl, by decide⟩, by decide, by decide, by decide⟩
  have ht : ∀ l ∈ priceTail, l.Valid := by
    intro l hl
    unfold priceTail at hl
    rcases List.mem_append.1 hl with hl | hl
    · exact part_txn l (.inl hl)
    · simp only [List.mem_cons, List.not_mem_nil, or_false] at hl
      rcases hl with rfl | rfl
      all_goals exact ⟨⟨by decide, by decide, by decide, by decide, ⟨⟨by decide, by rintro f ⟨⟩⟩, by decide, by decide⟩, ⟨_, _, rfl, by decide⟩,
        by decide, by decide, by rintro _ c r ⟨⟩; decide, by decide, by rintro n ⟨⟩⟩, by decide⟩
  constructor
  · intro l hl
    rcases List.mem_cons.1 hl with rfl | hl
    · exact hp
    · exact ht l hl
  · intro l hl
    rcases List.mem_cons.1 hl with rfl | hl
    · exact hq
    · exact ht l hl

theorem dear_disk : OnDisk dearEnv dearDisk := by
  have hmem : ∀ f ls, dearDisk f = some ls → (f, ls) ∈ dearFiles := by
    intro f ls h
    unfold dearDisk at h
    rw [Option.map_eq_some_iff] at h
    obtain ⟨x, hx, rfl⟩ := h
    have h1 := List.mem_of_find?_eq_some hx
    have h2 := List.find?_some hx
    simp only [decide_eq_true_eq] at h2
    rw [← h2]; exact h1
  have hno : ∀ l, l ∈ cheapLines ∨ l ∈ dearLines → ∀ sp q g, l ≠ .incl sp q g := by
    rintro l hl sp q g rfl
    simp [cheapLines, dearLines, dearLine, priceTail, freePost, partOne, partPost, demoMain] at hl
  intro f ls hf
  have hm := hmem f ls hf
  simp only [dearFiles, List.mem_cons, Prod.mk.injEq, List.not_mem_nil, or_false] at hm
  rcases hm with ⟨rfl, rfl⟩ | ⟨rfl, rfl⟩
  · exact ⟨by decide +kernel, fun l hl => ⟨dear_line.1 l hl, fun sp q g h => absurd h (hno l (.inl hl) sp q g)⟩⟩
  · exact ⟨by decide +kernel, fun l hl => ⟨dear_line.2 l hl, fun sp q g h => absurd h (hno l (.inr hl) sp q g)⟩⟩

def cheapCalls : List Call := .addPrice 20200102 b!"X" b!"Y" (3 / 2) :: .newTransaction 20200102 b!"shop" b!"note" :: .addPosting b!"A" b!"X" 5 [] ::
  .addPosting b!"B" b!"X" (-5) [] :: .addPosting b!"A" b!"W" 2 [] :: .addPosting b!"C" b!"W" (-2) [] :: []

theorem cheap_says (fn : Str) : FileSays dearDisk dearEnv.join fn [] [] cheapLines cheapCalls := by
  have h0 : (3 / 2 : Rat) = (⟨false, b!"1", some b!"5"⟩ : Numeral).value := by decide +kernel
  have h1 : (5 : Rat) = 1 * (⟨false, b!"5", none⟩ : Numeral).value := by decide +kernel
  have h2 : (-5 : Rat) = -1 * (⟨false, b!"5", none⟩ : Numeral).value := by decide +kernel
  have h3 : (2 : Rat) = 1 * (⟨false, b!"2", none⟩ : Numeral).value := by decide +kernel
  have h4 : (-2 : Rat) = -1 * (⟨false, b!"2", none⟩ : Numeral).value := by decide +kernel
  unfold cheapCalls
  rw [h0, h2, h1, h4]
  conv => rhs; rw [h3]
  exact .price _ _ _ _ _ _ (.txn _ _ _ _ _ _ (.posting _ _ _ _ _ _ (.posting _ _ _ _ _ _ (.posting _ _ _ _ _ _ (.posting _ _ _ _ _ _ (.nil _ _ _))))))

theorem dear_says (fn : Str) : FileSays dearDisk dearEnv.join fn [] [] dearLines (cheapCalls.map (repriceCall 3 b!"Y")) := by
  have h0 : (3 * (3 / 2) : Rat) = (⟨false, b!"4", some b!"5"⟩ : Numeral).value := by decide +kernel
  have h1 : (5 : Rat) = 1 * (⟨false, b!"5", none⟩ : Numeral).value := by decide +kernel
  have h2 : (-5 : Rat) = -1 * (⟨false, b!"5", none⟩ : Numeral).value := by decide +kernel
  have h3 : (2 : Rat) = 1 * (⟨false, b!"2", none⟩ : Numeral).value := by decide +kernel
  have h4 : (-2 : Rat) = -1 * (⟨false, b!"2", none⟩ : Numeral).value := by decide +kernel
  unfold cheapCalls
  simp only [List.map_cons, List.map_nil, repriceCall]
  rw [h0, h2, h1, h4]
  conv => rhs; rw [h3]
  exact .price _ _ _ _ _ _ (.txn _ _ _ _ _ _ (.posting _ _ _ _ _ _ (.posting _ _ _ _ _ _ (.posting _ _ _ _ _ _ (.posting _ _ _ _ _ _ (.nil _ _ _))))))

/-- The hypotheses of C160 hold of the two ledgers. -/
theorem dear_demo : Repriced 3 b!"Y" dearEnv dearEnv b!"cheap" b!"dear" cheapCalls where
  ok := demoEnv_ok _
  ok' := demoEnv_ok _
  letters := demo_letters _
  letters' := demo_letters _
  unpriced := by decide
  disk := ⟨dearDisk, _, dearDisk, _, dear_disk, rfl, cheap_says _, dear_disk, rfl, dear_says _⟩

/-- Without macros, an operation that moves amounts renames no currencies. -/
example : ∀ op, Used (partApp b!"cheap").macros [b!"move=/A/Z/0.5/"] op → ¬ RenamesCCY op := by
  have hm : ∀ x, (partApp b!"cheap").macros x = none := fun _ => rfl
  rintro op hu ⟨s, hs⟩
  cases hu with
  | given h => rw [List.mem_singleton.1 h] at hs; simp at hs
  | within _ h _ => rw [hm] at h; cases h

/-- The totals of account A, of which five are in X and two in a currency without a price: half of 7.5 and of 22.5, and half of 2. -/
def dearShown (convert : Bool) (f : Str) : Option (Rat × Rat) :=
  match reportCmd dearEnv 5 plainOps 100 (partApp f) { partConf false with convert := convert } (fun _ _ l => l) [b!"move=/A/Z/0.5/"] with
  | .ok ts => some (chosenTotal (fun _ ac _ => decide (ac = b!"A")) ts.flatten,
      chosenTotal (fun _ ac c => decide (ac = b!"A") && decide (Standing b!"Y" cheapCalls c)) ts.flatten)
  | _ => none

example : dearShown true b!"cheap" = some (19 / 4, 19 / 4) ∧ dearShown true b!"dear" = some (49 / 4, 49 / 4) ∧ dearShown false b!"cheap" = some (7 / 2, 1) := by
  decide +kernel

end Verif
