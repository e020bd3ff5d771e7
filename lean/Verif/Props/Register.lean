import Verif.Proofs.Register
import Verif.Props.Ops
import Verif.Props.Price

/-! # C34–C39, C71, C72: the register and inferred rates -/

namespace Verif
open Spec

theorem goodTxns {srt : List Posting → List Posting} (hs : IsSort srt) {today : Int} {b : Book} (hr : Reachable srt today b) :
    ∀ t ∈ b.transactions srt, GoodTxn t := by
  intro t ht
  have hc := c04_transactions_canonical srt hs today b hr
  exact ⟨hc.oneTxn t ht, hc.postOrder t ht, hc.nonzero t ht, (c08_double_entry srt hs today b hr).2.1 t ht⟩

/-- Everything proved about the register at once. -/
theorem register_spec {srt : List Posting → List Posting} (hs : IsSort srt) {today : Int} {b : Book} (hr : Reachable srt today b)
    (base : Str) (mat : Str → Bool) (split : Bool)
    (hpr : ∀ p ∈ reported srt b, p.ccy ≠ base → b.prices.getPrice p.date base p.ccy ≠ none) :
    ∃ groups, b.extractRegister srt base mat split = some (List.flatten groups) ∧ RunFrom [] groups.flatten ∧
      List.Forall₂ (GroupOK b.prices base split) (matching mat (b.transactions srt)) groups := by
  obtain ⟨s', groups, h1, h2, h3, h4⟩ := regAll_spec (prices := b.prices) (base := base) (mat := mat) (split := split)
    (b.transactions srt) ⟨[], 0⟩ [] (goodTxns hs hr)
    (fun t ht p hp _ => regBase_isSome (goodTxns hs hr t ht) p.date p (hpr p (List.mem_flatten.2 ⟨t, ht, hp⟩))) ⟨fun c => by simp [amtAt, amtFind, rowTotal], by simp [baseTotal]⟩
  refine ⟨groups, ?_, h3, h4⟩
  unfold Book.extractRegister
  rw [h1]; rfl

/-! ## C34 -/

/-- C34: on every reachable book (so every balanced book), for every account pattern, the
register completes, provided the conversions of the currencies to the base currency answer; its
rows come in groups, one for each matching posting in order: a single row naming all
counter-accounts when not splitting, one row for each counter-posting when splitting, and
there is at least one counter-posting. -/
theorem c34_no_crash (srt : List Posting → List Posting) (hs : IsSort srt) (today : Int) (b : Book) (hr : Reachable srt today b)
    (base : Str) (mat : Str → Bool) (split : Bool)
    (hpr : ∀ p ∈ reported srt b, p.ccy ≠ base → b.prices.getPrice p.date base p.ccy ≠ none) :
    ∃ groups, b.extractRegister srt base mat split = some (List.flatten groups) ∧
      List.Forall₂ (fun tp g => RowsFor split tp.1 tp.2 g) (matching mat (b.transactions srt)) groups := by
  obtain ⟨groups, h1, _, h3⟩ := register_spec hs hr base mat split hpr
  exact ⟨groups, h1, h3.imp (fun _ _ h => h.rows)⟩

/-- C34: the conversions answer whenever posting and price dates are real dates and prices are
positive, so then the register never crashes. -/
theorem c34_no_crash_prices (srt : List Posting → List Posting) (hs : IsSort srt) (today : Int) (cs : List Call) (b : Book)
    (hb : FromCalls srt today cs b) (base : Str) (mat : Str → Bool) (split : Bool)
    (hd : ∀ p ∈ reported srt b, IsDate p.date)
    (hv : ∀ u c q, q ∈ recorded u c cs → IsDate q.date ∧ 0 < q.val) :
    ∃ rows, b.extractRegister srt base mat split = some rows := by
  have hr : Reachable srt today b := by
    obtain ⟨bb, b0, ops, h1, h2, h3⟩ := hb
    exact ⟨cs, bb, b0, ops, h1, h2, h3⟩
  obtain ⟨groups, h1, _⟩ := c34_no_crash srt hs today b hr base mat split (by
    intro p hp _
    obtain ⟨t, ht, e⟩ := hd p hp
    obtain ⟨r, pt, h, _⟩ := c29_never_panics srt today cs b hb base p.ccy t ht
      (fun q hq => by rcases hq with hq | hq <;> exact hv _ _ q hq)
    rw [e, h]; simp)
  exact ⟨_, h1⟩

/-! ## C35 -/

/-- C35: the rows of each matching posting sum to its amount; when splitting, each row is the
posting's amount times the counter-posting's share of all its counter-postings. -/
theorem c35_allocation (srt : List Posting → List Posting) (hs : IsSort srt) (today : Int) (b : Book) (hr : Reachable srt today b)
    (base : Str) (mat : Str → Bool) (split : Bool)
    (hpr : ∀ p ∈ reported srt b, p.ccy ≠ base → b.prices.getPrice p.date base p.ccy ≠ none) :
    ∃ groups, b.extractRegister srt base mat split = some (List.flatten groups) ∧
      List.Forall₂ (fun tp g => RowsFor split tp.1 tp.2 g ∧ AmountsFor split tp.1 tp.2 g)
        (matching mat (b.transactions srt)) groups := by
  obtain ⟨groups, h1, _, h3⟩ := register_spec hs hr base mat split hpr
  exact ⟨groups, h1, h3.imp (fun _ _ h => ⟨h.rows, h.amounts⟩)⟩

/-! ## C36 -/

theorem matching_total {prices base split mat} (ts : List Txn) (groups : List (List RegEntry))
    (h : List.Forall₂ (GroupOK prices base split) (matching mat ts) groups) (c : Str) :
    rowTotal c groups.flatten = total (fun p => mat p.acct && decide (p.ccy = c)) ts.flatten := by
  have e1 : rowTotal c groups.flatten = ((matching mat ts).map fun tp => if tp.2.ccy = c then tp.2.val else 0).sum := by
    generalize matching mat ts = m at h
    induction h with
    | nil => rfl
    | cons hg _ ih =>
      rename_i tp g m gs _
      rw [List.flatten_cons, rowTotal_append, ih, List.map_cons, List.sum_cons]
      congr 1
      unfold rowTotal
      by_cases hc : tp.2.ccy = c
      · rw [if_pos hc, ← hg.amounts.sum]
        congr 2
        rw [List.filter_eq_self]
        intro r hr
        have := (hg.rows.fields r hr).2.2.2.1
        simp [this, hc]
      · rw [if_neg hc]
        have : g.filter (fun r => decide (r.ccy = c)) = [] := by
          rw [List.filter_eq_nil_iff]
          intro r hr
          have := (hg.rows.fields r hr).2.2.2.1
          simp [this, hc]
        rw [this]; rfl
  rw [e1]
  clear e1 h
  induction ts with
  | nil => simp [matching, total]
  | cons t ts ih =>
    unfold matching at ih ⊢
    rw [List.flatMap_cons, List.map_append, List.sum_append, ih, List.flatten_cons, total_append]
    congr 1
    clear ih
    rw [List.map_map]
    show (List.map (fun p : Posting => if p.ccy = c then p.val else 0) _).sum = _
    induction t with
    | nil => simp [total]
    | cons q t ih2 =>
      rw [total_cons, ← ih2]
      by_cases hm : mat q.acct = true <;> by_cases hc : q.ccy = c <;> simp [hm, hc, List.filter_cons]

/-- C36: each row's balance is the sum of the amounts of the rows of its currency up to and
including it, and its base balance the sum of the base amounts; over all rows the amounts in a
currency sum to the total of the matching accounts in that currency. -/
theorem c36_running_totals (srt : List Posting → List Posting) (hs : IsSort srt) (today : Int) (b : Book)
    (hr : Reachable srt today b) (base : Str) (mat : Str → Bool) (split : Bool)
    (hpr : ∀ p ∈ reported srt b, p.ccy ≠ base → b.prices.getPrice p.date base p.ccy ≠ none) :
    ∃ rows, b.extractRegister srt base mat split = some rows ∧
      (∀ pre r post, rows = pre ++ r :: post →
        r.balance = rowTotal r.ccy (pre ++ [r]) ∧ r.baseBalance = baseTotal (pre ++ [r])) ∧
      (∀ c, rowTotal c rows = total (fun p => mat p.acct && decide (p.ccy = c)) (reported srt b)) := by
  obtain ⟨groups, h1, h2, h3⟩ := register_spec hs hr base mat split hpr
  refine ⟨_, h1, ?_, fun c => matching_total _ _ h3 c⟩
  intro pre r post e
  simpa using runFrom_get h2 pre r post e

/-! ## C37 -/

/-- C37, what the code does: an amount in the base currency is kept; otherwise the first
exchange in the transaction gives the rate; otherwise the amount is multiplied by
`GetPrice(date, base, currency)` — the price of the base currency in the row's currency, that is
the reciprocal of the intended rate.  Missing: the claim itself, which is false (below). -/
theorem c37_base_amounts_partial (srt : List Posting → List Posting) (hs : IsSort srt) (today : Int) (b : Book)
    (hr : Reachable srt today b) (base : Str) (mat : Str → Bool) (split : Bool)
    (hpr : ∀ p ∈ reported srt b, p.ccy ≠ base → b.prices.getPrice p.date base p.ccy ≠ none) :
    ∃ groups, b.extractRegister srt base mat split = some (List.flatten groups) ∧
      List.Forall₂ (fun tp g => ∀ r ∈ g, r.baseCCY = base ∧
        ((r.ccy = base ∧ r.baseAmount = r.amount ∧ r.baseSource = .exact) ∨
         (r.ccy ≠ base ∧ ∃ rate, FirstExchange tp.1 base r.ccy (some rate) ∧ r.baseAmount = rate * r.amount ∧ r.baseSource = .trade) ∨
         (r.ccy ≠ base ∧ FirstExchange tp.1 base r.ccy none ∧ ∃ rate,
           b.prices.getPrice r.date base r.ccy = some (rate, r.baseSource) ∧ r.baseAmount = rate * r.amount)))
        (matching mat (b.transactions srt)) groups := by
  obtain ⟨groups, h1, h2, h3⟩ := register_spec hs hr base mat split hpr
  refine ⟨groups, h1, ?_⟩
  have hgood : ∀ tp ∈ matching mat (b.transactions srt), GoodTxn tp.1 := by
    intro tp htp
    obtain ⟨t, ht, hp⟩ := List.mem_flatMap.1 htp
    obtain ⟨p, _, e⟩ := List.mem_map.1 hp
    rw [← e]; exact goodTxns hs hr t ht
  generalize matching mat (b.transactions srt) = m at h3 hgood
  clear h1 h2
  induction h3 with
  | nil => exact .nil
  | cons hg _ ih =>
    rename_i tp g m gs htail
    refine .cons ?_ (ih (fun x hx => hgood x (List.mem_cons_of_mem _ hx)))
    · intro r hr'
      obtain ⟨b1, b2⟩ := hg.base r hr'
      obtain ⟨f1, _, _, f4, _, _⟩ := hg.rows.fields r hr'
      refine ⟨b1, ?_⟩
      unfold regBase at b2
      by_cases hc : tp.2.ccy = base
      · rw [if_pos hc] at b2
        simp only [Option.some.injEq, Prod.mk.injEq] at b2
        exact Or.inl ⟨by rw [f4, hc], b2.1.symm, b2.2.symm⟩
      · rw [if_neg hc] at b2
        obtain ⟨o, ho, hfe⟩ := inferRate_spec (hgood tp List.mem_cons_self).nonzero (base := base) (unit := tp.2.ccy) (fun e => hc e.symm)
        rw [ho] at b2
        right
        cases o with
        | some rate =>
          simp only [Option.some.injEq, Prod.mk.injEq] at b2
          exact Or.inl ⟨by rw [f4]; exact hc, rate, by rw [f4]; exact hfe, b2.1.symm, b2.2.symm⟩
        | none =>
          simp only at b2
          right
          refine ⟨by rw [f4]; exact hc, by rw [f4]; exact hfe, ?_⟩
          cases hgp : b.prices.getPrice tp.2.date base tp.2.ccy with
          | none => rw [hgp] at b2; cases b2
          | some rs =>
            obtain ⟨rate, src⟩ := rs
            rw [hgp] at b2
            simp only [Option.some.injEq, Prod.mk.injEq] at b2
            exact ⟨rate, by rw [f1, f4, hgp, b2.2], b2.1.symm⟩

/-- A price of 2 B for a U, and a payment of 10 U. -/
def basePriceCalls : List Call :=
  [.addPrice 20200101 b!"U" b!"B" 2, .newTransaction 20200101 b!"shop" [], .addPosting b!"Cash" b!"U" (-10) [],
   .addPosting b!"Food" b!"U" 10 []]

/-- C37 is false of the code: with 1 U = 2 B the register in base currency B shows 10 U as
5 B instead of 20 B, because the price is looked up in the wrong direction. -/
theorem c37_base_amounts_fails : ∃ b rows r rate, FromCalls insSort 0 basePriceCalls b ∧
    b.extractRegister insSort b!"B" (fun a => decide (a = b!"Food")) false = some rows ∧ r ∈ rows ∧ r.ccy = b!"U" ∧
    (∀ t ∈ b.transactions insSort, FirstExchange t b!"B" b!"U" none) ∧
    b.prices.getPrice r.date r.ccy b!"B" = some (rate, .exact) ∧ r.amount * rate = 20 ∧ r.baseAmount = 5 := by
  have h : ((Builder.new.calls basePriceCalls).bind (Builder.build insSort)).isSome = true := by decide +kernel
  obtain ⟨b, hb⟩ := Option.isSome_iff_exists.1 h
  obtain ⟨bb, h1, h2⟩ := Option.bind_eq_some_iff.1 hb
  have key : ((Builder.new.calls basePriceCalls).bind (Builder.build insSort)).bind
      (fun b => b.extractRegister insSort b!"B" (fun a => decide (a = b!"Food")) false) =
      some [⟨20200101, b!"Food", b!"shop", b!"Cash", 10, b!"U", 10, [], [], b!"B", 5, .exact, 5⟩] := by decide +kernel
  rw [hb] at key
  have kp : ((Builder.new.calls basePriceCalls).bind (Builder.build insSort)).bind
      (fun b => b.prices.getPrice 20200101 b!"U" b!"B") = some (2, .exact) := by decide +kernel
  rw [hb] at kp
  refine ⟨b, _, ⟨20200101, b!"Food", b!"shop", b!"Cash", 10, b!"U", 10, [], [], b!"B", 5, .exact, 5⟩, 2,
    ⟨bb, b, [], h1, h2, rfl⟩, key, List.mem_singleton_self _, rfl, ?_, kp, by norm_num, rfl⟩
  intro t ht k r hex
  have hz := (c04_transactions_canonical insSort insSort_isSort 0 b ⟨_, bb, b, [], h1, h2, rfl⟩).nonzero t ht
  obtain ⟨o, ho, hfe⟩ := inferRate_spec hz (base := b!"B") (unit := b!"U") (by decide)
  have hall : ((Builder.new.calls basePriceCalls).bind (Builder.build insSort)).map
      (fun b => (b.transactions insSort).map fun t => inferRate t b!"B" b!"U") = some [some none] := by decide +kernel
  rw [hb] at hall
  simp only [Option.map_some, Option.some.injEq] at hall
  have : inferRate t b!"B" b!"U" ∈ [some (none : Option Rat)] := by
    rw [← hall]; exact List.mem_map_of_mem ht
  rw [List.mem_singleton] at this
  rw [this] at ho; cases ho
  exact hfe k r hex

/-! ## C38 -/

theorem fbdLoop_some (mn mx : Int) (rs : List RegEntry) : ∀ (i k : Nat),
    fbdLoop mn mx rs i (some k) (i + rs.length) =
      (some k, i + (rs.takeWhile fun r => decide (mx = 0 ∨ r.date < mx)).length) := by
  induction rs with
  | nil => intro i k; rfl
  | cons r rs ih =>
    intro i k
    unfold fbdLoop
    simp only [reduceCtorEq, false_and, if_false]
    by_cases h : mx = 0 ∨ r.date < mx
    · rw [if_neg (by omega), List.takeWhile_cons, if_pos (by simpa using h)]
      have := ih (i + 1) k
      rw [show i + 1 + rs.length = i + (r :: rs).length by simp; omega] at this
      rw [this]
      simp; omega
    · rw [if_pos (by omega), List.takeWhile_cons, if_neg (by simpa using h)]
      simp

theorem takeWhile_sorted {mx : Int} {rs : List RegEntry} (hs : rs.Pairwise (fun a b => a.date ≤ b.date)) :
    rs.takeWhile (fun r => decide (mx = 0 ∨ r.date < mx)) = rs.filter (fun r => decide (mx = 0 ∨ r.date < mx)) := by
  induction rs with
  | nil => rfl
  | cons r rs ih =>
    obtain ⟨h1, h2⟩ := List.pairwise_cons.1 hs
    rw [List.takeWhile_cons, List.filter_cons]
    by_cases h : mx = 0 ∨ r.date < mx
    · rw [if_pos (by simpa using h), if_pos (by simpa using h), ih h2]
    · rw [if_neg (by simpa using h), if_neg (by simpa using h)]
      symm
      rw [List.filter_eq_nil_iff]
      intro x hx
      have := h1 x hx
      simp; omega

theorem fbdLoop_none (mn mx : Int) (rs : List RegEntry) (hs : rs.Pairwise (fun a b => a.date ≤ b.date)) : ∀ (i : Nat),
    (∃ s, fbdLoop mn mx rs i none (i + rs.length) = (none, s) ∧
      rs.filter (fun r => decide ((mn = 0 ∨ mn ≤ r.date) ∧ (mx = 0 ∨ r.date < mx))) = []) ∨
    (∃ k n, fbdLoop mn mx rs i none (i + rs.length) = (some (i + k), i + k + n) ∧
      (rs.drop k).take n = rs.filter (fun r => decide ((mn = 0 ∨ mn ≤ r.date) ∧ (mx = 0 ∨ r.date < mx)))) := by
  induction rs with
  | nil => intro i; left; exact ⟨_, rfl, rfl⟩
  | cons r rs ih =>
    obtain ⟨h1, h2⟩ := List.pairwise_cons.1 hs
    intro i
    unfold fbdLoop
    simp only [true_and]
    by_cases hq : mx = 0 ∨ r.date < mx
    · by_cases hp : mn = 0 ∨ mn ≤ r.date
      · right
        rw [if_neg (by omega), if_pos (by omega)]
        have := fbdLoop_some mn mx rs (i + 1) i
        rw [show i + 1 + rs.length = i + (r :: rs).length by simp; omega] at this
        rw [this]
        refine ⟨0, 1 + (rs.takeWhile fun r => decide (mx = 0 ∨ r.date < mx)).length, by simp; omega, ?_⟩
        rw [List.filter_cons, if_pos (by simpa using ⟨hp, hq⟩)]
        rw [List.drop_zero, Nat.add_comm, List.take_succ_cons]
        congr 1
        have e : rs.filter (fun r => decide ((mn = 0 ∨ mn ≤ r.date) ∧ (mx = 0 ∨ r.date < mx))) =
            rs.takeWhile (fun r => decide (mx = 0 ∨ r.date < mx)) := by
          rw [takeWhile_sorted h2]
          apply List.filter_congr
          intro x hx
          have := h1 x hx
          have : mn = 0 ∨ mn ≤ x.date := by omega
          simp [this]
        rw [e]
        exact (List.prefix_iff_eq_take.1 (List.takeWhile_prefix _)).symm
      · rw [if_neg (by omega), if_neg (by omega)]
        rw [List.filter_cons, if_neg (by simpa using fun h => absurd h hp)]
        have e : i + (r :: rs).length = i + 1 + rs.length := by simp; omega
        rw [e]
        rcases ih h2 (i + 1) with ⟨s, f1, f2⟩ | ⟨k, n, f1, f2⟩
        · left; exact ⟨s, f1, f2⟩
        · right
          exact ⟨k + 1, n, by rw [f1]; simp; omega, by rw [List.drop_succ_cons]; exact f2⟩
    · rw [if_pos (by omega)]
      have e : (r :: rs).filter (fun r => decide ((mn = 0 ∨ mn ≤ r.date) ∧ (mx = 0 ∨ r.date < mx))) = [] := by
        rw [List.filter_eq_nil_iff]
        intro x hx
        have : r.date ≤ x.date := by
          rcases List.mem_cons.1 hx with h | h
          · rw [h]
          · exact h1 x h
        simp; omega
      by_cases hp : mn = 0 ∨ mn ≤ r.date
      · rw [if_pos (by omega)]
        right
        exact ⟨0, 0, by simp, by rw [e]; simp⟩
      · rw [if_neg (by omega)]
        left
        exact ⟨i, rfl, e⟩

/-- C38: on rows ordered by date, `FilterByDate` keeps exactly the rows with `min ≤ date < max`,
where a bound that does not parse (or is empty) is 0 and means no bound; it never panics. -/
theorem c38_window (today : Int) (mindate maxdate : Str) (rows : List RegEntry)
    (hs : rows.Pairwise (fun a b => a.date ≤ b.date)) :
    filterByDateStr today mindate maxdate rows = some (rows.filter fun r => decide
      ((dateFromString today mindate = 0 ∨ dateFromString today mindate ≤ r.date) ∧
       (dateFromString today maxdate = 0 ∨ r.date < dateFromString today maxdate))) := by
  unfold filterByDateStr filterByDate
  generalize dateFromString today mindate = mn
  generalize dateFromString today maxdate = mx
  by_cases h0 : mn = 0 ∧ mx = 0
  · rw [if_pos h0]
    congr 1
    symm
    rw [List.filter_eq_self]
    intro r _
    simp [h0.1, h0.2]
  · rw [if_neg h0]
    rcases fbdLoop_none mn mx rows hs 0 with ⟨s, f1, f2⟩ | ⟨k, n, f1, f2⟩
    · rw [Nat.zero_add] at f1
      rw [f1, f2]
    · rw [Nat.zero_add, Nat.zero_add] at f1
      rw [f1]
      simp only
      rw [if_pos (by omega), ← f2]
      congr 2
      omega

/-- C38: no bounds, no change. -/
theorem c38_no_bounds (today : Int) (rows : List RegEntry) : filterByDateStr today [] [] rows = some rows := by
  have : dateFromString today [] = 0 := by
    unfold dateFromString
    have h1 : reYMD [] = none := by decide +kernel
    have h2 : reDMY [] = none := by decide +kernel
    have h3 : reDesc [] = none := by decide +kernel
    have h4 : atoi [] = none := by decide +kernel
    rw [h1, h2, h3, h4]
  unfold filterByDateStr filterByDate
  rw [this]; simp

theorem matching_dates {mat : Str → Bool} {ts : List Txn} (hc : Canonical ts) :
    (matching mat ts).Pairwise (fun a b => a.2.date ≤ b.2.date) := by
  unfold matching
  rw [List.pairwise_flatMap]
  refine ⟨?_, ?_⟩
  · intro t ht
    rw [List.pairwise_map]
    apply List.Pairwise.imp_of_mem (R := fun _ _ => True)
    · intro p q hp hq _
      have := hc.oneTxn t ht p (List.mem_filter.1 hp).1 q (List.mem_filter.1 hq).1
      exact le_of_eq this.1
    · exact List.pairwise_of_forall (fun _ _ => trivial)
  · refine hc.txnOrder.imp ?_
    intro t u h a ha b hb
    obtain ⟨p, hp, e1⟩ := List.mem_map.1 ha
    obtain ⟨q, hq, e2⟩ := List.mem_map.1 hb
    subst e1; subst e2
    have := h p (List.mem_filter.1 hp).1 q (List.mem_filter.1 hq).1
    unfold TxnBefore at this
    simp only
    omega

/-- C38: the rows of the register are ordered by date, so the window theorem applies to them. -/
theorem c38_register_ordered (srt : List Posting → List Posting) (hs : IsSort srt) (today : Int) (b : Book)
    (hr : Reachable srt today b) (base : Str) (mat : Str → Bool) (split : Bool)
    (hpr : ∀ p ∈ reported srt b, p.ccy ≠ base → b.prices.getPrice p.date base p.ccy ≠ none) :
    ∃ rows, b.extractRegister srt base mat split = some rows ∧ rows.Pairwise (fun a b => a.date ≤ b.date) := by
  obtain ⟨groups, h1, h2⟩ := c34_no_crash srt hs today b hr base mat split hpr
  refine ⟨_, h1, ?_⟩
  have hm := matching_dates (mat := mat) (c04_transactions_canonical srt hs today b hr)
  clear h1
  generalize matching mat (b.transactions srt) = m at h2 hm
  induction h2 with
  | nil => exact List.Pairwise.nil
  | cons hg htail ih =>
    rename_i tp g m gs
    obtain ⟨m1, m2⟩ := List.pairwise_cons.1 hm
    rw [List.flatten_cons, List.pairwise_append]
    refine ⟨?_, ih m2, ?_⟩
    · apply List.Pairwise.imp_of_mem (R := fun _ _ => True)
      · intro p q hp hq _
        rw [(hg.fields p hp).1, (hg.fields q hq).1]
      · exact List.pairwise_of_forall (fun _ _ => trivial)
    · intro r hr r' hr'
      rw [(hg.fields r hr).1]
      obtain ⟨g', hg', hrg⟩ := List.mem_flatten.1 hr'
      obtain ⟨i, hi⟩ := List.getElem?_of_mem hg'
      obtain ⟨hi', e⟩ := List.getElem?_eq_some_iff.1 hi
      have hl := htail.length_eq
      have hR := List.Forall₂.get htail (i := i) (by omega) hi'
      simp only [List.get_eq_getElem] at hR
      rw [e] at hR
      rw [(hR.fields r' hrg).1]
      exact m1 _ (List.getElem_mem _)

/-! ## C39 -/

/-- The rows to show: the first `n` for a positive count, the last `n` for a negative count `-n`,
all for zero. -/
def Spec.selectRows (count : Int) (rows : List RegEntry) : List RegEntry :=
  if count > 0 then rows.take count.toNat
  else if count < 0 then (rows.reverse.take (-count).toNat).reverse
  else rows

theorem countRows_eq (count : Int) (rows : List RegEntry) : countRows count rows = Spec.selectRows count rows := by
  unfold countRows Spec.selectRows
  by_cases hp : count > 0
  · simp only [if_pos hp]
    rw [if_neg (by omega)]
    by_cases hl : (rows.length : Int) > count
    · rw [if_pos ⟨hp, hl⟩]
    · rw [if_neg (fun h => hl h.2), List.take_of_length_le (by omega)]
  · have e : (if count > 0 ∧ (rows.length : Int) > count then rows.take count.toNat else rows) = rows := if_neg (fun h => hp h.1)
    simp only [if_neg hp, e]
    by_cases hn : count < 0
    · rw [if_pos hn]
      rw [List.take_reverse, List.reverse_reverse]
      by_cases hl : (rows.length : Int) > -1 * count
      · rw [if_pos ⟨hn, hl⟩]
        congr 1
        omega
      · rw [if_neg (fun h => hl h.2)]
        rw [show rows.length - (-count).toNat = 0 by omega, List.drop_zero]
    · rw [if_neg hn, if_neg (fun h => hn h.1)]

/-- C39, ascending order: the count is honoured exactly and no row is nil.  Missing: descending
order, where the claim is false (below). -/
theorem c39_ascending_partial (count : Int) (rows : List RegEntry) :
    showRows count true rows = (Spec.selectRows count rows).map some := by
  unfold showRows orderRows
  rw [if_pos rfl, countRows_eq]

/-- C39 is false of the code in descending order, for every non-empty selection: the reversal
loop stops half-way, so the first row shown is a nil entry (and showing it crashes). -/
theorem c39_descending_fails (count : Int) (rows : List RegEntry) (h : Spec.selectRows count rows ≠ []) :
    none ∈ showRows count false rows ∧
    showRows count false rows ≠ ((Spec.selectRows count rows).reverse).map some := by
  have hn : none ∈ showRows count false rows := by
    unfold showRows orderRows
    rw [if_neg (by simp), countRows_eq]
    have hl : 0 < (Spec.selectRows count rows).length := List.length_pos_iff.2 h
    refine List.mem_map.2 ⟨0, List.mem_range.2 hl, ?_⟩
    rw [if_neg (by omega)]
  refine ⟨hn, ?_⟩
  intro e
  rw [e] at hn
  obtain ⟨x, _, hx⟩ := List.mem_map.1 hn
  cases hx

/-! ## C71, C72 -/

/-- C71 is false of the code for every compacted transaction (no zero amounts) — there is no
exit from the loop, so `InferRates` never returns. -/
theorem c71_inferRates_fails (t : Txn) (hz : ∀ p ∈ t, p.val ≠ 0) (base : Str) (fuel : Nat) :
    inferRatesLoop t base fuel 0 1 = none := by
  have gen : ∀ (f last i : Nat), last < i → (i ≤ t.length ∨ i = last + 1) → inferRatesLoop t base f last i = none := by
    intro f
    induction f with
    | zero => intro _ _ _ _; rfl
    | succ f ih =>
      intro last i hli hlen
      have hn := ih i (i + 1) (by omega) (Or.inr rfl)
      unfold inferRatesLoop
      split
      · exact ih _ _ (by omega) (by omega)
      · split
        · rename_i h2
          have ha : t[i - 1]? = some (t[i - 1]'(by omega)) := List.getElem?_eq_getElem (by omega)
          have hb : t[i - 2]? = some (t[i - 2]'(by omega)) := List.getElem?_eq_getElem (by omega)
          have h1 := hz _ (List.mem_of_getElem? ha)
          have h2 := hz _ (List.mem_of_getElem? hb)
          rw [ha, hb]
          simp only [h1, h2, if_false, hn, ite_self]
        · exact hn
  exact gen fuel 0 1 (by omega) (Or.inr rfl)

/-- C72: on a compacted transaction, `InferRate(base, unit)` never panics, returns the rate
`-base amount / unit amount` of the first account whose first two postings exchange `base`
and `unit` in opposite directions, and nil if there is none. -/
theorem c72_inferRate (srt : List Posting → List Posting) (hs : IsSort srt) (today : Int) (b : Book)
    (hr : Reachable srt today b) (t : Txn) (ht : t ∈ b.transactions srt) (base unit : Str) (hbu : base ≠ unit) :
    ∃ o, inferRate t base unit = some o ∧ FirstExchange t base unit o :=
  inferRate_spec (goodTxns hs hr t ht).nonzero hbu

/-- C72: the inferred rate is positive. -/
theorem c72_rate_positive (t : Txn) (base unit : Str) (r : Rat) (h : FirstExchange t base unit (some r)) : 0 < r := by
  obtain ⟨k, ⟨a, b, _, _, _, _, h5, h6⟩, _⟩ := h
  have key : ∀ x y : Rat, x * y < 0 → 0 < -(x / y) := by
    intro x y hxy
    have : x / y < 0 := by
      rcases mul_neg_iff.1 hxy with ⟨p, q⟩ | ⟨p, q⟩
      · exact div_neg_of_pos_of_neg p q
      · exact div_neg_of_neg_of_pos p q
    linarith
  rcases h6 with ⟨_, _, e⟩ | ⟨_, _, e⟩
  · rw [e]; exact key _ _ h5
  · rw [e]; exact key _ _ (by rw [mul_comm]; exact h5)

/-! ## Concrete cases -/

/-- A split payment and an exchange of 10 U for 20 B in one account. -/
def regCalls : List Call :=
  [.newTransaction 20200105 b!"shop" [], .addPosting b!"Cash" b!"U" (-10) [], .addPosting b!"Food" b!"U" 6 [],
   .addPosting b!"Fun" b!"U" 4 [],
   .newTransaction 20200107 b!"fx" [], .addPosting b!"Cash" b!"U" 10 [], .addPosting b!"Cash" b!"B" (-20) [],
   .addPosting b!"Eq" b!"U" (-10) [], .addPosting b!"Eq" b!"B" 20 []]

/-- Its book. -/
def regBook : Book :=
  match (Builder.new.calls regCalls).bind (Builder.build insSort) with
  | some b => b
  | none => ⟨[], [], [], []⟩

theorem regBook_from : FromCalls insSort 0 regCalls regBook := by
  have h : ((Builder.new.calls regCalls).bind (Builder.build insSort)).isSome = true := by decide +kernel
  obtain ⟨b, hb⟩ := Option.isSome_iff_exists.1 h
  obtain ⟨bb, h1, h2⟩ := Option.bind_eq_some_iff.1 hb
  exact ⟨bb, regBook, [], h1, by rw [h2]; unfold regBook; rw [hb], rfl⟩

theorem regBook_reachable : Reachable insSort 0 regBook := by
  obtain ⟨bb, b0, ops, h1, h2, h3⟩ := regBook_from
  exact ⟨regCalls, bb, b0, ops, h1, h2, h3⟩

/-- The hypotheses of C34–C37 hold of it. -/
theorem regBook_prices : ∀ p ∈ reported insSort regBook, p.ccy ≠ b!"B" → regBook.prices.getPrice p.date b!"B" p.ccy ≠ none := by
  decide +kernel

example : ((regBook.extractRegister insSort b!"B" (fun a => decide (a = b!"Cash")) true).map fun rows =>
    rows.map fun r => (r.counterAccount, r.amount, r.ccy, r.balance, r.baseAmount)) =
    some [(b!"Food", -6, b!"U", -6, -6), (b!"Fun", -4, b!"U", -10, -4), (b!"Eq", -20, b!"B", -20, -20), (b!"Eq", 10, b!"U", 0, 20)] := by
  decide +kernel

example : ((regBook.extractRegister insSort b!"B" (fun a => decide (a = b!"Cash")) false).map fun rows =>
    rows.map fun r => (r.counterAccount, r.amount)) =
    some [(b!"Food;Fun", -10), (b!"Eq", -20), (b!"Eq", 10)] := by decide +kernel

example : ((regBook.transactions insSort).map fun t => inferRate t b!"B" b!"U") = [some none, some (some 2)] ∨
    ((regBook.transactions insSort).map fun t => inferRate t b!"B" b!"U") = [some (some 2), some none] := by decide +kernel

example : Spec.selectRows (-2) [⟨1, [], [], [], 1, [], 0, [], [], [], 0, .exact, 0⟩, ⟨2, [], [], [], 1, [], 0, [], [], [], 0, .exact, 0⟩,
    ⟨3, [], [], [], 1, [], 0, [], [], [], 0, .exact, 0⟩] ≠ [] := by decide +kernel

end Verif
