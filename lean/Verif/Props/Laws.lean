import Verif.Proofs.Laws
import Verif.Props.OpText
import Verif.Props.Period

/-! # C123: operations whose order does not matter -/

namespace Verif
open Spec

theorem compact_twice {srt} (hs : IsSort srt) {b : Book} (h : b.Good) : (b.compact srt).compact srt = b.compact srt :=
  c07_read_twice srt srt hs hs b h.1.plain

theorem accumulate_compact {srt} (hs : IsSort srt) {b : Book} (h : b.Good) (toCCY div : Str) (credit : Option (Str → Bool)) (hidden : Str)
    (o : Int → Str → List Str → List Str) :
    (b.compact srt).accumulate srt toCCY div credit hidden o = b.accumulate srt toCCY div credit hidden o := by
  unfold Book.accumulate
  rw [compact_twice hs h, compact_prices]

theorem sumCmd_compact {e : OpEnv} (hs : IsSort e.srt) (a : AppConf) (r : ReportConf) (o : Int → Str → List Str → List Str) {b : Book} (h : b.Good) :
    sumCmd e a r o (b.compact e.srt) = sumCmd e a r o b := by
  unfold sumCmd Book.transactions
  rw [accumulate_compact hs h, compact_twice hs h]

theorem sumCmd_totals {e : OpEnv} (hs : IsSort e.srt) {a : AppConf} (hd : a.divider ≠ []) (r : ReportConf) (ht : r.typ ≠ b!"Beancount")
    {o o' : Int → Str → List Str → List Str} (ho : ∀ d py l, (o d py l).Perm l) (ho' : ∀ d py l, (o' d py l).Perm l) {c c' : Book} (h : SameTotals c c') :
    EndsLike (SameReport r) (sumCmd e a r o c) (sumCmd e a r o' c') := by
  rw [← sumCmd_compact hs a r o h.good, ← sumCmd_compact hs a r o' h.good']
  exact sumCmd_like (srt' := e.srt) hs hs hd r ht ho ho' (compact_alike hs hs h)

theorem convert_totals {base : Str} {b b' c c' : Book} (h : SameTotals b b') (h1 : convertBook base b = some c) (h2 : convertBook base b' = some c') :
    SameTotals c c' := by
  unfold convertBook at h1 h2
  split at h1 <;> cases h1
  split at h2 <;> cases h2
  refine ⟨good_op insSort_isSort h.good (o := .mapAmount _) (today := 0) rfl, good_op insSort_isSort h.good' (o := .mapAmount _) (today := 0) rfl, h.prices, fun u => ?_⟩
  have hw : ∀ (g : Int → Str → Rat × Str) (l : List Posting), wsum (wt u) (l.map (mapAmountPost g)) = wsum (wt fun D P A C => u D P A (g D C).2 * (g D C).1) l := by
    intro g l
    refine wsum_map _ _ _ (fun p => ?_) _
    simp only [wt, mapAmountPost]
    ring
  show wsum (wt u) (b.post.map _) = wsum (wt u) (b'.post.map _)
  rw [hw, hw, h.prices, h.totals]

theorem ends_produced {α : Type} {R : α → α → Prop} {x y : CmdEnd α} (h : EndsLike R x y) : ∀ a b, x = .ok a → y = .ok b → R a b := by
  rintro a b rfl rfl
  exact h

theorem report_totals {e : OpEnv} (hs : IsSort e.srt) {a : AppConf} (hd : a.divider ≠ []) (r : ReportConf) {o o' : Int → Str → List Str → List Str}
    (ho : ∀ d py l, (o d py l).Perm l) (ho' : ∀ d py l, (o' d py l).Perm l) {b b' : Book} (h : SameTotals b b') :
    SameShown r (reportTxns e a r o b) (reportTxns e a r o' b') := by
  unfold SameShown reportTxns
  by_cases ht : r.typ = b!"Beancount"
  · rw [if_pos ht, if_pos ht]
    have : SameReport r (b.transactions e.srt) (b'.transactions e.srt) := by
      unfold SameReport
      rw [if_neg (fun e => e.2 ht)]
      exact forall₂_alikes.1 (compact_alike hs hs h).2.2.trans
    exact ⟨fun ts ts' h1 h2 => by cases h1; cases h2; exact this, fun _ => this⟩
  rw [if_neg ht, if_neg ht]
  by_cases hc : r.combineby ≠ b!"skip"
  · rw [if_pos hc, if_pos hc]
    have h1 : GoodPair (b.splitBy e.srt e.today r.combineby) (b'.splitBy e.srt e.today r.combineby) := by
      rcases prim_totals hs (.combine r.combineby) h with ⟨h1, _⟩ | ⟨c, c', h1, h2, h3⟩
      · cases h1
      · cases h1; cases h2
        have := compact_alike hs hs h3
        have hpl : ∀ (b : Book), b.Good → ∀ p ∈ b.post.map (fun p => { p with date := floorBy e.today p.date r.combineby, payee := [] } : Posting → Posting), Plain p := by
          intro b hb p hp
          obtain ⟨q, hq, rfl⟩ := List.mem_map.1 hp
          exact hb.1.plain q hq
        have ht : ∀ b : Book, b.Good → (b.splitBy e.srt e.today r.combineby).compact e.srt = b.splitBy e.srt e.today r.combineby := fun b hb =>
          c07_read_twice e.srt e.srt hs hs _ (hpl b hb)
        rw [ht b h.good, ht b' h.good'] at this
        exact this
    have := EndsLike.bind (convert_like (a := a) (cv := r.convert) h1) fun c c' hcc => sumCmd_like (srt' := e.srt) hs hs hd r ht ho ho' hcc
    exact ⟨ends_produced this, fun _ => this⟩
  · rw [if_neg hc, if_neg hc]
    cases hcv : r.convert with
    | false =>
      have := sumCmd_totals hs hd r ht ho ho' h
      exact ⟨ends_produced this, fun _ => this⟩
    | true =>
      refine ⟨fun ts ts' h1 h2 => ?_, fun h => ?_⟩
      · unfold convertCmd at h1 h2
        simp only [if_true] at h1 h2
        by_cases hb : a.baseCCY = []
        · rw [if_pos hb] at h1; cases h1
        rw [if_neg hb] at h1 h2
        cases x1 : convertBook a.baseCCY b with
        | none => rw [x1] at h1; cases h1
        | some c =>
          cases x2 : convertBook a.baseCCY b' with
          | none => rw [x2] at h2; cases h2
          | some c' =>
            rw [x1] at h1
            rw [x2] at h2
            exact ends_produced (sumCmd_totals hs hd r ht ho ho' (convert_totals h x1 x2)) _ _ h1 h2
      · rcases h with h | h | h
        · exact absurd h ht
        · cases h
        · exact absurd h hc

/-! ## Lists of operations -/

theorem runAll_append (f : Str → Book → OpEnd) (l m : List Str) (b : Book) : runAll f (l ++ m) b =
    match runAll f l b with
    | .ok c => runAll f m c
    | x => x := by
  induction l generalizing b with
  | nil => rfl
  | cons x l ih =>
    simp only [List.cons_append, runAll]
    cases f x b with
    | ok c => exact ih c
    | err _ _ => rfl
    | panic => rfl
    | diverge => rfl

theorem opsCmd_append (e : OpEnv) (fuel : Nat) (a : AppConf) (l m : List Str) (b : Book) :
    opsCmd e fuel a (l ++ m) b = (opsCmd e fuel a l b).bind (opsCmd e fuel a m) := by
  unfold opsCmd bookOps
  rw [runAll_append]
  cases runAll (fun op b => (bookOp e a.macros fuel op b).wrap op) l b <;> rfl

theorem opsCmd_one {e : OpEnv} {fuel : Nat} {a : AppConf} {x : Str} (hm : a.macros x = none) {p : Prim} (hp : parsePrim e x = some p) (b : Book) :
    opsCmd e (fuel + 1) a [x] b = .orCrash (p.apply e b) := by
  simp only [opsCmd, bookOps, runAll, bookOp, hm, primOp, hp]
  cases p.apply e b <;> rfl

theorem bind_bind {α β γ : Type} (x : CmdEnd α) (f : α → CmdEnd β) (g : β → CmdEnd γ) : (x.bind f).bind g = x.bind fun a => (f a).bind g := by
  cases x <;> rfl

/-- Reports whose lists of operations have the same beginning and the same end. -/
theorem reports_middle (le : Env) (depth : Nat) {e : OpEnv} (hs : IsSort e.srt) (fuel : Nat) {a : AppConf} (hd : a.divider ≠ []) (r : ReportConf)
    {o o' : Int → Str → List Str → List Str} (ho : ∀ d py l, (o d py l).Perm l) (ho' : ∀ d py l, (o' d py l).Perm l) (before after xs ys : List Str)
    (h : ∀ b0 b, loadCmd le depth e.srt a = .ok b0 → opsCmd e fuel a before b0 = .ok b →
      EndsLike SameTotals (opsCmd e fuel a xs b) (opsCmd e fuel a ys b)) :
    SameShown r (reportCmd le depth e fuel a r o (before ++ (xs ++ after))) (reportCmd le depth e fuel a r o' (before ++ (ys ++ after))) := by
  unfold reportCmd
  have hrefl : ∀ x : CmdEnd (List Txn), (∀ ts, x ≠ .ok ts) → SameShown r x x := by
    intro x hx
    refine ⟨fun ts ts' h1 => absurd h1 (hx ts), fun _ => ?_⟩
    cases x with
    | ok ts => exact absurd rfl (hx ts)
    | _ => trivial
  cases h0 : loadCmd le depth e.srt a with
  | ok b0 =>
    show SameShown r ((opsCmd e fuel a _ b0).bind _) ((opsCmd e fuel a _ b0).bind _)
    rw [opsCmd_append, opsCmd_append, bind_bind, bind_bind]
    cases h1 : opsCmd e fuel a before b0 with
    | ok b =>
      show SameShown r ((opsCmd e fuel a _ b).bind _) ((opsCmd e fuel a _ b).bind _)
      rw [opsCmd_append, opsCmd_append]
      have h2 := EndsLike.bind (h b0 b h0 h1) fun c c' hc => ops_totals hs fuel a after hc
      generalize (opsCmd e fuel a xs b).bind (opsCmd e fuel a after) = x at h2
      generalize (opsCmd e fuel a ys b).bind (opsCmd e fuel a after) = y at h2
      cases x <;> cases y <;> first | exact h2.elim | skip
      · exact report_totals hs hd r ho ho' h2
      all_goals exact hrefl _ (by simp [CmdEnd.bind])
    | _ => exact hrefl _ (by simp [CmdEnd.bind])
  | _ => exact hrefl _ (by simp [CmdEnd.bind])

theorem pull_comm (e : OpEnv) {p q : Prim} (h : Independent p q) (u : Weight) : pull e p (pull e q u) = pull e q (pull e p u) := by
  induction h with
  | days hp hq =>
    cases hp <;> cases hq <;> (funext D P A C; simp only [pull]; split_ifs <;> rfl)
  | daysAccounts hp hq =>
    cases hp <;> cases hq <;> (funext D P A C; simp only [pull]; try (split_ifs <;> ring))
  | daysCurrency hp => cases hp <;> rfl
  | periodsAccounts hq => cases hq <;> rfl
  | periodsCurrency => rfl
  | accountsCurrency hp => cases hp <;> rfl
  | depreciationCurrency => rfl
  | symm _ ih => exact ih.symm

theorem prices_comm (e : OpEnv) {p q : Prim} (h : Independent p q) (x : PriceBook) : pricesTo e p (pricesTo e q x) = pricesTo e q (pricesTo e p x) := by
  induction h with
  | days hp hq => cases hp <;> cases hq <;> rfl
  | daysAccounts hp hq => cases hp <;> cases hq <;> rfl
  | daysCurrency hp => cases hp <;> rfl
  | periodsAccounts hq => cases hq <;> rfl
  | periodsCurrency => rfl
  | accountsCurrency hp => cases hp <;> rfl
  | depreciationCurrency => rfl
  | symm _ ih => exact ih.symm

/-- Two operations, one after the other. -/
theorem two_ops {e : OpEnv} {fuel : Nat} {a : AppConf} {x y : Str} (hx : a.macros x = none) (hy : a.macros y = none) {p q : Prim}
    (hp : parsePrim e x = some p) (hq : parsePrim e y = some q) (b : Book) :
    opsCmd e (fuel + 1) a [x, y] b = (CmdEnd.orCrash (p.apply e b)).bind fun c => .orCrash (q.apply e c) := by
  have := opsCmd_append e (fuel + 1) a [x] [y] b
  rw [List.singleton_append, opsCmd_one hx hp] at this
  rw [this]
  congr 1
  funext c
  exact opsCmd_one hy hq c

/-- From any book, two operations that concern different things lead to the same totals in either order. -/
theorem swap_mid {e : OpEnv} (hs : IsSort e.srt) (fuel : Nat) {a : AppConf} {x y : Str} (hx : a.macros x = none) (hy : a.macros y = none) {p q : Prim}
    (hp : parsePrim e x = some p) (hq : parsePrim e y = some q) (h : Independent p q) {b : Book} (hg : b.Good) :
    EndsLike SameTotals (opsCmd e fuel a [x, y] b) (opsCmd e fuel a [y, x] b) := by
  cases fuel with
  | zero => trivial
  | succ fuel =>
    rw [two_ops hx hy hp hq, two_ops hy hx hq hp]
    cases x1 : p.apply e b with
    | none =>
      show EndsLike SameTotals .crash _
      cases y1 : q.apply e b with
      | none => trivial
      | some c => show EndsLike SameTotals .crash (.orCrash (p.apply e c)); rw [prim_none x1 c]; trivial
    | some c =>
      show EndsLike SameTotals (.orCrash (q.apply e c)) _
      cases y1 : q.apply e b with
      | none => rw [prim_none y1 c]; trivial
      | some d =>
        show EndsLike SameTotals _ (.orCrash (p.apply e d))
        cases x2 : q.apply e c with
        | none => rw [prim_none x2 b] at y1; cases y1
        | some c' =>
          cases y2 : p.apply e d with
          | none => rw [prim_none y2 b] at x1; cases x1
          | some d' =>
            have gc := good_prim hs hg x1
            have gd := good_prim hs hg y1
            refine ⟨good_prim hs gc x2, good_prim hs gd y2, ?_, fun u => ?_⟩
            · rw [prim_prices x2, prim_prices x1, prim_prices y2, prim_prices y1, prices_comm e h]
            · rw [prim_pull hs gc.1 x2, prim_pull hs hg.1 x1, prim_pull hs gd.1 y2, prim_pull hs hg.1 y1, pull_comm e h]

/-- **C123** (a): two operations that concern different things (days, accounts, currencies) can be given in either order, anywhere in a list of operations,
for every kind of report. -/
theorem c123_swap (le : Env) (depth : Nat) (e : OpEnv) (hs : IsSort e.srt) (fuel : Nat) (a : AppConf) (hd : a.divider ≠ []) (r : ReportConf)
    (o o' : Int → Str → List Str → List Str) (ho : ∀ d py l, (o d py l).Perm l) (ho' : ∀ d py l, (o' d py l).Perm l) (before after : List Str) (x y : Str)
    (hx : a.macros x = none) (hy : a.macros y = none) (p q : Prim) (hp : parsePrim e x = some p) (hq : parsePrim e y = some q) (h : Independent p q) :
    SameShown r (reportCmd le depth e fuel a r o (before ++ [x, y] ++ after)) (reportCmd le depth e fuel a r o' (before ++ [y, x] ++ after)) := by
  rw [List.append_assoc, List.append_assoc]
  exact reports_middle le depth hs fuel hd r ho ho' before after [x, y] [y, x] fun b0 b h0 h1 => swap_mid hs fuel hx hy hp hq h (good_ops hs (good_load hs h0) h1)

/-! ## Days -/

theorem first_of {y m : Int} (hy : 1 ≤ y) (hm : 1 ≤ m) (hm2 : m ≤ 12) : IsDate (YMD.code ⟨y, m, 1⟩) := ⟨_, first_valid hy hm hm2, rfl⟩

theorem next_month_real (today : Int) {d : Int} (h : IsDate d) : IsDate (floorDiff today d b!"monthly" 1) := by
  obtain ⟨t, ht, rfl⟩ := h
  have := c24_floorDiff_moves_k_periods today b!"monthly" (.inr (.inr rfl)) t ht 1
  simp only [show monthsPer b!"monthly" = 1 by decide] at this
  rw [this]
  obtain ⟨h1, h2, h3, _⟩ := ht
  exact first_of (by omega) (by omega) (by omega)

theorem floor_real {today : Int} (ht : IsDate today) (by_ : Str) {d : Int} (h : IsDate d) : IsDate (floorBy today d by_) := by
  by_cases hb : properPeriod by_
  · obtain ⟨t, htv, rfl⟩ := h
    exact (c23_floor_laws today by_ hb t t htv htv).1
  · unfold properPeriod at hb
    rw [not_or, not_or] at hb
    unfold floorBy floorDiff
    rw [if_neg hb.1, if_neg hb.2.1, if_neg hb.2.2]
    split
    · exact ht
    · exact h

/-- Nothing is booked on a day that is none. -/
def RealTotals (b : Book) : Prop := ∀ u : Weight, (∀ D P A C, IsDate D → u D P A C = 0) → wsum (wt u) b.post = 0

theorem realTotals_of {srt} (hs : IsSort srt) {b : Book} (hb : b.Good) (h : ∀ p ∈ reported srt b, IsDate p.date) : RealTotals b := by
  intro u hu
  rw [← wsum_reported hs (wt_key u) hb.1, wsum_congr (w := wt u) (w' := fun _ => 0) (fun p hp => hu _ _ _ _ (h p hp)), wsum_const, zero_mul]

theorem prim_real {e : OpEnv} (hs : IsSort e.srt) (ht : IsDate e.today) {p : Prim} {b c : Book} (hb : b.WF) (h : p.apply e b = some c) (hr : RealTotals b) :
    RealTotals c := by
  intro u hu
  rw [prim_pull hs hb h]
  apply hr
  intro D P A C hD
  cases p with
  | mapccy s r => exact hu _ _ _ _ hD
  | map s r alt => exact hu _ _ _ _ hD
  | move s a f => simp only [pull, hu _ _ _ _ hD]; simp
  | asof d => simp only [pull, hu _ _ _ _ hD]; simp
  | since d => simp only [pull, hu _ _ _ _ hD]; simp
  | combine t => exact hu _ _ _ _ (floor_real ht t hD)
  | depreciate s a n =>
    have hi : ∀ (A A' : Str) (k : Nat) (d : Int), IsDate d → instWeight e.today b!"monthly" n (fun d => u d P A' C) (fun d => u d P A C) k d = 0 := by
      intro A A' k
      induction k with
      | zero => intro d _; rfl
      | succ k ih => intro d hd; simp only [instWeight, hu _ _ _ _ hd, ih _ (next_month_real e.today hd)]; simp
    simp only [pull, hu _ _ _ _ hD, hi _ _ _ _ hD]; simp

theorem runAll_real {f : Str → Book → OpEnd} (hf : ∀ o b c, b.Good → RealTotals b → f o b = .ok c → c.Good ∧ RealTotals c) :
    ∀ (os : List Str) (b c : Book), b.Good → RealTotals b → runAll f os b = .ok c → c.Good ∧ RealTotals c := by
  intro os
  induction os with
  | nil => intro b c hg hr h; cases h; exact ⟨hg, hr⟩
  | cons o os ih =>
    intro b c hg hr h
    simp only [runAll] at h
    cases hx : f o b with
    | ok d =>
      rw [hx] at h
      obtain ⟨h1, h2⟩ := hf o b d hg hr hx
      exact ih d c h1 h2 h
    | err _ _ => rw [hx] at h; cases h
    | panic => rw [hx] at h; cases h
    | diverge => rw [hx] at h; cases h

theorem bookOp_real {e : OpEnv} (hs : IsSort e.srt) (ht : IsDate e.today) (mac : Str → Option (List Str)) :
    ∀ (n : Nat) (op : Str) (b c : Book), b.Good → RealTotals b → bookOp e mac n op b = .ok c → c.Good ∧ RealTotals c := by
  intro n
  induction n with
  | zero => intro op b c _ _ h; cases h
  | succ n ih =>
    intro op b c hg hr h
    simp only [bookOp] at h
    cases hm : mac op with
    | some ms => rw [hm] at h; exact runAll_real ih ms b c hg hr (opWrap_ok h)
    | none =>
      simp only [hm, primOp] at h
      cases hp : parsePrim e op with
      | none => rw [hp] at h; cases h
      | some p =>
        simp only [hp] at h
        cases hx : p.apply e b with
        | none => rw [hx] at h; cases h
        | some d => rw [hx] at h; cases h; exact ⟨good_prim hs hg hx, prim_real hs ht hg.1 hx hr⟩

theorem ops_real {e : OpEnv} (hs : IsSort e.srt) (ht : IsDate e.today) {fuel : Nat} {a : AppConf} {args : List Str} {b c : Book} (hg : b.Good)
    (hr : RealTotals b) (h : opsCmd e fuel a args b = .ok c) : RealTotals c := by
  unfold opsCmd at h
  split at h <;> cases h
  rename_i h
  exact (runAll_real (fun o b c hg hr h => bookOp_real hs ht a.macros fuel o b c hg hr (opWrap_ok h)) args b c hg hr h).2

theorem real_congr {b : Book} (h : RealTotals b) {u v : Weight} (huv : ∀ D P A C, IsDate D → u D P A C = v D P A C) : wsum (wt u) b.post = wsum (wt v) b.post := by
  have := h (fun D P A C => u D P A C - v D P A C) (fun D P A C hD => by rw [huv D P A C hD, sub_self])
  have h2 : wsum (wt fun D P A C => u D P A C - v D P A C) b.post + wsum (wt v) b.post = wsum (wt u) b.post := by
    rw [wsum_add]
    refine wsum_congr fun p _ => ?_
    simp only [wt]
    ring
  rw [this, zero_add] at h2
  exact h2.symm

theorem quarter_valid {t : YMD} (h : t.Valid) : t.quarterStart.Valid := by
  obtain ⟨h1, _⟩ := h
  unfold YMD.quarterStart
  refine first_valid h1 ?_ ?_ <;> split_ifs <;> omega

theorem parse_days {e : OpEnv} {x : Str} {d : Int} (h : parsePrim e x = some (.asof d) ∨ parsePrim e x = some (.since d)) : d ≠ 0 := by
  unfold parsePrim at h
  cases hp : opPrefix x with
  | none => simp only [hp] at h; rcases h with h | h <;> cases h
  | some ta =>
    simp only [hp] at h
    split_ifs at h
    all_goals rcases h with h | h
    all_goals first
      | exact h.elim
      | (simp only [Option.map_eq_some_iff, Option.bind_eq_some_iff, reduceCtorEq, and_false, exists_false] at h; done)
      | (simp only [Option.some.injEq, reduceCtorEq] at h; done)
      | (simp only [Option.some.injEq, Prim.asof.injEq, Prim.since.injEq] at h; rw [← h]; assumption)

theorem floor_finer {today : Int} {u v : Str} (h : Finer u v) {d : Int} (hd : IsDate d) : floorBy today (floorBy today d u) v = floorBy today d v := by
  have hnone : ∀ d, floorBy today d b!"none" = d := fun d => rfl
  have htoday : ∀ d, floorBy today d b!"today" = today := fun d => rfl
  obtain ⟨t, ht, rfl⟩ := hd
  obtain ⟨ey, eq, em⟩ := c23_floor_is_period_start today t ht
  have hv : t.Valid := ht
  obtain ⟨h1, h2, h3, _⟩ := ht
  cases h with
  | same ht =>
    simp only [List.mem_cons, List.not_mem_nil, or_false] at ht
    rcases ht with rfl | rfl | rfl | rfl | rfl
    · exact (c23_floor_laws today _ (.inr (.inr rfl)) t t hv hv).2.2.2.1
    · exact (c23_floor_laws today _ (.inr (.inl rfl)) t t hv hv).2.2.2.1
    · exact (c23_floor_laws today _ (.inl rfl) t t hv hv).2.2.2.1
    · rfl
    · rfl
  | monthQuarter =>
    rw [em, eq, (c23_floor_is_period_start today t.monthStart (first_valid h1 h2 h3)).2.1]; rfl
  | monthYear =>
    rw [em, ey, (c23_floor_is_period_start today t.monthStart (first_valid h1 h2 h3)).1]; rfl
  | quarterYear =>
    rw [eq, ey, (c23_floor_is_period_start today t.quarterStart (quarter_valid hv)).1]; rfl
  | today _ => rw [htoday, htoday]
  | none _ => rw [hnone]

/-- **C123** (b): combining by a period that lies within a later one changes nothing: `combine=monthly combine=yearly` is `combine=yearly`. -/
theorem c123_combine (le : Env) (depth : Nat) (e : OpEnv) (hs : IsSort e.srt) (ht : IsDate e.today) (fuel : Nat) (a : AppConf) (hd : a.divider ≠ [])
    (r : ReportConf) (o o' : Int → Str → List Str → List Str) (ho : ∀ d py l, (o d py l).Perm l) (ho' : ∀ d py l, (o' d py l).Perm l)
    (hreal : ∀ b, loadCmd le depth e.srt a = .ok b → ∀ p ∈ reported e.srt b, IsDate p.date) (before after : List Str) (x y : Str)
    (hx : a.macros x = none) (hy : a.macros y = none) (u v : Str) (hp : parsePrim e x = some (.combine u)) (hq : parsePrim e y = some (.combine v))
    (h : Finer u v) :
    SameShown r (reportCmd le depth e fuel a r o (before ++ [x, y] ++ after)) (reportCmd le depth e fuel a r o' (before ++ [y] ++ after)) := by
  rw [List.append_assoc, List.append_assoc]
  refine reports_middle le depth hs fuel hd r ho ho' before after [x, y] [y] fun b0 b h0 h1 => ?_
  cases fuel with
  | zero => trivial
  | succ fuel =>
    have g0 := good_load hs h0
    have hg : b.Good := good_ops hs g0 h1
    have hr : RealTotals b := ops_real hs ht g0 (realTotals_of hs g0 (hreal b0 h0)) h1
    rw [two_ops hx hy hp hq, opsCmd_one hy hq]
    have x1 : (Prim.combine u).apply e b = some (b.splitBy e.srt e.today u) := rfl
    have x2 : (Prim.combine v).apply e (b.splitBy e.srt e.today u) = some ((b.splitBy e.srt e.today u).splitBy e.srt e.today v) := rfl
    have y1 : (Prim.combine v).apply e b = some (b.splitBy e.srt e.today v) := rfl
    have gc := good_prim hs hg x1
    show SameTotals _ _
    refine ⟨good_prim hs gc x2, good_prim hs hg y1, ?_, fun w => ?_⟩
    · rw [prim_prices x2, prim_prices x1, prim_prices y1]; rfl
    · rw [prim_pull hs gc.1 x2, prim_pull hs hg.1 x1, prim_pull hs hg.1 y1]
      refine real_congr hr fun D P A C hD => ?_
      show w (floorBy e.today (floorBy e.today D u) v) [] A C = w (floorBy e.today D v) [] A C
      rw [floor_finer h hD]

theorem floor_begins {today : Int} {t : Str} {d : Int} (h : Begins t d) {D : Int} (hD : IsDate D) : floorBy today D t < d ↔ D < d := by
  obtain ⟨x, hx, rfl⟩ := hD
  have key : ∀ (s : YMD), s.Valid → properPeriod t → floorBy today s.code t = s.code → (floorBy today x.code t < s.code ↔ x.code < s.code) := by
    intro s hs hp hfix
    obtain ⟨_, h2, _, _, _⟩ := c23_floor_laws today t hp x x hx hx
    obtain ⟨_, _, _, _, h5⟩ := c23_floor_laws today t hp s x hs hx
    constructor
    · intro hlt
      by_contra hc
      have := h5 (by omega)
      omega
    · intro; omega
  rcases h with ⟨rfl, y, hy, rfl⟩ | ⟨rfl, y, hy, rfl⟩ | ⟨rfl, y, hy, rfl⟩ | rfl
  · obtain ⟨h1, h2, h3, _⟩ := hy
    have hv : y.monthStart.Valid := first_valid h1 h2 h3
    exact key _ hv (.inr (.inr rfl)) (c23_floor_is_period_start today _ hv).2.2
  · obtain ⟨h1, h2, h3, _⟩ := hy
    have hv : y.quarterStart.Valid := quarter_valid ⟨h1, h2, h3, ‹_›⟩
    refine key _ hv (.inr (.inl rfl)) ?_
    rw [(c23_floor_is_period_start today _ hv).2.1]
    congr 1
    simp only [YMD.quarterStart]
    split_ifs <;> first | rfl | (exfalso; omega)
  · obtain ⟨h1, h2, h3, _⟩ := hy
    have hv : y.yearStart.Valid := first_valid h1 (by omega) (by omega)
    exact key _ hv (.inl rfl) (c23_floor_is_period_start today _ hv).1
  · rfl

/-- **C123** (c): transactions can be chosen by date before or after combining them, if the date is the first day of a period. -/
theorem c123_period (le : Env) (depth : Nat) (e : OpEnv) (hs : IsSort e.srt) (ht : IsDate e.today) (fuel : Nat) (a : AppConf) (hd : a.divider ≠ [])
    (r : ReportConf) (o o' : Int → Str → List Str → List Str) (ho : ∀ d py l, (o d py l).Perm l) (ho' : ∀ d py l, (o' d py l).Perm l)
    (hreal : ∀ b, loadCmd le depth e.srt a = .ok b → ∀ p ∈ reported e.srt b, IsDate p.date) (before after : List Str) (x y : Str)
    (hx : a.macros x = none) (hy : a.macros y = none) (t : Str) (d : Int) (q : Prim) (hp : parsePrim e x = some (.combine t)) (hq : parsePrim e y = some q)
    (hqd : q = .asof d ∨ q = .since d) (h : Begins t d) :
    SameShown r (reportCmd le depth e fuel a r o (before ++ [x, y] ++ after)) (reportCmd le depth e fuel a r o' (before ++ [y, x] ++ after)) := by
  rw [List.append_assoc, List.append_assoc]
  refine reports_middle le depth hs fuel hd r ho ho' before after [x, y] [y, x] fun b0 b h0 h1 => ?_
  cases fuel with
  | zero => trivial
  | succ fuel =>
    have g0 := good_load hs h0
    have hg : b.Good := good_ops hs g0 h1
    have hr : RealTotals b := ops_real hs ht g0 (realTotals_of hs g0 (hreal b0 h0)) h1
    rw [two_ops hx hy hp hq, two_ops hy hx hq hp]
    have hone : ∀ b, ∃ c, q.apply e b = some c := by
      intro b
      rcases hqd with rfl | rfl <;> exact ⟨_, rfl⟩
    have hpr : ∀ q', pricesTo e q q' = q' := by
      intro q'
      rcases hqd with rfl | rfl <;> rfl
    obtain ⟨c', x2⟩ := hone (b.splitBy e.srt e.today t)
    obtain ⟨c, y1⟩ := hone b
    have x1 : (Prim.combine t).apply e b = some (b.splitBy e.srt e.today t) := rfl
    have y2 : (Prim.combine t).apply e c = some (c.splitBy e.srt e.today t) := rfl
    rw [x1, y1]
    show EndsLike SameTotals (.orCrash (q.apply e (b.splitBy e.srt e.today t))) (.orCrash ((Prim.combine t).apply e c))
    rw [x2, y2]
    have gc := good_prim hs hg x1
    have gd := good_prim hs hg y1
    refine ⟨good_prim hs gc x2, good_prim hs gd y2, ?_, fun w => ?_⟩
    · rw [prim_prices x2, prim_prices x1, prim_prices y2, prim_prices y1, hpr, hpr]
    · rw [prim_pull hs gc.1 x2, prim_pull hs hg.1 x1, prim_pull hs gd.1 y2, prim_pull hs hg.1 y1]
      refine real_congr hr fun D P A C hD => ?_
      have hb := floor_begins (today := e.today) h hD
      have hb' : d ≤ floorBy e.today D t ↔ d ≤ D := by
        rw [← not_lt, ← not_lt, hb]
      rcases hqd with rfl | rfl
      · simp only [pull, hb]
      · simp only [pull, hb']

/-- From any book, the stricter of two dates leads to the same totals as both. -/
theorem dates_mid {e : OpEnv} (hs : IsSort e.srt) (fuel : Nat) {a : AppConf} {x y : Str} (hx : a.macros x = none) (hy : a.macros y = none) {p q : Prim}
    (hp : parsePrim e x = some p) (hq : parsePrim e y = some q) (d d' : Int)
    (h : (p = .asof d ∧ q = .asof d' ∧ d ≤ d') ∨ (p = .since d ∧ q = .since d' ∧ d' ≤ d)) {b : Book} (hg : b.Good) :
    EndsLike SameTotals (opsCmd e fuel a [x, y] b) (opsCmd e fuel a [x] b) := by
  have hdd : d ≠ 0 ∧ d' ≠ 0 := by
    rcases h with ⟨rfl, rfl, _⟩ | ⟨rfl, rfl, _⟩
    · exact ⟨parse_days (.inl hp), parse_days (.inl hq)⟩
    · exact ⟨parse_days (.inr hp), parse_days (.inr hq)⟩
  cases fuel with
  | zero => trivial
  | succ fuel =>
    rw [two_ops hx hy hp hq, opsCmd_one hx hp]
    have hone : ∀ b, (∃ c, p.apply e b = some c) ∧ ∃ c, q.apply e b = some c := by
      intro b
      rcases h with ⟨rfl, rfl, _⟩ | ⟨rfl, rfl, _⟩ <;> exact ⟨⟨_, rfl⟩, _, rfl⟩
    obtain ⟨⟨c, x1⟩, _⟩ := hone b
    obtain ⟨_, c', x2⟩ := hone c
    rw [x1]
    show EndsLike SameTotals (.orCrash (q.apply e c)) (.ok c)
    rw [x2]
    have gc := good_prim hs hg x1
    refine ⟨good_prim hs gc x2, gc, ?_, fun w => ?_⟩
    · rw [prim_prices x2]
      rcases h with ⟨rfl, rfl, _⟩ | ⟨rfl, rfl, _⟩ <;> rfl
    · rw [prim_pull hs gc.1 x2, prim_pull hs hg.1 x1, prim_pull hs hg.1 x1]
      refine wsum_congr fun z _ => ?_
      rcases h with ⟨rfl, rfl, hle⟩ | ⟨rfl, rfl, hle⟩
      · simp only [wt, pull, hdd.1, hdd.2, false_or]
        split_ifs <;> first | rfl | omega
      · simp only [wt, pull, hdd.1, hdd.2, false_or]
        split_ifs <;> first | rfl | omega

/-- **C123** (d): of two end dates (two start dates) the stricter one counts. -/
theorem c123_dates (le : Env) (depth : Nat) (e : OpEnv) (hs : IsSort e.srt) (fuel : Nat) (a : AppConf) (hd : a.divider ≠ []) (r : ReportConf)
    (o o' : Int → Str → List Str → List Str) (ho : ∀ d py l, (o d py l).Perm l) (ho' : ∀ d py l, (o' d py l).Perm l) (before after : List Str) (x y : Str)
    (hx : a.macros x = none) (hy : a.macros y = none) (p q : Prim) (hp : parsePrim e x = some p) (hq : parsePrim e y = some q) (d d' : Int)
    (h : (p = .asof d ∧ q = .asof d' ∧ d ≤ d') ∨ (p = .since d ∧ q = .since d' ∧ d' ≤ d)) :
    SameShown r (reportCmd le depth e fuel a r o (before ++ [x, y] ++ after)) (reportCmd le depth e fuel a r o' (before ++ [x] ++ after)) := by
  rw [List.append_assoc, List.append_assoc]
  exact reports_middle le depth hs fuel hd r ho ho' before after [x, y] [x] fun b0 b h0 h1 => dates_mid hs fuel hx hy hp hq d d' h (good_ops hs (good_load hs h0) h1)

/-! Non-vacuity: the operations of the four parts, and what they do to `yearFile`. -/

/-- The lines shown of `yearFile` after these operations. -/
def yearLines (args : List Str) : Option (List (List Line)) :=
  (reportCmd (demoEnv [(b!"a", yearFile)]) 1 plainOps 1 demoApp (yearReport false b!"skip") (fun _ _ l => l) args).lines

example : Independent (.combine b!"yearly") (.map b!"A" b!"C" []) ∧ Independent (.mapccy b!"U" b!"V") (.since 20200301) :=
  ⟨.periodsAccounts (.map _ _ _), .symm (.daysCurrency (.since _))⟩

example : (match parsePrim plainOps b!"combine=Monthly", parsePrim plainOps b!"combine=yearly", parsePrim plainOps b!"asof=2020-07" with
      | some (.combine t), some (.combine t'), some (.asof d) => decide (t = b!"monthly" ∧ t' = b!"yearly" ∧ d = 20200701)
      | _, _, _ => false) = true ∧ Begins b!"monthly" 20200701 ∧ Finer b!"monthly" b!"yearly" :=
  ⟨by decide +kernel, .inl ⟨rfl, ⟨2020, 7, 1⟩, by decide, rfl⟩, .monthYear⟩

example : yearLines [b!"combine=monthly", b!"combine=yearly"] = some [[⟨20200101, [], b!"A", b!"U", 11⟩, ⟨20200101, [], b!"B", b!"U", -11⟩]] ∧
    yearLines [b!"combine=yearly"] = yearLines [b!"combine=monthly", b!"combine=yearly"] ∧
    yearLines [b!"combine=monthly", b!"asof=2020-07"] = some [[⟨20200201, [], b!"A", b!"U", 1⟩, ⟨20200201, [], b!"B", b!"U", -1⟩]] ∧
    yearLines [b!"asof=2020-07", b!"combine=monthly"] = yearLines [b!"combine=monthly", b!"asof=2020-07"] ∧
    yearLines [b!"asof=2020-07", b!"asof=2020-08"] = yearLines [b!"asof=2020-07"] := by decide +kernel

/-- Within a period the order does matter. -/
example : yearLines [b!"combine=yearly", b!"asof=2020-07"] = some [[⟨20200101, [], b!"A", b!"U", 11⟩, ⟨20200101, [], b!"B", b!"U", -11⟩]] ∧
    yearLines [b!"asof=2020-07", b!"combine=yearly"] = some [[⟨20200101, [], b!"A", b!"U", 1⟩, ⟨20200101, [], b!"B", b!"U", -1⟩]] := by decide +kernel

/-- On a day that is none (the loader accepts month 13, C26) combining by month and then by year is not combining by year. -/
example : (reportCmd (demoEnv [(b!"a", b!"2020/13/02 Buy\n  A 1 U\n  B -1 U\n")]) 1 plainOps 1 demoApp (yearReport false b!"skip") (fun _ _ l => l)
        [b!"combine=monthly", b!"combine=yearly"]).lines = some [[⟨20210101, [], b!"A", b!"U", 1⟩, ⟨20210101, [], b!"B", b!"U", -1⟩]] ∧
    (reportCmd (demoEnv [(b!"a", b!"2020/13/02 Buy\n  A 1 U\n  B -1 U\n")]) 1 plainOps 1 demoApp (yearReport false b!"skip") (fun _ _ l => l)
        [b!"combine=yearly"]).lines = some [[⟨20200101, [], b!"A", b!"U", 1⟩, ⟨20200101, [], b!"B", b!"U", -1⟩]] := by decide +kernel

end Verif
