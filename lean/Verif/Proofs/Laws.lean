import Verif.Props.Order
import Verif.Props.Date
import Verif.Spec.Laws

/-! Lemmas: what an operation does to the totals of a book, as an operation on weights. -/

namespace Verif
open Spec

/-- A weight of date, payee, account and currency. -/
abbrev Weight := Int → Str → Str → Str → Rat

/-- The weight of a posting. -/
def wt (u : Weight) (p : Posting) : Rat := u p.date p.payee p.acct p.ccy

theorem wt_key (u : Weight) : KeyFun (wt u) := by
  intro p q h
  obtain ⟨h1, h2, h3, h4⟩ := key_eq_iff.1 h
  simp only [wt, h1, h2, h3, h4]

/-- The weight of the instalments of one unit. -/
def instWeight (today : Int) (period : Str) (n : Int) (f g : Int → Rat) : Nat → Int → Rat
  | 0, _ => 0
  | k + 1, d => f d * (-1 / (n : Rat)) + g d * (1 / (n : Rat)) + instWeight today period n f g k (floorDiff today d period 1)

/-- The totals after the operation, as totals before it. -/
def pull (e : OpEnv) : Prim → Weight → Weight
  | .mapccy s r, u => fun D P A C => u D P A (if e.mat s C then e.rep s r C else C)
  | .map s r alt, u => fun D P A C => u D P (regexAccount (e.mat s) (e.rep s r) r alt A) C
  | .move s a f, u => fun D P A C => u D P A C + if e.mat s A then f * (u D P (e.rep s a A) C - u D P A C) else 0
  | .asof d, u => fun D P A C => if d = 0 ∨ D < d then u D P A C else 0
  | .since d, u => fun D P A C => if d = 0 ∨ d ≤ D then u D P A C else 0
  | .combine t, u => fun D _ A C => u (floorBy e.today D t) [] A C
  | .depreciate s a n, u => fun D P A C => u D P A C + if e.mat s A then
      u D P (e.rep s a A) C - u D P A C + instWeight e.today b!"monthly" n (fun d => u d P (e.rep s a A) C) (fun d => u d P A C) n.toNat D else 0

theorem wsum_map (w : Posting → Rat) (f : Posting → Posting) (w' : Posting → Rat) (h : ∀ p, w (f p) * (f p).val = w' p * p.val) (l : List Posting) :
    wsum w (l.map f) = wsum w' l := by
  induction l with
  | nil => rfl
  | cons p l ih => rw [List.map_cons, wsum_cons, wsum_cons, ih, h]

theorem wsum_flatMap (w : Posting → Rat) (f : Posting → List Posting) (w' : Posting → Rat) (h : ∀ p, wsum w (f p) = w' p * p.val) (l : List Posting) :
    wsum w (l.flatMap f) = wsum w' l := by
  induction l with
  | nil => rfl
  | cons p l ih => rw [List.flatMap_cons, wsum_append, wsum_cons, ih, h]

theorem wsum_add (w w' : Posting → Rat) (l : List Posting) : wsum w l + wsum w' l = wsum (fun p => w p + w' p) l := by
  induction l with
  | nil => simp
  | cons p l ih => rw [wsum_cons, wsum_cons, wsum_cons, ← ih]; ring

theorem wsum_filter' (w : Posting → Rat) (Q : Posting → Bool) (l : List Posting) : wsum w (l.filter Q) = wsum (fun p => if Q p then w p else 0) l := by
  induction l with
  | nil => rfl
  | cons p l ih =>
    rw [List.filter_cons]
    by_cases h : Q p = true
    · rw [if_pos h, wsum_cons, wsum_cons, ih, if_pos h]
    · rw [if_neg h, wsum_cons, ih, if_neg h]; ring

theorem wsum_instalments (today : Int) (p : Posting) (na period : Str) (n : Int) (u : Weight) : ∀ (k : Nat) (d : Int),
    wsum (wt u) (instalments today p na period n k d) =
      instWeight today period n (fun d => u d p.payee na p.ccy) (fun d => u d p.payee p.acct p.ccy) k d * p.val := by
  intro k
  induction k with
  | zero => intro d; simp [instalments, instWeight]
  | succ k ih =>
    intro d
    rw [instalments, wsum_cons, wsum_cons, ih, instWeight]
    simp only [wt, Posting.byAcctDateFactor, Posting.dup]
    ring

/-- The books after an operation. -/
theorem prim_pull {e : OpEnv} (hs : IsSort e.srt) {p : Prim} {b c : Book} (hb : b.WF) (h : p.apply e b = some c) (u : Weight) :
    wsum (wt u) c.post = wsum (wt (pull e p u)) b.post := by
  cases p <;> simp only [Prim.apply] at h
  case mapccy s r =>
    split at h <;> cases h
    refine wsum_map _ _ _ (fun p => ?_) _
    simp only [wt, pull, mapAmountPost, regexCCYMap]
    split <;> simp
  case map s r alt =>
    split at h <;> cases h
    unfold Book.regexAccounts Book.mapAccount
    rw [wsum_compact hs (wt_key u)]
    exact wsum_map (wt u) (mapAccountPost _) (wt (pull e (.map s r alt) u)) (fun p => rfl) _
  case move s a f =>
    split at h <;> cases h
    unfold Book.adjustPost
    rw [wsum_compact hs (wt_key u), wsum_append, wsum_flatMap _ _ (fun p => if e.mat s p.acct then f * (u p.date p.payee (e.rep s a p.acct) p.ccy - wt u p) else 0), wsum_add]
    · rfl
    · intro p
      split
      · rw [wsum_cons, wsum_cons, wsum_nil]
        simp only [wt, Posting.byFactor, Posting.byAcctFactor, Posting.byAcctDateFactor, Posting.dup]
        ring
      · simp
  case asof d =>
    cases h
    unfold Book.filterByDateAsof
    split
    · rename_i h0; simp only [pull, h0, true_or, if_true]
    · rename_i h0
      rw [filterTransaction_dates hb (fun x => decide (x < d)), wsum_filter']
      refine wsum_congr fun p _ => ?_
      simp only [pull, wt, h0, false_or, decide_eq_true_eq]
  case since d =>
    cases h
    unfold Book.filterByDateSince
    split
    · rename_i h0; simp only [pull, h0, true_or, if_true]
    · rename_i h0
      rw [filterTransaction_dates hb (fun x => decide (x ≥ d)), wsum_filter']
      refine wsum_congr fun p _ => ?_
      simp only [pull, wt, h0, false_or, decide_eq_true_eq, ge_iff_le]
  case combine t =>
    cases h
    unfold Book.splitBy Book.mapTransaction
    rw [wsum_compact hs (wt_key u)]
    exact wsum_map (wt u) (fun p => { p with date := floorBy e.today p.date t, payee := [] }) (wt (pull e (.combine t) u)) (fun p => rfl) _
  case depreciate s a n =>
    split at h <;> cases h
    unfold Book.depreciate
    rw [wsum_compact hs (wt_key u), wsum_append, wsum_flatMap _ _ (fun p => if e.mat s p.acct then
      u p.date p.payee (e.rep s a p.acct) p.ccy - wt u p + instWeight e.today b!"monthly" n (fun d => u d p.payee (e.rep s a p.acct) p.ccy) (fun d => u d p.payee p.acct p.ccy) n.toNat p.date else 0), wsum_add]
    · rfl
    · intro p
      unfold depreciatePost
      split
      · rw [wsum_cons, wsum_cons, wsum_instalments]
        simp only [wt, Posting.byFactor, Posting.byAcctFactor, Posting.byAcctDateFactor, Posting.dup]
        ring
      · simp

/-- What an operation does to the prices. -/
def pricesTo (e : OpEnv) : Prim → PriceBook → PriceBook
  | .mapccy s r, q => e.walk (e.mat s) (e.rep s r) q
  | _, q => q

theorem compact_prices (srt : List Posting → List Posting) (b : Book) : (b.compact srt).prices = b.prices := by
  unfold Book.compact; split <;> rfl

theorem prim_prices {e : OpEnv} {p : Prim} {b c : Book} (h : p.apply e b = some c) : c.prices = pricesTo e p b.prices := by
  cases p <;> simp only [Prim.apply] at h
  case mapccy s r => split at h <;> cases h; rfl
  case map s r alt => split at h <;> cases h; exact compact_prices _ _
  case move s a f => split at h <;> cases h; exact compact_prices _ _
  case asof d => cases h; unfold Book.filterByDateAsof; split <;> rfl
  case since d => cases h; unfold Book.filterByDateSince; split <;> rfl
  case combine t => cases h; exact compact_prices _ _
  case depreciate s a n => split at h <;> cases h; exact compact_prices _ _

/-- An operation fails (by a pattern that is none) on every book or on none. -/
theorem prim_none {e : OpEnv} {p : Prim} {b : Book} (h : p.apply e b = none) (b' : Book) : p.apply e b' = none := by
  cases p <;> simp only [Prim.apply] at h ⊢ <;> first | (split at h <;> cases h; simp_all) | cases h

/-- Books with the same totals and the same prices. -/
structure SameTotals (b b' : Book) : Prop where
  good : b.Good
  good' : b'.Good
  prices : b.prices = b'.prices
  totals : ∀ u : Weight, wsum (wt u) b.post = wsum (wt u) b'.post

theorem SameTotals.symm {b b' : Book} (h : SameTotals b b') : SameTotals b' b := ⟨h.good', h.good, h.prices.symm, fun u => (h.totals u).symm⟩

theorem SameTotals.trans {b b' c : Book} (h : SameTotals b b') (k : SameTotals b' c) : SameTotals b c :=
  ⟨h.good, k.good', h.prices.trans k.prices, fun u => (h.totals u).trans (k.totals u)⟩

theorem SameTotals.keys {b b' : Book} (h : SameTotals b b') (k : Key) :
    total (fun p => decide (key p = k)) b.post = total (fun p => decide (key p = k)) b'.post := by
  rw [total_eq_wsum, total_eq_wsum]
  have hk : (fun p : Posting => if decide (key p = k) = true then (1 : Rat) else 0) =
      wt (fun D P A C => if (toLex (D, toLex (P, toLex (A, C)))) = k then 1 else 0) := by
    funext p
    show _ = if key p = k then (1 : Rat) else 0
    by_cases hh : key p = k
    · rw [if_pos hh, if_pos (decide_eq_true hh)]
    · rw [if_neg hh, if_neg (by simpa using hh)]
  rw [hk]
  exact h.totals _

theorem prim_totals {e : OpEnv} (hs : IsSort e.srt) (p : Prim) {b b' : Book} (h : SameTotals b b') :
    (p.apply e b = none ∧ p.apply e b' = none) ∨ ∃ c c', p.apply e b = some c ∧ p.apply e b' = some c' ∧ SameTotals c c' := by
  cases h1 : p.apply e b with
  | none => exact .inl ⟨rfl, prim_none h1 b'⟩
  | some c =>
    cases h2 : p.apply e b' with
    | none => rw [prim_none h2 b] at h1; cases h1
    | some c' =>
      refine .inr ⟨c, c', rfl, rfl, good_prim hs h.good h1, good_prim hs h.good' h2, ?_, fun u => ?_⟩
      · rw [prim_prices h1, prim_prices h2, h.prices]
      · rw [prim_pull hs h.good.1 h1, prim_pull hs h.good'.1 h2, h.totals]

/-- How two lists of operations end. -/
inductive OpsTotal : OpEnd → OpEnd → Prop
  | ok {b b'} : SameTotals b b' → OpsTotal (.ok b) (.ok b')
  | err {b b' t} : OpsTotal (.err b t) (.err b' t)
  | panic : OpsTotal .panic .panic
  | diverge : OpsTotal .diverge .diverge

theorem OpsTotal.wrap {x y : OpEnd} (h : OpsTotal x y) (op : Str) : OpsTotal (x.wrap op) (y.wrap op) := by
  cases h with
  | ok h => exact .ok h
  | err => exact .err
  | panic => exact .panic
  | diverge => exact .diverge

theorem runAll_totals {f g : Str → Book → OpEnd} (hf : ∀ o b b', SameTotals b b' → OpsTotal (f o b) (g o b')) :
    ∀ (os : List Str) (b b' : Book), SameTotals b b' → OpsTotal (runAll f os b) (runAll g os b') := by
  intro os
  induction os with
  | nil => intro b b' h; exact .ok h
  | cons o os ih =>
    intro b b' h
    have := hf o b b' h
    simp only [runAll]
    generalize f o b = x at this
    generalize g o b' = y at this
    cases this with
    | ok h => exact ih _ _ h
    | err => exact .err
    | panic => exact .panic
    | diverge => exact .diverge

theorem bookOp_totals {e : OpEnv} (hs : IsSort e.srt) (mac : Str → Option (List Str)) :
    ∀ (n : Nat) (op : Str) (b b' : Book), SameTotals b b' → OpsTotal (bookOp e mac n op b) (bookOp e mac n op b') := by
  intro n
  induction n with
  | zero => intro op b b' _; exact .diverge
  | succ n ih =>
    intro op b b' h
    simp only [bookOp]
    cases mac op with
    | some ms => exact (runAll_totals ih ms b b' h).wrap op
    | none =>
      simp only [primOp]
      cases parsePrim e op with
      | none => exact .err
      | some p =>
        simp only
        rcases prim_totals hs p h with ⟨h1, h2⟩ | ⟨c, c', h1, h2, h3⟩
        · rw [h1, h2]; exact .panic
        · rw [h1, h2]; exact .ok h3

theorem ops_totals {e : OpEnv} (hs : IsSort e.srt) (fuel : Nat) (a : AppConf) (args : List Str) {b b' : Book} (h : SameTotals b b') :
    EndsLike SameTotals (opsCmd e fuel a args b) (opsCmd e fuel a args b') := by
  have := runAll_totals (fun o b b' h => (bookOp_totals hs a.macros fuel o b b' h).wrap o) args b b' h
  unfold opsCmd bookOps
  generalize runAll (fun op b => (bookOp e a.macros fuel op b).wrap op) args b = x at this
  generalize runAll (fun op b => (bookOp e a.macros fuel op b).wrap op) args b' = y at this
  cases this with
  | ok h => exact h
  | err => trivial
  | panic => trivial
  | diverge => trivial

/-- Reading a book. -/
theorem compact_totals {srt} (hs : IsSort srt) {b : Book} (h : b.Good) : SameTotals b (b.compact srt) :=
  ⟨h, good_op hs h (o := .read) (today := 0) rfl, (compact_prices _ _).symm, fun u => (wsum_compact hs (wt_key u) b).symm⟩

theorem compact_alike {srt srt'} (hs : IsSort srt) (hs' : IsSort srt') {b b' : Book} (h : SameTotals b b') : GoodPair (b.compact srt) (b'.compact srt') := by
  have g1 := (compact_totals hs h.good).good'
  have g2 := (compact_totals hs' h.good').good'
  refine ⟨g1, g2, ?_⟩
  have hp : List.Forall₂ Alike (b.compact srt).post (b'.compact srt').post := by
    rw [forall₂_alike, compact_post b (srt_nil hs), compact_post b' (srt_nil hs')]
    exact compactPost_unique hs hs' h.good.1.plain h.good'.1.plain h.keys
  refine ⟨hp, ?_, by rw [compact_prices, compact_prices, h.prices]⟩
  rw [← groupTxns_of_groups g1.1.groups g1.1.order, ← groupTxns_of_groups g2.1.groups g2.1.order, g1.1.index, g2.1.index]
  exact groupTxns_alike hp

end Verif
