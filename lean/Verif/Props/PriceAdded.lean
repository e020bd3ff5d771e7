import Verif.Spec.PriceAdded
import Verif.Props.RepricedSum

/-! # C161: a price line more -/

namespace Verif
open Spec

/-- If no two prices are of one day, the rule gives one answer. -/
theorem answer_unique {h : List Price} (hn : ∀ q ∈ h, ∀ q' ∈ h, q.date = q'.date → q = q') {d : Int} {r r' : Rat × PriceType} (a : Answer h d r)
    (a' : Answer h d r') : r = r' := by
  cases a with
  | before q h1 h2 h3 =>
    cases a' with
    | before q' g1 g2 g3 => rw [hn q h1 q' g1 (by have := h2 q' g1; have := g2 q h1; omega)]
    | after q' g1 g2 g3 => have := h2 q' g1; omega
    | exact q' g1 g2 => have := h2 q' g1; omega
    | between lo hi a n g1 g2 g3 g4 => have := h2 lo g2; omega
  | after q h1 h2 h3 =>
    cases a' with
    | before q' g1 g2 g3 => have := g2 q h1; omega
    | after q' g1 g2 g3 => rw [hn q h1 q' g1 (by have := h2 q' g1; have := g2 q h1; omega)]
    | exact q' g1 g2 => have := h2 q' g1; omega
    | between lo hi a n g1 g2 g3 g4 g5 => have := h2 hi g3; omega
  | exact q h1 h2 =>
    cases a' with
    | before q' g1 g2 g3 => have := g2 q h1; omega
    | after q' g1 g2 g3 => have := g2 q h1; omega
    | exact q' g1 g2 => rw [hn q h1 q' g1 (by omega)]
    | between lo hi a n g1 g2 g3 g4 g5 => exact absurd h2 (g1 q h1)
  | between lo hi a n h1 h2 h3 h4 h5 h6 h7 h8 h9 =>
    cases a' with
    | before q' g1 g2 g3 => have := g2 lo h2; omega
    | after q' g1 g2 g3 => have := g2 hi h3; omega
    | exact q' g1 g2 => exact absurd g2 (h1 q' g1)
    | between lo' hi' a' n' g1 g2 g3 g4 g5 g6 g7 g8 g9 =>
      have k1 : lo = lo' := hn lo h2 lo' g2 (by have := h6 lo' g2; have := g6 lo h2; omega)
      have k2 : hi = hi' := hn hi h3 hi' g3 (by have := h6 hi' g3; have := g6 hi h3; omega)
      subst k1; subst k2
      rw [h7] at g7; cases g7
      rw [h8] at g8; cases g8
      rfl

/-- One price more, with another price between its day and the day asked for: the same answer. -/
theorem answer_added {h h' : List Price} {new : Price} (hm : ∀ q, q ∈ h' ↔ q = new ∨ q ∈ h) {d : Int} (hb : PriceBetween h new.date d)
    {r : Rat × PriceType} (a : Answer h d r) : Answer h' d r := by
  obtain ⟨m, hm1, hm2⟩ := hb
  cases a with
  | before q h1 h2 h3 =>
    refine .before q ((hm q).2 (.inr h1)) (fun q' hq' => ?_) h3
    rcases (hm q').1 hq' with rfl | hq'
    · have := h2 m hm1; omega
    · exact h2 q' hq'
  | after q h1 h2 h3 =>
    refine .after q ((hm q).2 (.inr h1)) (fun q' hq' => ?_) h3
    rcases (hm q').1 hq' with rfl | hq'
    · have := h2 m hm1; omega
    · exact h2 q' hq'
  | exact q h1 h2 => exact .exact q ((hm q).2 (.inr h1)) h2
  | between lo hi a n h1 h2 h3 h4 h5 h6 h7 h8 h9 =>
    refine .between lo hi a n (fun q hq => ?_) ((hm lo).2 (.inr h2)) ((hm hi).2 (.inr h3)) h4 h5 (fun q hq => ?_) h7 h8 h9
    · rcases (hm q).1 hq with rfl | hq
      · omega
      · exact h1 q hq
    · rcases (hm q).1 hq with rfl | hq
      · have := h1 m hm1
        have := h6 m hm1
        omega
      · exact h6 q hq

theorem headers_append' (x y : List Call) : headers (x ++ y) = headers x ++ headers y := by
  induction x with
  | nil => rfl
  | cons c x ih => cases c <;> simp only [List.cons_append, headers, ih]

theorem entries_added (D : Int) (u c : Str) (v : Rat) : ∀ (pre post : List Call) (cur : Int × Str) (ns : List (Int × Str)),
    entries cur ns (pre ++ .addPrice D u c v :: post) = entries cur ns (pre ++ post) := by
  intro pre
  induction pre with
  | nil => intro post cur ns; rfl
  | cons x pre ih =>
    intro post cur ns
    cases x with
    | newTransaction d p n =>
      cases ns with
      | nil => rfl
      | cons n ns => simp only [List.cons_append, entries, ih]
    | _ => simp only [List.cons_append, entries, ih]

theorem headers_added {D : Int} {u c : Str} {cs cs' : List Call} (h : OneMorePrice D u c cs cs') : headers cs' = headers cs := by
  obtain ⟨pre, post, v, rfl, rfl⟩ := h
  rw [headers_append', headers_append']; rfl

theorem recorded_append' (x y : Str) (a b : List Call) : recorded x y (a ++ b) = recorded x y a ++ recorded x y b := by
  induction a with
  | nil => rfl
  | cons c a ih =>
    cases c with
    | addPrice d u' c' v =>
      simp only [List.cons_append, recorded, ih]
      split <;> rfl
    | _ => simp only [List.cons_append, recorded, ih]

theorem recorded_other {D : Int} {u c : Str} {cs cs' : List Call} (h : OneMorePrice D u c cs cs') {x y : Str} (hne : ¬ (u = x ∧ c = y)) :
    recorded x y cs' = recorded x y cs := by
  obtain ⟨pre, post, v, rfl, rfl⟩ := h
  rw [recorded_append', recorded_append']
  simp only [recorded, if_neg hne]

theorem recorded_added {D : Int} {u c : Str} {cs cs' : List Call} (h : OneMorePrice D u c cs cs') :
    ∃ v, ∀ q, q ∈ recorded u c cs' ↔ q = ⟨D, v⟩ ∨ q ∈ recorded u c cs := by
  obtain ⟨pre, post, v, rfl, rfl⟩ := h
  refine ⟨v, fun q => ?_⟩
  rw [recorded_append', recorded_append']
  simp only [recorded, and_self, if_true, List.mem_append, List.mem_cons]
  tauto

/-- Two ledgers, the second one with one price line more, for a day on which there is no other price of that pair (nor are there two for another day); the
days of its prices exist. -/
structure PriceAdded (D : Int) (u c : Str) (le le' : Env) (f f' : Str) (cs cs' : List Call) : Prop where
  ok : le.Ok
  ok' : le'.Ok
  letters : PlainLetters le
  letters' : PlainLetters le'
  more : OneMorePrice D u c cs cs'
  distinct : ((recorded u c cs').map (·.date)).Nodup
  real : ∀ q ∈ recorded u c cs', IsDate q.date
  disk : ∃ fs ls fs' ls', OnDisk le fs ∧ fs f = some ls ∧ FileSays fs le.join f [] [] ls cs ∧
    OnDisk le' fs' ∧ fs' f' = some ls' ∧ FileSays fs' le'.join f' [] [] ls' cs'

/-- On the days separated from the new price by another one all prices are as before. -/
theorem added_price {D : Int} {u c : Str} {le le' : Env} {depth depth' : Nat} {srt : List Posting → List Posting} {a : AppConf} {f' : Str} {cs cs' : List Call}
    (h : PriceAdded D u c le le' a.ledger f' cs cs') {b0 b0' : Book} (l0 : loadCmd le depth srt a = .ok b0)
    (l1 : loadCmd le' depth' srt (a.reading f') = .ok b0') {t : YMD} (ht : t.Valid) (hb : PriceBetween (recorded u c cs) D t.code) (x y : Str) :
    b0'.prices.getPrice t.code x y = b0.prices.getPrice t.code x y := by
  obtain ⟨fs, ls, fs', ls', hd, hf, hsay, hd', hf', hsay'⟩ := h.disk
  obtain ⟨ds, s1, ⟨bb, x1, x2⟩, _⟩ := c96_loaded_book h.ok h.letters hd hf (loadCmd_book l0)
  obtain ⟨ds', s2, ⟨bb', y1, y2⟩, _⟩ := c96_loaded_book h.ok' h.letters' hd' hf' (loadCmd_book l1)
  obtain ⟨_, i2, _⟩ := (readings_shuffled hsay [] ds (.refl _) s1).facts
  obtain ⟨_, j2, _⟩ := (readings_shuffled hsay' [] ds' (.refl _) s2).facts
  have e0 : ∀ x y, b0.prices.find (x, y) = if recorded x y cs = [] then none else some (sortPrices (recorded x y cs)) := by
    intro x y
    rw [built_prices x1 x2, recorded_lines x y ds, ← i2, ← recorded_lines]
  have e1 : ∀ x y, b0'.prices.find (x, y) = if recorded x y cs' = [] then none else some (sortPrices (recorded x y cs')) := by
    intro x y
    rw [built_prices y1 y2, recorded_lines x y ds', ← j2, ← recorded_lines]
  have dates := h.real
  obtain ⟨v, hmem⟩ := recorded_added h.more
  have pair : ∀ x y, (recorded x y cs' = [] ↔ recorded x y cs = []) ∧
      PriceList.getPrice (sortPrices (recorded x y cs')) t.code = PriceList.getPrice (sortPrices (recorded x y cs)) t.code := by
    intro x y
    by_cases hxy : u = x ∧ c = y
    · obtain ⟨rfl, rfl⟩ := hxy
      obtain ⟨m, hm1, _⟩ := id hb
      have n0 : recorded u c cs ≠ [] := fun h => by rw [h] at hm1; cases hm1
      have n1 : recorded u c cs' ≠ [] := fun h => by have := (hmem m).2 (.inr hm1); rw [h] at this; cases this
      refine ⟨⟨fun h => absurd h n1, fun h => absurd h n0⟩, ?_⟩
      obtain ⟨p0, s0⟩ := sortPrices_spec (recorded u c cs)
      obtain ⟨p1, s1⟩ := sortPrices_spec (recorded u c cs')
      obtain ⟨r0, g0⟩ := getPrice_total _ t ht s0 (sortPrices_ne n0) (fun q hq => dates q ((hmem q).2 (.inr (p0.mem_iff.1 hq))))
      obtain ⟨r1, g1⟩ := getPrice_total _ t ht s1 (sortPrices_ne n1) (fun q hq => dates q (p1.mem_iff.1 hq))
      rw [g0, g1]
      congr 1
      refine answer_unique (h := recorded u c cs') ?_ (Answer.perm p1 (getPrice_answer _ _ s1 (sortPrices_ne n1) g1))
        (answer_added hmem ?_ (Answer.perm p0 (getPrice_answer _ _ s0 (sortPrices_ne n0) g0)))
      · exact fun q hq q' hq' he => List.inj_on_of_nodup_map h.distinct hq hq' he
      · exact hb
    · rw [recorded_other h.more hxy]
      exact ⟨Iff.rfl, rfl⟩
  unfold PriceBook.getPrice
  rw [e0, e1, e0, e1]
  obtain ⟨a1, a2⟩ := pair x y
  obtain ⟨b1, b2⟩ := pair y x
  by_cases hxy : x = y
  · rw [if_pos hxy, if_pos hxy]
  · rw [if_neg hxy, if_neg hxy]
    by_cases k1 : recorded x y cs = []
    · rw [if_pos k1, if_pos (a1.2 k1)]
      by_cases k2 : recorded y x cs = []
      · rw [if_pos k2, if_pos (b1.2 k2)]
      · rw [if_neg k2, if_neg fun k => k2 (b1.1 k)]
        simp only
        rw [b2]
    · rw [if_neg k1, if_neg fun k => k1 (a1.1 k)]
      simp only
      exact a2

/-- The postings of the two books after the same operations weigh the same. -/
theorem added_ops {D : Int} {u c : Str} {le le' : Env} {depth depth' : Nat} {e : OpEnv} (hs : IsSort e.srt) {fuel : Nat} {a : AppConf} {f' : Str}
    {cs cs' : List Call} (h : PriceAdded D u c le le' a.ledger f' cs cs') {args : List Str} {b0 b0' b b' : Book} (l0 : loadCmd le depth e.srt a = .ok b0)
    (l1 : loadCmd le' depth' e.srt (a.reading f') = .ok b0') (o0 : opsCmd e fuel a args b0 = .ok b) (o1 : opsCmd e fuel a args b0' = .ok b') :
    ∀ w, NoPayee w → wsum (wt w) b'.post = wsum (wt w) b.post := by
  obtain ⟨U, Q, hU, hlin⟩ := ops_linear hs fuel a args
  obtain ⟨_, _, w0⟩ := hlin b0 b (good_load hs l0) o0
  obtain ⟨_, _, w1⟩ := hlin b0' b' (good_load hs l1) o1
  obtain ⟨fs, ls, fs', ls', hd, hf, hsay, hd', hf', hsay'⟩ := h.disk
  obtain ⟨ds, s1, b1, _⟩ := c96_loaded_book h.ok h.letters hd hf (loadCmd_book l0)
  obtain ⟨ds', s2, b2, _⟩ := c96_loaded_book h.ok' h.letters' hd' hf' (loadCmd_book l1)
  obtain ⟨i1, i2, i3⟩ := (readings_shuffled hsay [] ds (.refl _) s1).facts
  obtain ⟨j1, j2, j3⟩ := (readings_shuffled hsay' [] ds' (.refl _) s2).facts
  intro w hw
  rw [w0, w1, wsum_read hs b1 (hU w hw), wsum_read hs b2 (hU w hw), ← i1, ← j1]
  have q1 : esum (U w) (entries (-1, []) (headers cs) ds) = esum (U w) (entries (-1, []) (headers cs) cs) := (((i3 _ _).map _).sum_eq).symm
  have q2 : esum (U w) (entries (-1, []) (headers cs') ds') = esum (U w) (entries (-1, []) (headers cs') cs') := (((j3 _ _).map _).sum_eq).symm
  have q3 : entries (-1, []) (headers cs') cs' = entries (-1, []) (headers cs) cs := by
    rw [headers_added h.more]
    obtain ⟨p, q, v, rfl, rfl⟩ := h.more
    exact entries_added _ _ _ _ _ _ _ _
  rw [q1, q2, q3]

/-- **C161** (a), listings: a price line more changes nothing of what a report shows on the days that another price of that pair separates from the day of
the new one. -/
theorem c161_listing {D : Int} {u c : Str} {le le' : Env} (depth depth' : Nat) (e : OpEnv) (hs : IsSort e.srt) (fuel : Nat) (a : AppConf) (f' : Str)
    (cs cs' : List Call) (h : PriceAdded D u c le le' a.ledger f' cs cs') (args : List Str) (hm : ∀ op, Used a.macros args op → ¬ RenamesCCY op)
    (r : ReportConf) (hr : r.sum = false ∨ r.typ = b!"Beancount") (o o' : Int → Str → List Str → List Str) (ts ts' : List Txn)
    (h0 : reportCmd le depth e fuel a r o args = .ok ts) (h1 : reportCmd le' depth' e fuel (a.reading f') r o' args = .ok ts')
    (P : Int → Str → Str → Bool)
    (hP : ∀ d ac cc, P d ac cc = true → IsDate d ∧ PriceBetween (recorded u c cs) D d) :
    chosenTotal P ts'.flatten = chosenTotal P ts.flatten := by
  obtain ⟨b0, b, l0, p0, t0⟩ := report_chosen hs hr h0 P
  obtain ⟨b0', b', l1, p1, t1⟩ := report_chosen hs hr h1 P
  rw [t0, t1]
  have hsame : chosenWeight b'.prices e.today (a.reading f').baseCCY r P = chosenWeight b.prices e.today a.baseCCY r P := by
    funext D' P' A C
    unfold chosenWeight shownRate
    show (if P (shownDate e.today r (bare D' A C)) A (shownCCY a.baseCCY r (bare D' A C)) = true then _ else 0) = _
    by_cases hp : P (shownDate e.today r (bare D' A C)) A (shownCCY a.baseCCY r (bare D' A C)) = true
    · rw [if_pos hp, if_pos hp]
      obtain ⟨⟨t, ht, et⟩, hb⟩ := hP _ _ _ hp
      rw [opsCmd_prices hm p1, opsCmd_prices (a := a) hm p0]
      rw [et] at hb ⊢
      rw [added_price h l0 l1 ht hb]
      rfl
    · rw [if_neg hp, if_neg hp]
  rw [hsame]
  exact added_ops hs h l0 l1 p0 p1 _ fun D P P' A C => rfl

/-- **C161** (c): without conversion a listing shows the same on all days, after any operations. -/
theorem c161_unconverted {D : Int} {u c : Str} {le le' : Env} (depth depth' : Nat) (e : OpEnv) (hs : IsSort e.srt) (fuel : Nat) (a : AppConf) (f' : Str)
    (cs cs' : List Call) (h : PriceAdded D u c le le' a.ledger f' cs cs') (args : List Str) (r : ReportConf) (hr : r.sum = false ∨ r.typ = b!"Beancount")
    (hc : ¬ converts r) (o o' : Int → Str → List Str → List Str) (ts ts' : List Txn) (h0 : reportCmd le depth e fuel a r o args = .ok ts)
    (h1 : reportCmd le' depth' e fuel (a.reading f') r o' args = .ok ts') (P : Int → Str → Str → Bool) :
    chosenTotal P ts'.flatten = chosenTotal P ts.flatten := by
  obtain ⟨b0, b, l0, p0, t0⟩ := report_chosen hs hr h0 P
  obtain ⟨b0', b', l1, p1, t1⟩ := report_chosen hs hr h1 P
  rw [t0, t1]
  have hsame : chosenWeight b'.prices e.today (a.reading f').baseCCY r P = chosenWeight b.prices e.today a.baseCCY r P := by
    unfold chosenWeight shownRate
    simp only [hc, if_false]
    rfl
  rw [hsame]
  exact added_ops hs h l0 l1 p0 p1 _ fun D P P' A C => rfl

/-- **C161** (b), summaries: the same for what a summary has on an account and below it, and on an account itself. -/
theorem c161_summary {D : Int} {u c : Str} {le le' : Env} (depth depth' : Nat) (e : OpEnv) (hs : IsSort e.srt) (fuel : Nat) (a : AppConf)
    (hdiv : a.divider ≠ []) (f' : Str) (cs cs' : List Call) (h : PriceAdded D u c le le' a.ledger f' cs cs') (args : List Str)
    (hm : ∀ op, Used a.macros args op → ¬ RenamesCCY op) (r : ReportConf) (hr : r.sum = true) (hcomb : combines r)
    (o o' : Int → Str → List Str → List Str) (ho : ∀ d py l, (o d py l).Perm l) (ho' : ∀ d py l, (o' d py l).Perm l) (ts ts' : List Txn)
    (h0 : reportCmd le depth e fuel a r o args = .ok ts) (h1 : reportCmd le' depth' e fuel (a.reading f') r o' args = .ok ts') :
    ∃ (b b' : Book) (S S' : List Str) (gs gs' : List Txn),
      (loadCmd le depth e.srt a).bind (opsCmd e fuel a args) = .ok b ∧
      (loadCmd le' depth' e.srt (a.reading f')).bind (opsCmd e fuel a args) = .ok b' ∧
      SummaryOf b.prices e.today a r (reported e.srt b) S gs ∧ SummaryOf b'.prices e.today a r (reported e.srt b') S' gs' ∧
      ts = gs.map (shown (if r.credit = [] then none else some (e.mat r.credit)) r.hidden) ∧
      ts' = gs'.map (shown (if r.credit = [] then none else some (e.mat r.credit)) r.hidden) ∧
      ∀ d ac, IsDate d → PriceBetween (recorded u c cs) D d →
        columnTree b'.prices e.today a r d [] ac (reported e.srt b') = columnTree b.prices e.today a r d [] ac (reported e.srt b) ∧
        ∀ cc, columnEntry b'.prices e.today a r d [] ac cc (reported e.srt b') = columnEntry b.prices e.today a r d [] ac cc (reported e.srt b) := by
  obtain ⟨b0, b, l0, p0, S, gs, y0, z0⟩ := c116_summary le depth e hs fuel a hdiv r hr hcomb.1 o ho _ _ h0
  obtain ⟨b0', b1, l1, p1, S1, gs1, y1, z1⟩ := c116_summary le' depth' e hs fuel (a.reading f') hdiv r hr hcomb.1 o' ho' _ _ h1
  have gb := good_ops hs (good_load hs l0) p0
  have gb1 := good_ops hs (good_load hs l1) p1
  have hw := added_ops hs h l0 l1 p0 p1
  refine ⟨b, b1, S, S1, gs, gs1, by rw [l0]; exact p0, by rw [l1]; exact p1, z0,
    ⟨z1.1, fun g hg => ⟨(z1.2 g hg).1, (z1.2 g hg).2, (z1.2 g hg).3, (z1.2 g hg).4, (z1.2 g hg).5⟩, z1.3, z1.4, z1.5⟩, y0, y1, ?_⟩
  intro d ac hd hb
  have hrate : ∀ x, b1.prices.getPrice d x a.baseCCY = b.prices.getPrice d x a.baseCCY := by
    intro x
    obtain ⟨t, ht, et⟩ := hd
    rw [opsCmd_prices hm p1, opsCmd_prices (a := a) hm p0, et]
    rw [et] at hb
    exact added_price h l0 l1 ht hb x _
  have row : ∀ (b : Book) (own : Bool) (Q : Str → Str → Bool), rowWeight b.prices e.today a.baseCCY r (fun d' ac' c' => decide (d' = d) && Q ac' c') own =
      fun D _ A C => if (decide (shownDate e.today r (bare D A C) = d) && Q A (shownCCY a.baseCCY r (bare D A C))) = true then
        (if own then (if converts r then ((b.prices.getPrice d C a.baseCCY).map (·.1)).getD 1 else 1)
          else if shownCCY a.baseCCY r (bare D A C) = a.baseCCY then (if converts r then ((b.prices.getPrice d C a.baseCCY).map (·.1)).getD 1 else 1)
          else ((b.prices.getPrice d C a.baseCCY).map (·.1)).getD 0) else 0 := by
    intro b own Q
    funext D P A C
    unfold rowWeight
    by_cases hc : (decide (shownDate e.today r (bare D A C) = d) && Q A (shownCCY a.baseCCY r (bare D A C))) = true
    · rw [if_pos hc, if_pos hc]
      rw [Bool.and_eq_true] at hc
      have := of_decide_eq_true hc.1
      unfold sumRate shownRate
      rw [this]
      rfl
    · rw [if_neg hc, if_neg hc]
  have sameRow : ∀ (own : Bool) (Q : Str → Str → Bool), rowWeight b1.prices e.today a.baseCCY r (fun d' ac' c' => decide (d' = d) && Q ac' c') own =
      rowWeight b.prices e.today a.baseCCY r (fun d' ac' c' => decide (d' = d) && Q ac' c') own := by
    intro own Q
    rw [row, row]
    simp only [hrate]
  have tree : ∀ {b : Book}, b.Good → columnTree b.prices e.today a r d [] ac (reported e.srt b) =
      wsum (wt (rowWeight b.prices e.today a.baseCCY r (fun d' ac' _ => decide (d' = d) && decide (AtOrAbove a.divider ac ac')) false)) b.post := by
    intro b gb
    unfold columnTree
    rw [weighted_wsum, ← wsum_reported hs (wt_key _) gb.1]
    refine wsum_congr fun p _ => ?_
    have hp : shownPayee r p = [] := if_pos hcomb
    have hiff : (InColumn e.today r d [] p ∧ AtOrAbove a.divider ac p.acct) ↔ (shownDate e.today r p = d ∧ AtOrAbove a.divider ac p.acct) := by
      unfold InColumn; rw [hp]; simp
    rw [decide_eq_decide.2 hiff, Bool.decide_and]
    rfl
  have entry : ∀ {b : Book}, b.Good → ∀ cc, columnEntry b.prices e.today a r d [] ac cc (reported e.srt b) =
      wsum (wt (rowWeight b.prices e.today a.baseCCY r (fun d' ac' c' => decide (d' = d) && decide (ac' = ac ∧ c' = cc)) true)) b.post := by
    intro b gb cc
    unfold columnEntry
    rw [weighted_wsum, ← wsum_reported hs (wt_key _) gb.1]
    refine wsum_congr fun p _ => ?_
    have hp : shownPayee r p = [] := if_pos hcomb
    have hiff : (InColumn e.today r d [] p ∧ p.acct = ac ∧ shownCCY a.baseCCY r p = cc) ↔
        (shownDate e.today r p = d ∧ p.acct = ac ∧ shownCCY a.baseCCY r p = cc) := by unfold InColumn; rw [hp]; simp
    rw [decide_eq_decide.2 hiff, Bool.decide_and]
    rfl
  constructor
  · rw [tree gb, tree gb1, sameRow false fun ac' _ => decide (AtOrAbove a.divider ac ac')]
    exact hw _ fun D P P' A C => rfl
  · intro cc
    rw [entry gb, entry gb1, sameRow true fun ac' c' => decide (ac' = ac ∧ c' = cc)]
    exact hw _ fun D P P' A C => rfl

/-! Non-vacuity: the price for January 2nd, and one more for January 5th. -/

def laterLine : FileLine := .price {
    sp0 := [32], day := ⟨b!"2020", b!"01", b!"05"⟩, date := ⟨2020, 1, 5⟩, sp1 := [32], hour := b!"00", minute := b!"00", second := b!"00",
    sp2 := [32], unitQuoted := false, unit := b!"X", sp3 := [32], ccyFirst := false, quoted := false, ccy := b!"Y", sp4 := [32],
    num := ⟨false, b!"4", some b!"5"⟩ }

def moreFiles : List (Str × List FileLine) := [(b!"one", cheapLines), (b!"two", laterLine :: cheapLines)]
def moreDisk (f : Str) : Option (List FileLine) := (moreFiles.find? fun x => decide (x.1 = f)).map (·.2)
def moreEnv : Env := demoEnv (moreFiles.map fun x => (x.1, fileText x.2))

theorem more_disk : OnDisk moreEnv moreDisk := by
  have hmem : ∀ f ls, moreDisk f = some ls → (f, ls) ∈ moreFiles := by
    intro f ls h
    unfold moreDisk at h
    rw [Option.map_eq_some_iff] at h
    obtain ⟨x, hx, rfl⟩ := h
    have h1 := List.mem_of_find?_eq_some hx
    have h2 := List.find?_some hx
    simp only [decide_eq_true_eq] at h2
    rw [← h2]; exact h1
  have hq : laterLine.Valid := ⟨⟨by decide, by decide, by decide⟩, by decide, by decide, by decide, by decide, by decide, by decide,
          ⟨⟨by decide, by rintro f ⟨⟩; decide⟩, by decide, by decide⟩, ⟨_, _, rfl, by decide⟩, by decide, by decide, by decide⟩
  have hno : ∀ l, l ∈ laterLine :: cheapLines → ∀ sp q g, l ≠ .incl sp q g := by
    rintro l hl sp q g rfl
    simp [cheapLines, laterLine, priceTail, freePost, partOne, partPost, demoMain] at hl
  have hv : ∀ l ∈ laterLine :: cheapLines, l.Valid := by
    intro l hl
    rcases List.mem_cons.1 hl with rfl | hl
    · exact hq
    · exact dear_line.1 l hl
  intro f ls hf
  have hm := hmem f ls hf
  simp only [moreFiles, List.mem_cons, Prod.mk.injEq, List.not_mem_nil, or_false] at hm
  rcases hm with ⟨rfl, rfl⟩ | ⟨rfl, rfl⟩
  · exact ⟨by decide +kernel, fun l hl => ⟨hv l (by simp [hl]), fun sp q g h => absurd h (hno l (by simp [hl]) sp q g)⟩⟩
  · exact ⟨by decide +kernel, fun l hl => ⟨hv l hl, fun sp q g h => absurd h (hno l hl sp q g)⟩⟩

theorem one_says (fn : Str) (pre : List Call) : FileSays moreDisk moreEnv.join fn [] pre cheapLines cheapCalls := by
  have h0 : (3 / 2 : Rat) = (⟨false, b!"1", some b!"5"⟩ : Numeral).value := by decide +kernel
  have h1 : (5 : Rat) = 1 * (⟨false, b!"5", none⟩ : Numeral).value := by decide +kernel
  have h2 : (-5 : Rat) = -1 * (⟨false, b!"5", none⟩ : Numeral).value := by decide +kernel
  have h3 : (2 : Rat) = 1 * (⟨false, b!"2", none⟩ : Numeral).value := by decide +kernel
  have h4 : (-2 : Rat) = -1 * (⟨false, b!"2", none⟩ : Numeral).value := by decide +kernel
  unfold cheapCalls
  rw [h0, h2, h1, h4]
  conv => rhs; rw [h3]
  exact .price _ _ _ _ _ _ (.txn _ _ _ _ _ _ (.posting _ _ _ _ _ _ (.posting _ _ _ _ _ _ (.posting _ _ _ _ _ _ (.posting _ _ _ _ _ _ (.nil _ _ _))))))

theorem two_says (fn : Str) : FileSays moreDisk moreEnv.join fn [] [] (laterLine :: cheapLines) (.addPrice 20200105 b!"X" b!"Y" (9 / 2) :: cheapCalls) := by
  have h0 : (9 / 2 : Rat) = (⟨false, b!"4", some b!"5"⟩ : Numeral).value := by decide +kernel
  rw [h0]
  exact .price _ _ _ _ _ _ (one_says _ _)

/-- The hypotheses of C161 hold of the two ledgers. -/
theorem more_demo : PriceAdded 20200105 b!"X" b!"Y" moreEnv moreEnv b!"one" b!"two" cheapCalls (.addPrice 20200105 b!"X" b!"Y" (9 / 2) :: cheapCalls) where
  ok := demoEnv_ok _
  ok' := demoEnv_ok _
  letters := demo_letters _
  letters' := demo_letters _
  more := ⟨[], cheapCalls, 9 / 2, rfl, rfl⟩
  distinct := by decide
  real := by
    have : ∀ q ∈ recorded b!"X" b!"Y" (.addPrice 20200105 b!"X" b!"Y" (9 / 2) :: cheapCalls), q.date = 20200105 ∨ q.date = 20200102 := by decide +kernel
    intro q hq
    rcases this q hq with h | h
    · exact ⟨⟨2020, 1, 5⟩, by decide, h⟩
    · exact ⟨⟨2020, 1, 2⟩, by decide, h⟩
  disk := ⟨moreDisk, _, moreDisk, _, more_disk, rfl, one_says _ _, more_disk, rfl, two_says _⟩

/-- January 2nd, on which the report shows the amounts, is separated from January 5th by the price for January 2nd; March is not. -/
example : PriceBetween (recorded b!"X" b!"Y" cheapCalls) 20200105 20200102 ∧ ¬ PriceBetween (recorded b!"X" b!"Y" cheapCalls) 20200105 20200301 := by
  constructor
  · exact ⟨⟨20200102, 3 / 2⟩, by decide +kernel, .inl ⟨by decide, by decide⟩⟩
  · rintro ⟨q, hq, h⟩
    have : ∀ q ∈ recorded b!"X" b!"Y" cheapCalls, q.date = 20200102 := by decide +kernel
    have := this q hq
    omega

def moreShown (f : Str) : Option Rat :=
  match reportCmd moreEnv 5 plainOps 100 (partApp f) { partConf false with convert := true } (fun _ _ l => l) [] with
  | .ok ts => some (chosenTotal (fun d ac _ => decide (d = 20200102 ∧ ac = b!"A")) ts.flatten)
  | _ => none

example : moreShown b!"one" = some (19 / 2) ∧ moreShown b!"two" = some (19 / 2) := by decide +kernel

end Verif
