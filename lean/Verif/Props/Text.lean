import Verif.Spec.Text
import Verif.Props.Print
import Verif.Props.Accum

/-! # C78: the text report -/

namespace Verif
open Spec

theorem sameRow_iff {p v : Posting} : SameRow p v ↔ textKey p = textKey v := by
  simp [SameRow, textKey]

/-- The rows with the amounts `M`. -/
def gridFrom (fmt : TextFmt) (n : Nat) (M : Str × Str × Str → Nat → Option Cell) : Nat → List Posting → List Row
  | _, [] => []
  | i, v :: vs =>
    (if 0 < i ∧ v.acctlevel = 0 then [none] else []) ++
      some (some (fmt.name v) :: (List.range n).map (M (textKey v))) :: gridFrom fmt n M (i + 1) vs

/-- One amount entered. -/
def updM (M : Str × Str × Str → Nat → Option Cell) (k : Str × Str × Str) (c : Nat) (x : Cell) : Str × Str × Str → Nat → Option Cell :=
  fun k' c' => if k' = k ∧ c' = c then some x else M k' c'

theorem gridFrom_congr (fmt : TextFmt) (n : Nat) {M M'} (vs : List Posting) : ∀ i, (∀ v ∈ vs, ∀ c, c < n → M (textKey v) c = M' (textKey v) c) →
    gridFrom fmt n M i vs = gridFrom fmt n M' i vs := by
  induction vs with
  | nil => intro i _; rfl
  | cons v vs ih =>
    intro i h
    simp only [gridFrom]
    rw [ih (i + 1) (fun w hw => h w (by simp [hw]))]
    have : (List.range n).map (M (textKey v)) = (List.range n).map (M' (textKey v)) := by
      apply List.map_congr_left
      intro c hc
      exact h v (by simp) c (List.mem_range.1 hc)
    rw [this]

theorem setCell_append (pre : List Row) (rest : List Row) (c : Nat) (x : Cell) (k : Nat) :
    setCell (pre ++ rest) (pre.length + k) c x = pre ++ setCell rest k c x := by
  induction pre with
  | nil => simp
  | cons r pre ih =>
    unfold setCell at ih ⊢
    rw [List.length_cons, List.cons_append, show pre.length + 1 + k = (pre.length + k) + 1 by omega, List.modify_succ_cons, ih]
    rfl

theorem set_range (n : Nat) (f : Nat → Option Cell) {c : Nat} (_ : c < n) (x : Cell) :
    ((List.range n).map f).set c (some x) = (List.range n).map fun c' => if c' = c then some x else f c' := by
  apply List.ext_getElem
  · simp
  · intro j h1 h2
    rw [List.getElem_set]
    simp only [List.getElem_map, List.getElem_range]
    by_cases h : c = j
    · simp [h]
    · simp [h, Ne.symm h]

theorem refRows_spec (fmt : TextFmt) (n : Nat) (vs : List Posting) : ∀ (rows : List Row) (idx) (i : Nat), (∀ v ∈ vs, 0 ≤ v.acctlevel) →
    (vs.map textKey).Nodup →
    ∃ idx', refRows fmt n rows idx i vs = some (rows ++ gridFrom fmt n (fun _ _ => none) i vs, idx') ∧
      (∀ k, k ∉ vs.map textKey → lookupRow idx' k = lookupRow idx k) ∧
      (∀ v ∈ vs, ∃ pos, lookupRow idx' (textKey v) = some pos ∧ ∀ (pre : List Row) M c x, pre.length = rows.length → c < n →
        setCell (pre ++ gridFrom fmt n M i vs) pos (c + 1) x = pre ++ gridFrom fmt n (updM M (textKey v) c x) i vs) := by
  induction vs with
  | nil => intro rows idx i _ _; exact ⟨idx, by simp [refRows, gridFrom], fun _ _ => rfl, by simp⟩
  | cons v vs ih =>
    intro rows idx i hl hnd
    rw [List.map_cons, List.nodup_cons] at hnd
    have hv : ¬ v.acctlevel < 0 := by have := hl v (by simp); omega
    unfold refRows
    rw [if_neg hv]
    simp only
    set bl : List Row := if 0 < i ∧ v.acctlevel = 0 then [none] else [] with hbl
    have hrows : (if i > 0 ∧ v.acctlevel = 0 then rows ++ [none] else rows) = rows ++ bl := by
      rw [hbl]; split <;> simp_all
    rw [hrows]
    obtain ⟨idx', h1, h2, h3⟩ := ih (rows ++ bl ++ [some (some (fmt.name v) :: List.replicate n none)])
      ((textKey v, (rows ++ bl).length) :: idx) (i + 1) (fun w hw => hl w (by simp [hw])) hnd.2
    have hrep : (List.range n).map (fun _ => (none : Option Cell)) = List.replicate n none := by
      simp [List.map_const']
    refine ⟨idx', ?_, ?_, ?_⟩
    · rw [h1]
      simp only [gridFrom, ← hbl, hrep]
      simp
    · intro k hk
      rw [List.map_cons, List.mem_cons, not_or] at hk
      rw [h2 k hk.2]
      simp [lookupRow, Ne.symm hk.1]
    · intro w hw
      rcases List.mem_cons.1 hw with rfl | hw
      · refine ⟨(rows ++ bl).length, ?_, ?_⟩
        · rw [h2 _ hnd.1]
          simp [lookupRow]
        · intro pre M c x hpre hc
          simp only [gridFrom, ← hbl]
          rw [List.append_cons, ← List.append_assoc, ← List.append_assoc]
          have e : (rows ++ bl).length = (pre ++ bl).length + 0 := by simp [hpre]
          rw [e]
          rw [show ∀ r : Row, pre ++ bl ++ [r] ++ gridFrom fmt n M (i + 1) vs = (pre ++ bl) ++ (r :: gridFrom fmt n M (i + 1) vs) by
            intro r; simp]
          rw [setCell_append]
          have hrest : gridFrom fmt n (updM M (textKey w) c x) (i + 1) vs = gridFrom fmt n M (i + 1) vs := by
            apply gridFrom_congr
            intro u hu c' _
            have : textKey u ≠ textKey w := fun e => hnd.1 (e ▸ List.mem_map.2 ⟨u, hu, rfl⟩)
            simp [updM, this]
          rw [hrest]
          simp only [setCell, List.modify_zero_cons, Option.map_some, List.set_cons_succ]
          rw [set_range n _ hc]
          have : (List.range n).map (updM M (textKey w) c x (textKey w)) =
              (List.range n).map (fun c' => if c' = c then some x else M (textKey w) c') := by
            apply List.map_congr_left
            intro c' _
            simp [updM]
          rw [this]
          simp
      · obtain ⟨pos, e1, e2⟩ := h3 w hw
        refine ⟨pos, e1, ?_⟩
        intro pre M c x hpre hc
        have hne : textKey v ≠ textKey w := fun e => hnd.1 (e ▸ List.mem_map.2 ⟨w, hw, rfl⟩)
        have := e2 (pre ++ bl ++ [some (some (fmt.name v) :: (List.range n).map (M (textKey v)))]) M c x (by simp [hpre]) hc
        have hr : (List.range n).map (updM M (textKey w) c x (textKey v)) = (List.range n).map (M (textKey v)) := by
          apply List.map_congr_left
          intro c' _
          simp [updM, hne]
        simp only [gridFrom, ← hbl, hr]
        simpa using this

/-- The keys an index knows: `vs`; entering an amount. -/
def IndexOk (fmt : TextFmt) (n : Nat) (pre : List Row) (vs : List Posting) (idx : List ((Str × Str × Str) × Nat)) : Prop :=
  (∀ k, k ∉ vs.map textKey → lookupRow idx k = none) ∧
  (∀ v ∈ vs, ∃ pos, lookupRow idx (textKey v) = some pos ∧ ∀ M c x, c < n →
    setCell (pre ++ gridFrom fmt n M 0 vs) pos (c + 1) x = pre ++ gridFrom fmt n (updM M (textKey v) c x) 0 vs)

theorem fillTxn_spec {fmt : TextFmt} {n : Nat} {pre : List Row} {vs : List Posting} {idx} (hi : IndexOk fmt n pre vs idx) {c : Nat} (hc : c < n)
    (t : List Posting) : ∀ M, (∀ p ∈ t, p.ccy ≠ []) → (t.map textKey).Nodup →
    (∀ p ∈ t, M (textKey p) c = none) →
    ((∃ p ∈ t, textKey p ∉ vs.map textKey) ∧ fillTxn fmt idx c (pre ++ gridFrom fmt n M 0 vs) t = .failed) ∨
    ((∀ p ∈ t, textKey p ∈ vs.map textKey) ∧ ∃ M', fillTxn fmt idx c (pre ++ gridFrom fmt n M 0 vs) t = .ok (pre ++ gridFrom fmt n M' 0 vs) ∧
      (∀ k c', c' ≠ c → M' k c' = M k c') ∧ (∀ k, k ∉ t.map textKey → M' k c = M k c) ∧
      (∀ p ∈ t, M' (textKey p) c = some (fmt.money p.ccy p.val))) := by
  induction t with
  | nil => intro M _ _ _; exact Or.inr ⟨by simp, M, rfl, fun _ _ _ => rfl, fun _ _ => rfl, by simp⟩
  | cons p t ih =>
    intro M hccy hnd hM
    rw [List.map_cons, List.nodup_cons] at hnd
    unfold fillTxn
    by_cases hk : textKey p ∈ vs.map textKey
    · obtain ⟨v, hv, ev⟩ := List.mem_map.1 hk
      obtain ⟨pos, e1, e2⟩ := hi.2 v hv
      rw [ev] at e1 e2
      rw [e1]
      simp only
      rw [if_neg (hccy p (by simp)), e2 M c _ hc]
      rcases ih (updM M (textKey p) c (fmt.money p.ccy p.val)) (fun q hq => hccy q (by simp [hq])) hnd.2 (by
        intro q hq
        have : textKey q ≠ textKey p := fun e => hnd.1 (e ▸ List.mem_map.2 ⟨q, hq, rfl⟩)
        simp [updM, this, hM q (by simp [hq])]) with ⟨⟨q, hq, hqk⟩, hf⟩ | ⟨ha, M', hf, h1, h2, h3⟩
      · exact Or.inl ⟨⟨q, by simp [hq], hqk⟩, hf⟩
      · refine Or.inr ⟨?_, M', hf, ?_, ?_, ?_⟩
        · intro q hq
          rcases List.mem_cons.1 hq with rfl | hq
          · exact hk
          · exact ha q hq
        · intro k c' hc'
          rw [h1 k c' hc']
          simp [updM, hc']
        · intro k hkn
          rw [List.map_cons, List.mem_cons, not_or] at hkn
          rw [h2 k hkn.2]
          simp [updM, hkn.1]
        · intro q hq
          rcases List.mem_cons.1 hq with rfl | hq
          · rw [h2 _ hnd.1]
            simp [updM]
          · exact h3 q hq
    · rw [hi.1 _ hk]
      exact Or.inl ⟨⟨p, by simp, hk⟩, rfl⟩

theorem fillAll_spec {fmt : TextFmt} {n : Nat} {pre : List Row} {vs : List Posting} {idx} (hi : IndexOk fmt n pre vs idx) (ts : List Txn) :
    ∀ (c : Nat) M, c + ts.length ≤ n → (∀ t ∈ ts, ∀ p ∈ t, p.ccy ≠ []) → (∀ t ∈ ts, (t.map textKey).Nodup) →
    (∀ k c', c ≤ c' → M k c' = none) →
    ((∃ t ∈ ts, ∃ p ∈ t, textKey p ∉ vs.map textKey) ∧ fillAll fmt idx c (pre ++ gridFrom fmt n M 0 vs) ts = .failed) ∨
    ((∀ t ∈ ts, ∀ p ∈ t, textKey p ∈ vs.map textKey) ∧
      ∃ M', fillAll fmt idx c (pre ++ gridFrom fmt n M 0 vs) ts = .ok (pre ++ gridFrom fmt n M' 0 vs) ∧
      (∀ k c', c' < c → M' k c' = M k c') ∧
      (∀ k j (hj : j < ts.length), M' k (c + j) = (ts[j].find? fun p => decide (textKey p = k)).map fun p => fmt.money p.ccy p.val)) := by
  induction ts with
  | nil => intro c M _ _ _ _; exact Or.inr ⟨by simp, M, rfl, fun _ _ _ => rfl, by simp⟩
  | cons t ts ih =>
    intro c M hn hccy hnd hM
    simp only [List.length_cons] at hn
    unfold fillAll
    rcases fillTxn_spec hi (c := c) (by omega) t M (hccy t (by simp)) (hnd t (by simp)) (fun p _ => hM _ c le_rfl) with
      ⟨⟨p, hp, hpk⟩, hf⟩ | ⟨ha, M', hf, h1, h2, h3⟩
    · rw [hf]
      exact Or.inl ⟨⟨t, by simp, p, hp, hpk⟩, rfl⟩
    · rw [hf]
      simp only
      rcases ih (c + 1) M' (by omega) (fun u hu => hccy u (by simp [hu])) (fun u hu => hnd u (by simp [hu])) (by
        intro k c' hc'
        rw [h1 k c' (by omega)]
        exact hM k c' (by omega)) with ⟨⟨u, hu, p, hp, hpk⟩, hf'⟩ | ⟨ha', M2, hf', g1, g2⟩
      · exact Or.inl ⟨⟨u, by simp [hu], p, hp, hpk⟩, hf'⟩
      · refine Or.inr ⟨?_, M2, hf', ?_, ?_⟩
        · intro u hu
          rcases List.mem_cons.1 hu with rfl | hu
          · exact ha
          · exact ha' u hu
        · intro k c' hc'
          rw [g1 k c' (by omega), h1 k c' (by omega)]
        · intro k j hj
          cases j with
          | zero =>
            rw [Nat.add_zero, g1 k c (by omega)]
            simp only [List.getElem_cons_zero]
            cases hfind : t.find? fun p => decide (textKey p = k) with
            | none =>
              rw [List.find?_eq_none] at hfind
              rw [h2 k, hM k c le_rfl]
              · rfl
              · intro hk
                obtain ⟨p, hp, e⟩ := List.mem_map.1 hk
                exact hfind p hp (by simpa using e)
            | some p =>
              have e := List.find?_some hfind
              have hp := List.mem_of_find?_eq_some hfind
              simp only [decide_eq_true_eq] at e
              rw [← e, h3 p hp]
              rfl
          | succ j =>
            have := g2 k j (by simpa using hj)
            simp only [List.getElem_cons_succ]
            rw [← this]
            congr 1
            omega

theorem gridFrom_table (fmt : TextFmt) (ts : List Txn) {M} (vs : List Posting) (h : ∀ k j (hj : j < ts.length),
      M k j = (ts[j].find? fun p => decide (textKey p = k)).map fun p => fmt.money p.ccy p.val) : ∀ i,
    gridFrom fmt ts.length M i vs = tableRows fmt ts i vs := by
  induction vs with
  | nil => intro i; rfl
  | cons v vs ih =>
    intro i
    simp only [gridFrom, tableRows]
    rw [ih (i + 1)]
    have : (List.range ts.length).map (M (textKey v)) = ts.map (cellFor fmt v) := by
      apply List.ext_getElem
      · simp
      · intro j h1 h2
        simp only [List.getElem_map, List.getElem_range]
        have hj : j < ts.length := by simpa using h2
        rw [h (textKey v) j hj]
        unfold cellFor
        congr 2
        funext p
        simp [sameRow_iff]
    rw [this]

theorem headerCells_spec (fmt : TextFmt) (ts : List Txn) (h : ∀ t ∈ ts, t ≠ []) :
    headerCells fmt ts = some (ts.map fun t => (t.head?).map fun p => fmt.header p.date) := by
  induction ts with
  | nil => rfl
  | cons t ts ih =>
    cases t with
    | nil => exact absurd rfl (h [] (by simp))
    | cons p t =>
      simp only [headerCells]
      rw [ih (fun u hu => h u (by simp [hu]))]
      rfl

/-- What the report does, up to printing. -/
theorem showText_eq (prt : Nat → Bool) (termWidth : Int) (fmt : TextFmt) (ts : List Txn) (h : Tabular ts) (last : Txn)
    (hlast : ts.getLast? = some last) :
    ((∃ t ∈ ts, ∃ p ∈ t, ∀ v ∈ last, ¬ SameRow p v) ∧ showText prt termWidth fmt ts = .failed) ∨
    ((∀ t ∈ ts, ∀ p ∈ t, ∃ v ∈ last, SameRow p v) ∧
      ((printColumns prt termWidth (table fmt ts last) (List.replicate (ts.length + 1) false) = none ∧
          showText prt termWidth fmt ts = .panic) ∨
        ∃ lines, printColumns prt termWidth (table fmt ts last) (List.replicate (ts.length + 1) false) = some lines ∧
          showText prt termWidth fmt ts = .ok lines)) := by
  have hm : last ∈ ts := List.mem_of_getLast? hlast
  have hnd : ∀ t ∈ ts, (t.map textKey).Nodup := by
    intro t ht
    rw [List.Nodup, List.pairwise_map]
    refine (h.rows t ht).imp ?_
    intro p q hpq e
    exact hpq (sameRow_iff.2 e)
  have hkey : ∀ p, textKey p ∈ last.map textKey ↔ ∃ v ∈ last, SameRow p v := by
    intro p
    rw [List.mem_map]
    constructor
    · rintro ⟨v, hv, e⟩; exact ⟨v, hv, sameRow_iff.2 e.symm⟩
    · rintro ⟨v, hv, e⟩; exact ⟨v, hv, (sameRow_iff.1 e).symm⟩
  unfold showText
  rw [hlast]
  simp only
  rw [headerCells_spec fmt ts h.nonempty]
  simp only
  obtain ⟨idx, h1, h2, h3⟩ := refRows_spec fmt ts.length last
    [some (some fmt.title :: ts.map fun t => (t.head?).map fun p => fmt.header p.date)] [] 0 (h.level last hm) (hnd last hm)
  rw [h1]
  simp only
  have hidx : IndexOk fmt ts.length [some (some fmt.title :: ts.map fun t => (t.head?).map fun p => fmt.header p.date)] last idx := by
    refine ⟨fun k hk => by rw [h2 k hk]; rfl, ?_⟩
    intro v hv
    obtain ⟨pos, e1, e2⟩ := h3 v hv
    exact ⟨pos, e1, fun M c x hc => e2 _ M c x rfl hc⟩
  rcases fillAll_spec hidx ts 0 (fun _ _ => none) (by simp) h.ccy hnd (fun _ _ _ => rfl) with ⟨⟨t, ht, p, hp, hpk⟩, hf⟩ | ⟨ha, M, hf, _, g⟩
  · left
    rw [hf]
    refine ⟨⟨t, ht, p, hp, ?_⟩, rfl⟩
    intro v hv hs
    exact hpk ((hkey p).2 ⟨v, hv, hs⟩)
  · right
    rw [hf]
    simp only [Nat.zero_add] at g
    rw [gridFrom_table fmt ts last g 0]
    refine ⟨fun t ht p hp => (hkey p).1 (ha t ht p hp), ?_⟩
    show _ ∨ _
    have e : [some (some fmt.title :: ts.map fun t => (t.head?).map fun p => fmt.header p.date)] ++ tableRows fmt ts 0 last = table fmt ts last := rfl
    rw [e]
    cases hpc : printColumns prt termWidth (table fmt ts last) (List.replicate (ts.length + 1) false) with
    | none => exact Or.inl ⟨rfl, by simp only [hpc]⟩
    | some lines => exact Or.inr ⟨lines, rfl, by simp only [hpc]⟩

theorem printRow_complete (prt : Nat → Bool) {ws : List Int} {r : List (Option Cell)} (hne : ws ≠ []) (hl : r.length = ws.length)
    (hall : ∀ x ∈ r, x ≠ none) : printRow prt ws r = some (lineOf prt ws (some r)) := by
  induction ws generalizing r with
  | nil => exact absurd rfl hne
  | cons w ws ih =>
    cases r with
    | nil => simp at hl
    | cons x r =>
      cases x with
      | none => exact absurd rfl (hall none (by simp))
      | some c =>
        cases ws with
        | nil =>
          have : r = [] := by simpa using hl
          subst this
          simp [printRow, lineOf]
        | cons w' ws =>
          simp only [printRow]
          rw [ih (by simp) (by simpa using hl) (fun y hy => hall y (by simp [hy]))]
          cases r with
          | nil => simp at hl
          | cons y r => simp [lineOf, List.intercalate]

theorem printRows_complete (prt : Nat → Bool) {ws : List Int} (hne : ws ≠ []) {rows : List Row}
    (h : ∀ r, some r ∈ rows → r.length = ws.length ∧ ∀ x ∈ r, x ≠ none) :
    printRows prt ws rows = some (rows.map (lineOf prt ws)) := by
  induction rows with
  | nil => rfl
  | cons row rows ih =>
    have ih' := ih fun r hr => h r (by simp [hr])
    cases row with
    | none => simp [printRows, ih', lineOf]
    | some r =>
      obtain ⟨h1, h2⟩ := h r (by simp)
      simp [printRows, ih', printRow_complete prt hne h1 h2]

theorem widenRow_complete (prt : Nat → Bool) {ws : List Int} {r : List (Option Cell)} (hl : r.length = ws.length) (hall : ∀ x ∈ r, x ≠ none) :
    ∃ ws', widenRow prt ws r = some ws' := by
  induction ws generalizing r with
  | nil => exact ⟨_, rfl⟩
  | cons w ws ih =>
    cases r with
    | nil => simp at hl
    | cons x r =>
      cases x with
      | none => exact absurd rfl (hall none (by simp))
      | some c =>
        obtain ⟨ws', e⟩ := ih (r := r) (by simpa using hl) (fun y hy => hall y (by simp [hy]))
        exact ⟨_, by simp only [widenRow, e]; rfl⟩

theorem widen_complete (prt : Nat → Bool) {rows : List Row} : ∀ {ws : List Int},
    (∀ r, some r ∈ rows → r.length = ws.length ∧ ∀ x ∈ r, x ≠ none) → ∃ ws', widen prt ws rows = some ws' := by
  induction rows with
  | nil => intro ws _; exact ⟨ws, rfl⟩
  | cons row rows ih =>
    intro ws h
    cases row with
    | none =>
      obtain ⟨ws', e⟩ := ih (ws := ws) (fun r hr => h r (by simp [hr]))
      exact ⟨ws', by simpa [widen] using e⟩
    | some r =>
      obtain ⟨h1, h2⟩ := h r (by simp)
      obtain ⟨w1, e1⟩ := widenRow_complete prt h1 h2
      have hlen := (widenRow_spec prt e1).1
      obtain ⟨ws', e⟩ := ih (ws := w1) (fun r hr => by rw [hlen]; exact h r (by simp [hr]))
      exact ⟨ws', by simp only [widen, e1, e]⟩

theorem shrinkable_false (ws : List Int) (n : Nat) : shrinkable ws (List.replicate n false) = [] := by
  unfold shrinkable
  rw [List.map_eq_nil_iff, List.filter_eq_nil_iff]
  intro x hx
  have := (List.of_mem_zip hx).2
  rw [List.mem_replicate] at this
  simp [this.2]

/-- A complete table is printed, row by row. -/
theorem printColumns_complete (prt : Nat → Bool) (termWidth : Int) (r0 : List (Option Cell)) (rows : List Row) (hne : r0 ≠ [])
    (h : ∀ r, some r ∈ some r0 :: rows → r.length = r0.length ∧ ∀ x ∈ r, x ≠ none) :
    ∃ ws, printColumns prt termWidth (some r0 :: rows) (List.replicate r0.length false) = some ((some r0 :: rows).map (lineOf prt ws)) ∧
      ws.length = r0.length ∧ ∀ r, some r ∈ some r0 :: rows → ∀ (j : Nat) (c : Cell), r[j]? = some (some c) →
        ∃ h : j < ws.length, (c.length prt : Int) ≤ ws[j] := by
  have h0 : ∀ r, some r ∈ some r0 :: rows → r.length = (r0.map fun _ => (0 : Int)).length ∧ ∀ x ∈ r, x ≠ none := by
    intro r hr; rw [List.length_map]; exact h r hr
  obtain ⟨ws, e⟩ := widen_complete prt h0
  obtain ⟨h1, _, h3⟩ := widen_spec prt e
  rw [List.length_map] at h1
  have hlay := c63_layout_unchanged termWidth ws (List.replicate r0.length false) (by simp [h1])
    (Or.inr (Or.inr (shrinkable_false ws _)))
  refine ⟨ws, ?_, h1, ?_⟩
  · unfold printColumns
    simp only [initWidths, e, hlay]
    apply printRows_complete
    · intro hn; rw [hn] at h1; exact hne (List.length_eq_zero_iff.1 h1.symm)
    · intro r hr; rw [h1]; exact h r hr
  · intro r hr j c hj
    have hjl : j < r0.length := by
      rw [← (h r hr).1]
      exact (List.getElem?_eq_some_iff.1 hj).1
    obtain ⟨c', e1, h2, h4⟩ := h3 r hr j (by rw [List.length_map]; exact hjl)
    rw [hj] at e1
    injection e1 with e1
    injection e1 with e1
    subst e1
    exact ⟨h2, h4⟩

/-- A table with a missing cell is not printed: the code crashes. -/
theorem printColumns_missing (prt : Nat → Bool) (termWidth : Int) (r0 : List (Option Cell)) (rows : List Row) (shrink : List Bool)
    (r : List (Option Cell)) (hr : some r ∈ some r0 :: rows) (j : Nat) (hj : j < r0.length) (hnone : r[j]? = some none) :
    printColumns prt termWidth (some r0 :: rows) shrink = none := by
  unfold printColumns
  simp only [initWidths]
  cases e : widen prt (r0.map fun _ => (0 : Int)) (some r0 :: rows) with
  | none => rfl
  | some ws =>
    obtain ⟨c, e1, _⟩ := (widen_spec prt e).2.2 r hr j (by simpa using hj)
    rw [hnone] at e1
    simp at e1

theorem tableRows_mem (fmt : TextFmt) (ts : List Txn) (vs : List Posting) : ∀ i r, some r ∈ tableRows fmt ts i vs →
    ∃ v ∈ vs, r = some (fmt.name v) :: ts.map (cellFor fmt v) := by
  induction vs with
  | nil => intro i r h; simp [tableRows] at h
  | cons v vs ih =>
    intro i r h
    simp only [tableRows, List.mem_append, List.mem_cons] at h
    rcases h with h | h | h
    · split at h <;> simp at h
    · injection h with h
      exact ⟨v, by simp, h⟩
    · obtain ⟨w, hw, e⟩ := ih (i + 1) r h
      exact ⟨w, by simp [hw], e⟩

theorem mem_tableRows (fmt : TextFmt) (ts : List Txn) (vs : List Posting) : ∀ i, ∀ v ∈ vs,
    some (some (fmt.name v) :: ts.map (cellFor fmt v)) ∈ tableRows fmt ts i vs := by
  induction vs with
  | nil => intro i v hv; cases hv
  | cons w vs ih =>
    intro i v hv
    simp only [tableRows, List.mem_append, List.mem_cons]
    rcases List.mem_cons.1 hv with rfl | hv
    · right; left; rfl
    · right; right; exact ih (i + 1) v hv

/-- C78: a posting that has no row in the last transaction is reported ("must summarise!"), and nothing is printed. -/
theorem c78_reports_missing (prt : Nat → Bool) (termWidth : Int) (fmt : TextFmt) (ts : List Txn) (h : Tabular ts) (last : Txn)
    (hlast : ts.getLast? = some last) (hmiss : ∃ t ∈ ts, ∃ p ∈ t, ∀ v ∈ last, ¬ SameRow p v) :
    showText prt termWidth fmt ts = .failed := by
  rcases showText_eq prt termWidth fmt ts h last hlast with ⟨_, hf⟩ | ⟨ha, _⟩
  · exact hf
  · obtain ⟨t, ht, p, hp, hn⟩ := hmiss
    obtain ⟨v, hv, hs⟩ := ha t ht p hp
    exact absurd hs (hn v hv)

/-- C78, what holds: if all transactions have the same rows, the report prints the table: every row of the last transaction with, in
the column of every transaction, the amount that transaction has for that row, each column as wide as its widest cell (so nothing is
cut off).  Missing: the cases below in which the code crashes. -/
theorem c78_table_partial (prt : Nat → Bool) (termWidth : Int) (fmt : TextFmt) (ts : List Txn) (h : Tabular ts) (last : Txn)
    (hlast : ts.getLast? = some last) (hall : ∀ t ∈ ts, ∀ p ∈ t, ∃ v ∈ last, SameRow p v)
    (hall' : ∀ t ∈ ts, ∀ v ∈ last, ∃ p ∈ t, SameRow p v) :
    ∃ ws, showText prt termWidth fmt ts = .ok ((table fmt ts last).map (lineOf prt ws)) ∧ ws.length = ts.length + 1 ∧
      ∀ r, some r ∈ table fmt ts last → ∀ (j : Nat) (c : Cell), r[j]? = some (some c) → ∃ h : j < ws.length, (c.length prt : Int) ≤ ws[j] := by
  have hcomp : ∀ r, some r ∈ table fmt ts last →
      r.length = (some fmt.title :: ts.map fun t => (t.head?).map fun p => fmt.header p.date).length ∧ ∀ x ∈ r, x ≠ none := by
    intro r hr
    unfold table at hr
    rcases List.mem_cons.1 hr with hr | hr
    · injection hr with hr
      subst hr
      refine ⟨rfl, ?_⟩
      intro x hx
      rcases List.mem_cons.1 hx with rfl | hx
      · simp
      · obtain ⟨t, ht, rfl⟩ := List.mem_map.1 hx
        obtain ⟨p, t', e⟩ := List.exists_cons_of_ne_nil (h.nonempty t ht)
        rw [e]; simp
    · obtain ⟨v, hv, rfl⟩ := tableRows_mem fmt ts last 0 r hr
      refine ⟨by simp, ?_⟩
      intro x hx
      rcases List.mem_cons.1 hx with rfl | hx
      · simp
      · obtain ⟨t, ht, rfl⟩ := List.mem_map.1 hx
        obtain ⟨p, hp, hs⟩ := hall' t ht v hv
        unfold cellFor
        intro hn
        rw [Option.map_eq_none_iff, List.find?_eq_none] at hn
        exact hn p hp (by simpa using hs)
  obtain ⟨ws, e1, e2, e3⟩ := printColumns_complete prt termWidth _ (tableRows fmt ts 0 last) (by simp) hcomp
  refine ⟨ws, ?_, by simpa using e2, e3⟩
  have e1' : printColumns prt termWidth (table fmt ts last) (List.replicate (ts.length + 1) false) =
      some ((table fmt ts last).map (lineOf prt ws)) := by
    have : (some fmt.title :: ts.map fun t => (t.head?).map fun p => fmt.header p.date).length = ts.length + 1 := by simp
    rw [this] at e1
    exact e1
  rcases showText_eq prt termWidth fmt ts h last hlast with ⟨⟨t, ht, p, hp, hn⟩, _⟩ | ⟨_, ⟨hn, _⟩ | ⟨lines, hl, hs⟩⟩
  · obtain ⟨v, hv, hs⟩ := hall t ht p hp
    exact absurd hs (hn v hv)
  · rw [e1'] at hn; cases hn
  · rw [e1'] at hl
    injection hl with hl
    rw [hs, hl]

/-- C78: exactly when it crashes: a transaction lacks a row of the last one (and no posting lacks a row in the last one). -/
theorem c78_crash (prt : Nat → Bool) (termWidth : Int) (fmt : TextFmt) (ts : List Txn) (h : Tabular ts) (last : Txn)
    (hlast : ts.getLast? = some last) :
    showText prt termWidth fmt ts = .panic ↔
      (∀ t ∈ ts, ∀ p ∈ t, ∃ v ∈ last, SameRow p v) ∧ ∃ t ∈ ts, ∃ v ∈ last, ∀ p ∈ t, ¬ SameRow p v := by
  rcases showText_eq prt termWidth fmt ts h last hlast with ⟨⟨t, ht, p, hp, hn⟩, hf⟩ | ⟨ha, hc⟩
  · rw [hf]
    constructor
    · intro hx; cases hx
    · rintro ⟨ha, _⟩
      obtain ⟨v, hv, hs⟩ := ha t ht p hp
      exact absurd hs (hn v hv)
  · by_cases hall' : ∀ t ∈ ts, ∀ v ∈ last, ∃ p ∈ t, SameRow p v
    · obtain ⟨ws, e, _⟩ := c78_table_partial prt termWidth fmt ts h last hlast ha hall'
      rw [e]
      constructor
      · intro hx; cases hx
      · rintro ⟨_, t, ht, v, hv, hn⟩
        obtain ⟨p, hp, hs⟩ := hall' t ht v hv
        exact absurd hs (hn p hp)
    · have hall2 := hall'
      simp only [not_forall, not_exists, not_and] at hall'
      obtain ⟨t, ht, v, hv, hn⟩ := hall'
      refine iff_of_true ?_ ⟨ha, t, ht, v, hv, hn⟩
      obtain ⟨j, hj, ej⟩ := List.getElem_of_mem ht
      have hcell : cellFor fmt v t = none := by
        unfold cellFor
        rw [Option.map_eq_none_iff, List.find?_eq_none]
        intro p hp
        simpa using hn p hp
      have hpc : printColumns prt termWidth (table fmt ts last) (List.replicate (ts.length + 1) false) = none := by
        apply printColumns_missing prt termWidth _ _ _ _ (List.mem_cons_of_mem _ (mem_tableRows fmt ts last 0 v hv)) (j + 1)
        · simpa using hj
        · simp [hj, ej, hcell]
      rcases hc with ⟨_, h2⟩ | ⟨lines, hl, _⟩
      · exact h2
      · rw [hpc] at hl; cases hl

/-- C78 is false: an empty book crashes the report. -/
theorem c78_empty_fails (prt : Nat → Bool) (termWidth : Int) (fmt : TextFmt) : showText prt termWidth fmt [] = .panic := rfl

/-- Two transactions on different accounts. -/
def textDemo : List Txn :=
  [[⟨20200101, b!"a", [], b!"A", b!"USD", 1, [], 0, 0, b!"A", []⟩, ⟨20200101, b!"a", [], b!"B", b!"USD", -1, [], 0, 0, b!"B", []⟩],
   [⟨20200102, b!"b", [], b!"A", b!"USD", 1, [], 0, 0, b!"A", []⟩, ⟨20200102, b!"b", [], b!"B", b!"USD", 1, [], 0, 0, b!"B", []⟩,
    ⟨20200102, b!"b", [], b!"C", b!"USD", -2, [], 0, 0, b!"C", []⟩]]

theorem textDemo_tabular : Tabular textDemo :=
  ⟨by decide +kernel, by decide +kernel, by decide +kernel, by decide +kernel⟩

/-- C78 is false: without summarising, the report crashes when an earlier transaction lacks an account of the last one (the other way
round it reports an error). -/
theorem c78_crash_fails : ¬ ∀ (prt : Nat → Bool) (termWidth : Int) (fmt : TextFmt) (ts : List Txn), Tabular ts → ts ≠ [] →
    showText prt termWidth fmt ts ≠ .panic := by
  intro h
  refine h (fun _ => true) 0 ⟨.str [], fun _ => .str [], fun _ => .str [], fun _ _ => .str [], fun _ _ => .str []⟩ textDemo textDemo_tabular
    (by decide +kernel) ?_
  rw [c78_crash _ _ _ _ textDemo_tabular _ rfl]
  decide +kernel

/-! ## After summarising -/

theorem exists_deepest {S : List Str} {div a : Str} (h : ∃ k ∈ S, Above div k a) :
    ∃ k ∈ S, Above div k a ∧ ∀ k' ∈ S, Above div k' a → k'.length ≤ k.length := by
  obtain ⟨k0, h0, h0'⟩ := h
  induction S with
  | nil => cases h0
  | cons x S ih =>
    by_cases hS : ∃ k ∈ S, Above div k a
    · obtain ⟨k1, h1, h1'⟩ := hS
      have : ∃ k ∈ S, Above div k a ∧ ∀ k' ∈ S, Above div k' a → k'.length ≤ k.length := by
        by_cases hk0 : k0 ∈ S
        · exact ih hk0
        · clear ih
          have hfin : (S.filter fun k => decide (Above div k a)) ≠ [] := by
            intro hn
            rw [List.filter_eq_nil_iff] at hn
            exact hn k1 h1 (by simpa using h1')
          obtain ⟨m, hm⟩ := Option.isSome_iff_exists.1 (List.isSome_max?_of_ne_nil (l := (S.filter fun k => decide (Above div k a)).map List.length)
            (by simpa using hfin))
          rw [List.max?_eq_some_iff] at hm
          obtain ⟨k, hk, e⟩ := List.mem_map.1 hm.1
          rw [List.mem_filter] at hk
          refine ⟨k, hk.1, by simpa using hk.2, ?_⟩
          intro k' hk' ha
          rw [e]
          exact hm.2 _ (List.mem_map.2 ⟨k', List.mem_filter.2 ⟨hk', by simpa using ha⟩, rfl⟩)
      obtain ⟨k, hk, ha, hmax⟩ := this
      by_cases hx : Above div x a ∧ k.length < x.length
      · refine ⟨x, by simp, hx.1, ?_⟩
        intro k' hk' ha'
        rcases List.mem_cons.1 hk' with rfl | hk'
        · exact le_rfl
        · have := hmax k' hk' ha'; omega
      · refine ⟨k, by simp [hk], ha, ?_⟩
        intro k' hk' ha'
        rcases List.mem_cons.1 hk' with rfl | hk'
        · by_contra hc
          exact hx ⟨ha', by omega⟩
        · exact hmax k' hk' ha'
    · have hk0 : k0 = x := by
        rcases List.mem_cons.1 h0 with rfl | h
        · rfl
        · exact absurd ⟨k0, h, h0'⟩ hS
      subst hk0
      refine ⟨k0, by simp, h0', ?_⟩
      intro k' hk' ha'
      rcases List.mem_cons.1 hk' with rfl | hk'
      · exact le_rfl
      · exact absurd ⟨k', hk', ha'⟩ hS

/-- What a row key says about the row of the text report. -/
private def proj (k : RowKey) : Str × Str × Str := (k.acct, k.term, k.ccy)

private theorem textKey_map (t : Txn) : t.map textKey = (t.map rowKey).map proj := by
  rw [List.map_map]; rfl

private theorem textKeys_nodup {S : List Str} {A : List (Str × Str)} {base div : Str} (hS : S.Nodup) (hA : A.Nodup) (hd : div ≠ [])
    (hacct : ∀ e ∈ A, e.1 ≠ [] ∧ ¬ div <:+ e.1)
    (hok : ∀ e ∈ A, (splitByStrings S e.1 true div).isSome) (hok' : ∀ k ∈ S, (splitByStrings S k false div).isSome) :
    ((A.map (leafKey S div) ++ S.map (sumKey S div base)).map proj).Nodup := by
  have hl : ∀ e, (leafKey S div e).acct = e.1 ∧ (leafKey S div e).ccy = e.2 := by
    intro e; unfold leafKey; split <;> exact ⟨rfl, rfl⟩
  have hk : ∀ k, (sumKey S div base k).acct = k := by
    intro e; unfold sumKey; split <;> rfl
  rw [List.map_append, List.map_map, List.map_map, List.nodup_append]
  refine ⟨?_, ?_, ?_⟩
  · refine hA.map ?_
    intro e e' h
    simp only [Function.comp, proj, Prod.mk.injEq, (hl e).1, (hl e').1, (hl e).2, (hl e').2] at h
    exact Prod.ext h.1 h.2.2
  · refine hS.map ?_
    intro k k' h
    simp only [Function.comp, proj, Prod.mk.injEq, hk] at h
    exact h.1
  · intro x hx y hy hxy
    obtain ⟨e, he, rfl⟩ := List.mem_map.1 hx
    obtain ⟨k, hkS, rfl⟩ := List.mem_map.1 hy
    simp only [Function.comp, proj, Prod.mk.injEq, hk, (hl e).1] at hxy
    obtain ⟨h1, h2, _⟩ := hxy
    obtain ⟨lt, hlt⟩ := Option.isSome_iff_exists.1 (hok e he)
    obtain ⟨lt', hlt'⟩ := Option.isSome_iff_exists.1 (hok' k hkS)
    have c1 := c51_level_and_term S hS div e.1 hd true lt.1 lt.2 hlt
    have c2 := c51_level_and_term S hS div k hd false lt'.1 lt'.2 hlt'
    have e1 : (leafKey S div e).term = lt.2 := by unfold leafKey; rw [hlt]
    have e2 : (sumKey S div base k).term = lt'.2 := by unfold sumKey; rw [hlt']
    rw [e1, e2, c1.own (by rw [h1]; simp [hkS])] at h2
    have ha := hacct e he
    rw [h1] at ha
    by_cases habove : ∃ k' ∈ S, Above div k' k
    · obtain ⟨k', h3, h4, h5⟩ := exists_deepest habove
      have := c2.under (by simp) k' h3 h4 h5
      rw [← h2, List.append_nil] at this
      exact ha.2 ⟨k', this.symm⟩
    · have := c2.top (by simp) (fun k' h3 h4 => habove ⟨k', h3, h4⟩)
      exact ha.1 (by rw [← this, ← h2])

/-- A summarised book gives a proper table (if the account names are proper). -/
theorem tabular_good (srt : List Posting → List Posting) (hs : IsSort srt) (b : Book) (w : b.WF) (hbal : Balanced b.post)
    (base div : Str) (hd : div ≠ []) (hb : base ≠ []) (credit : Option (Str → Bool)) (hidden : Str) (o : Int → Str → List Str → List Str)
    (ho : ∀ d py l, (o d py l).Perm l) (ts : List Txn) (h : b.accumulate srt base div credit hidden o = some ts)
    (hp : ∀ p ∈ reported srt b, p.ccy ≠ [] ∧ p.acct ≠ [] ∧ ¬ div <:+ p.acct) : Tabular ts := by
  obtain ⟨gs, rfl, g2, _⟩ := accumulate_good hs w hbal ho h
  have hA := c48_accounts srt b
  have hAp : ∀ e ∈ acctsOf srt b, e.2 ≠ [] ∧ e.1 ≠ [] ∧ ¬ div <:+ e.1 := by
    intro e he
    obtain ⟨p, h1, h2, h3⟩ := (hA.2 e.1 e.2).1 he
    rw [← h2, ← h3]
    exact hp p h1
  have hkeys : ∀ g ∈ gs, (g.map rowKey).Perm ((acctsOf srt b).map (leafKey (summaries srt b base div) div) ++
      (summaries srt b base div).map (sumKey (summaries srt b base div) div base)) := by
    intro g hg
    obtain ⟨u, _, h1, _, h3⟩ := forall₂_mem_right g2 hg
    exact report_keys h1 h3
  have hmem : ∀ t ∈ gs.map (hideFlip credit hidden), ∀ p ∈ t, rowKey p ∈ ((acctsOf srt b).map (leafKey (summaries srt b base div) div) ++
      (summaries srt b base div).map (sumKey (summaries srt b base div) div base)) := by
    intro t ht p hpt
    obtain ⟨g, hg, rfl⟩ := List.mem_map.1 ht
    have : rowKey p ∈ (hideFlip credit hidden g).map rowKey := List.mem_map.2 ⟨p, hpt, rfl⟩
    rw [hideFlip_keys, List.mem_filter] at this
    exact (hkeys g hg).mem_iff.1 this.1
  refine ⟨?_, ?_, ?_, ?_⟩
  · intro t ht hnil
    obtain ⟨g, hg, rfl⟩ := List.mem_map.1 ht
    have hne : b.transactions srt ≠ [] := by
      intro hn
      rw [hn] at g2
      cases g2
      cases hg
    obtain ⟨_, _, _, _, _, _, _, htwo⟩ := book_data hs w hbal hne
    obtain ⟨e, he, hex⟩ := htwo hidden
    have hk := hideFlip_keys credit hidden g
    rw [hnil, List.map_nil] at hk
    have hk := List.filter_eq_nil_iff.1 hk.symm
    refine hk (leafKey (summaries srt b base div) div e) ((hkeys g hg).mem_iff.2 (List.mem_append_left _ (List.mem_map.2 ⟨e, he, rfl⟩))) ?_
    have : (leafKey (summaries srt b base div) div e).acct = e.1 := by unfold leafKey; split <;> rfl
    simp [this, hex]
  · intro t ht
    obtain ⟨g, hg, rfl⟩ := List.mem_map.1 ht
    have hn : ((hideFlip credit hidden g).map textKey).Nodup := by
      rw [textKey_map, hideFlip_keys]
      refine List.Nodup.sublist ((List.filter_sublist).map _) ?_
      rw [((hkeys g hg).map proj).nodup_iff]
      obtain ⟨u, _, h1, _, B, hbl, _⟩ := forall₂_mem_right g2 hg
      obtain ⟨l, s, S', rfl, hS', f1, f2⟩ := hbl.ex
      obtain ⟨p0, hp0⟩ := List.exists_mem_of_ne_nil u h1.1
      refine textKeys_nodup (accumSet_nodup _ _ _) hA.1 hd (fun e he => (hAp e he).2) ?_ ?_
      · intro e he
        obtain ⟨r, _, lt, _, hsp, _⟩ := forall₂_mem_left f1 (List.mem_map.2 ⟨e, he, rfl⟩)
        have k1 : (entryOf u e).acct = e.1 := congrArg Prod.fst (entryOf_key h1 e hp0).2.2
        rw [← k1, hsp]; rfl
      · intro k hk
        obtain ⟨r, _, lt, hsp, _⟩ := forall₂_mem_left f2 (hS'.mem_iff.2 hk)
        rw [hsp]; rfl
    rw [List.Nodup, List.pairwise_map] at hn
    exact hn.imp fun hne e => hne (sameRow_iff.1 e)
  · intro t ht p hpt
    have hc : p.ccy = (rowKey p).ccy := rfl
    rw [hc]
    rcases List.mem_append.1 (hmem t ht p hpt) with hm | hm
    · obtain ⟨e, he, e1⟩ := List.mem_map.1 hm
      rw [← e1]
      have : (leafKey (summaries srt b base div) div e).ccy = e.2 := by unfold leafKey; split <;> rfl
      rw [this]
      exact (hAp e he).1
    · obtain ⟨k, _, e1⟩ := List.mem_map.1 hm
      rw [← e1]
      have : (sumKey (summaries srt b base div) div base k).ccy = base := by unfold sumKey; split <;> rfl
      rw [this]
      exact hb
  · intro t ht p hpt
    have hc : p.acctlevel = (rowKey p).level := rfl
    rw [hc]
    rcases List.mem_append.1 (hmem t ht p hpt) with hm | hm
    · obtain ⟨e, he, e1⟩ := List.mem_map.1 hm
      rw [← e1]
      unfold leafKey
      split <;> simp
    · obtain ⟨k, _, e1⟩ := List.mem_map.1 hm
      rw [← e1]
      unfold sumKey
      split <;> simp

theorem accumulate_tabular (srt : List Posting → List Posting) (hs : IsSort srt) (today : Int) (b : Book) (hr : Reachable srt today b)
    (base div : Str) (hd : div ≠ []) (hb : base ≠ []) (credit : Option (Str → Bool)) (hidden : Str) (o : Int → Str → List Str → List Str)
    (ho : ∀ d py l, (o d py l).Perm l) (ts : List Txn) (h : b.accumulate srt base div credit hidden o = some ts)
    (hp : ∀ p ∈ reported srt b, p.ccy ≠ [] ∧ p.acct ≠ [] ∧ ¬ div <:+ p.acct) : Tabular ts := by
  obtain ⟨w, hbal⟩ := reachable_wf hs hr
  exact tabular_good srt hs b w hbal base div hd hb credit hidden o ho ts h hp

/-- C78, what holds for summarised books (`--sum`): the report never crashes and never complains; it prints the table of the summary:
every row of every transaction is there and nothing else.  Missing: accounts with an empty name or one that ends in the divider. -/
theorem c78_sum_partial (srt : List Posting → List Posting) (hs : IsSort srt) (today : Int) (b : Book) (hr : Reachable srt today b)
    (base div : Str) (hd : div ≠ []) (hb : base ≠ []) (credit : Option (Str → Bool)) (hidden : Str) (o : Int → Str → List Str → List Str)
    (ho : ∀ d py l, (o d py l).Perm l) (ts : List Txn) (h : b.accumulate srt base div credit hidden o = some ts)
    (hp : ∀ p ∈ reported srt b, p.ccy ≠ [] ∧ p.acct ≠ [] ∧ ¬ div <:+ p.acct) (hne : b.transactions srt ≠ [])
    (prt : Nat → Bool) (termWidth : Int) (fmt : TextFmt) :
    ∃ last ws, ts.getLast? = some last ∧ showText prt termWidth fmt ts = .ok ((table fmt ts last).map (lineOf prt ws)) ∧
      (∀ t ∈ ts, ∀ v ∈ last, ∃ p ∈ t, cellFor fmt v t = some (fmt.money p.ccy p.val) ∧ SameRow p v) ∧
      ws.length = ts.length + 1 ∧
      ∀ r, some r ∈ table fmt ts last → ∀ (j : Nat) (c : Cell), r[j]? = some (some c) → ∃ h : j < ws.length, (c.length prt : Int) ≤ ws[j] := by
  have htab := accumulate_tabular srt hs today b hr base div hd hb credit hidden o ho ts h hp
  have hlen := c47_one_per_transaction srt hs today b hr base div credit hidden o ho ts h
  have hts : ts ≠ [] := by
    intro e
    rw [e] at hlen
    exact hne (List.length_eq_zero_iff.1 hlen.symm)
  have hlast : ts.getLast? = some (ts.getLast hts) := List.getLast?_eq_some_getLast hts
  have hm := List.getLast_mem hts
  have hrect := (c47_rectangular srt hs today b hr base div hd credit hidden o ho ts h).2
  have hsame : ∀ t ∈ ts, ∀ u ∈ ts, ∀ p ∈ t, ∃ v ∈ u, SameRow p v := by
    intro t ht u hu p hpt
    obtain ⟨v, hv, e⟩ := List.mem_map.1 ((hrect t ht u hu).mem_iff.1 (List.mem_map.2 ⟨p, hpt, rfl⟩))
    simp only [rowKey, RowKey.mk.injEq] at e
    exact ⟨v, hv, e.1.symm, e.2.1.symm, e.2.2.2.symm⟩
  have hall' : ∀ t ∈ ts, ∀ v ∈ ts.getLast hts, ∃ p ∈ t, SameRow p v := by
    intro t ht v hv
    obtain ⟨p, hpt, e⟩ := hsame _ hm t ht v hv
    exact ⟨p, hpt, e.1.symm, e.2.1.symm, e.2.2.symm⟩
  obtain ⟨ws, e1, e2, e3⟩ := c78_table_partial prt termWidth fmt ts htab _ hlast (fun t ht p hpt => hsame t ht _ hm p hpt) hall'
  refine ⟨_, ws, hlast, e1, ?_, e2, e3⟩
  intro t ht v hv
  obtain ⟨p, hpt, e⟩ := hall' t ht v hv
  have hs : (t.find? fun p => decide (SameRow p v)).isSome := List.find?_isSome.2 ⟨p, hpt, by simpa using e⟩
  obtain ⟨q, hq⟩ := Option.isSome_iff_exists.1 hs
  refine ⟨q, List.mem_of_find?_eq_some hq, by unfold cellFor; rw [hq]; rfl, ?_⟩
  simpa using List.find?_some hq

/-- The hypotheses are met by the demo book. -/
example : (∀ p ∈ reported insSort demoBook, p.ccy ≠ [] ∧ p.acct ≠ [] ∧ ¬ b!":" <:+ p.acct) ∧ demoBook.transactions insSort ≠ [] ∧
    (demoBook.accumulate insSort b!"USD" b!":" none [] (fun _ _ l => l)).isSome := by decide +kernel

/-- A book with an account whose name ends in the divider. -/
def colonCalls : List Call :=
  [.newTransaction 20200131 b!"shop" [], .addPosting b!"A:" b!"USD" 1 [], .addPosting b!"A:" b!"EUR" 1 [], .addPosting b!"A" b!"USD" (-1) [], .addPosting b!"A" b!"EUR" (-1) []]

/-- C78 is false even after summarising: the ordinary row and the subtotal row of an account whose name ends in the divider look the
same to the report, the amounts of both go to one of them and the other crashes it. -/
theorem c78_divider_fails : ¬ ∀ (b : Book), Reachable insSort 0 b → ∀ ts, b.accumulate insSort b!"USD" b!":" none [] (fun _ _ l => l) = some ts →
    (∀ p ∈ reported insSort b, p.ccy ≠ [] ∧ p.acct ≠ []) → ts ≠ [] →
    showText (fun _ => true) 80 ⟨.str [], fun _ => .str [], fun _ => .str [], fun _ _ => .str [], fun _ _ => .str []⟩ ts ≠ .panic := by
  intro h
  have hb : ((Builder.new.calls colonCalls).bind (Builder.build insSort)).isSome = true := by decide +kernel
  obtain ⟨b, hb⟩ := Option.isSome_iff_exists.1 hb
  have hr : Reachable insSort 0 b := by
    obtain ⟨bb, h1, h2⟩ := Option.bind_eq_some_iff.1 hb
    exact ⟨colonCalls, bb, b, [], h1, h2, rfl⟩
  have key : ∀ b, (Builder.new.calls colonCalls).bind (Builder.build insSort) = some b →
      (∀ p ∈ reported insSort b, p.ccy ≠ [] ∧ p.acct ≠ []) ∧
      ∃ ts, b.accumulate insSort b!"USD" b!":" none [] (fun _ _ l => l) = some ts ∧ ts ≠ [] ∧
        showText (fun _ => true) 80 ⟨.str [], fun _ => .str [], fun _ => .str [], fun _ _ => .str [], fun _ _ => .str []⟩ ts = .panic := by
    have hd : ∀ x, (Builder.new.calls colonCalls).bind (Builder.build insSort) = x → ∀ b ∈ x, (∀ p ∈ reported insSort b, p.ccy ≠ [] ∧ p.acct ≠ []) ∧
        ((b.accumulate insSort b!"USD" b!":" none [] (fun _ _ l => l)).any fun ts => !ts.isEmpty &&
          (match showText (fun _ => true) 80 ⟨.str [], fun _ => .str [], fun _ => .str [], fun _ _ => .str [], fun _ _ => .str []⟩ ts with
            | .panic => true | _ => false)) = true := by
      rintro _ rfl
      decide +kernel
    intro b hb
    obtain ⟨h1, h2⟩ := hd _ hb b rfl
    refine ⟨h1, ?_⟩
    rw [Option.any_eq_true] at h2
    obtain ⟨ts, e, h3⟩ := h2
    rw [Bool.and_eq_true] at h3
    refine ⟨ts, e, by intro hn; simp [hn] at h3, ?_⟩
    have h4 := h3.2
    revert h4
    split
    · intro _; assumption
    · simp
  obtain ⟨h1, ts, h2, h3, h4⟩ := key b hb
  exact h b hr ts h2 h1 h3 h4

end Verif
