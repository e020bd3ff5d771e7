import Verif.Spec.ReportText
import Verif.Model.ReportText
import Verif.Props.RegText
import Verif.Props.Text

/-! # C129: the text report on the screen -/

namespace Verif
open Spec

/-! ## Blank lines, and columns that do not shrink -/

theorem shrinkSums_none (ws : List Int) : ∀ (k : Nat) (sw n : Int), shrinkSums ws (List.replicate k false) = some (sw, n) → n = 0 := by
  induction ws with
  | nil => intro k sw n h; simp only [shrinkSums, Option.some.injEq, Prod.mk.injEq] at h; exact h.2.symm
  | cons w ws ih =>
    intro k sw n h
    cases k with
    | zero => simp [shrinkSums] at h
    | succ k =>
      rw [List.replicate_succ, shrinkSums] at h
      cases hs : shrinkSums ws (List.replicate k false) with
      | none => rw [hs] at h; cases h
      | some x =>
        obtain ⟨a, b⟩ := x
        rw [hs] at h
        simp only [Bool.false_eq_true, if_false, Option.some.injEq, Prod.mk.injEq] at h
        rw [← h.2]
        exact ih k a b hs

theorem printColumns_noShrink (prt : Nat → Bool) (tw : Int) (rows : List Row) (k : Nat) :
    printColumns prt tw rows (List.replicate k false) = printColumns prt 0 rows (List.replicate k false) := by
  have hl : ∀ ws, layout tw ws (List.replicate k false) = layout 0 ws (List.replicate k false) := by
    intro ws
    unfold layout
    cases hs : shrinkSums ws (List.replicate k false) with
    | none => rfl
    | some x =>
      obtain ⟨a, b⟩ := x
      have := shrinkSums_none ws k a b hs
      subst this
      simp
  unfold printColumns
  simp only [hl]

/-- The lines of a table, with the blank lines. -/
def weave : List Row → List (List Nat) → List (List Nat)
  | [], _ => []
  | none :: rows, ls => [10] :: weave rows ls
  | some _ :: rows, l :: ls => l :: weave rows ls
  | some _ :: _, [] => []

theorem widen_blank (prt : Nat → Bool) (rows : List Row) : ∀ ws, widen prt ws rows = widen prt ws (rows.filter Option.isSome) := by
  induction rows with
  | nil => intro ws; rfl
  | cons r rows ih =>
    intro ws
    cases r with
    | none => rw [List.filter_cons_of_neg (by simp)]; exact ih ws
    | some r =>
      rw [List.filter_cons_of_pos (by simp), widen, widen]
      cases widenRow prt ws r with
      | none => rfl
      | some ws' => exact ih ws'

theorem printRows_blank (prt : Nat → Bool) (ws : List Int) (rows : List Row) :
    printRows prt ws rows = (printRows prt ws (rows.filter Option.isSome)).map (weave rows) := by
  induction rows with
  | nil => rfl
  | cons r rows ih =>
    cases r with
    | none =>
      rw [List.filter_cons_of_neg (by simp), printRows, ih, Option.map_map]
      rfl
    | some r =>
      rw [List.filter_cons_of_pos (by simp), printRows, printRows]
      cases printRow prt ws r with
      | none => rfl
      | some l =>
        simp only
        rw [ih, Option.map_map, Option.map_map]
        rfl

theorem printColumns_blank (prt : Nat → Bool) (tw : Int) (r : List (Option Cell)) (rows : List Row) (sh : List Bool) :
    printColumns prt tw (some r :: rows) sh = (printColumns prt tw (some r :: rows.filter Option.isSome) sh).map (weave (some r :: rows)) := by
  unfold printColumns
  simp only [initWidths]
  rw [widen_blank prt (some r :: rows), List.filter_cons_of_pos (by simp)]
  cases widen prt (r.map fun _ => 0) (some r :: rows.filter Option.isSome) with
  | none => rfl
  | some ws =>
    simp only
    cases layout tw ws sh with
    | none => rfl
    | some ws' =>
      simp only
      rw [printRows_blank prt ws' (some r :: rows), List.filter_cons_of_pos (by simp)]

theorem weave_map (g : List Cell → List Nat) : ∀ rows : List (Option (List Cell)),
    (weave (rows.map (Option.map (List.map some))) ((rows.filterMap id).map g)) = rows.map fun r => r.elim [10] g := by
  intro rows
  induction rows with
  | nil => rfl
  | cons r rows ih =>
    cases r with
    | none => show _ = [10] :: rows.map _; rw [← ih]; rfl
    | some r => show _ = g r :: rows.map _; rw [← ih]; rfl

theorem weave_plain : ∀ (rows : List Row) (ls : List (List Nat)), (weave rows ls).map plain = weave rows (ls.map plain)
  | [], _ => rfl
  | none :: rows, ls => by
    rw [weave, weave, List.map_cons, weave_plain rows ls]
    rfl
  | some _ :: rows, l :: ls => by rw [weave, List.map_cons, List.map_cons, weave, weave_plain rows ls]
  | some _ :: _, [] => rfl

/-- A table without columns to shrink, as seen. -/
theorem whole_table (prt : Nat → Bool) (hsp : prt 32 = true) (tw : Int) (head : List Cell) (rest : List (Option (List Cell))) (hh : head ≠ [])
    (hlen : ∀ r, some r ∈ rest → r.length = head.length)
    (hclosed : ∀ r, some r ∈ some head :: rest → ∀ c ∈ r, c.Closed ∧ SymbolOk prt c) :
    ∃ lines, printColumns prt tw ((some head :: rest).map (Option.map (List.map some))) (List.replicate head.length false) = some lines ∧
      WholeTable ((some head :: rest).map (Option.map (List.map (cellCol prt)))) (lines.map plain) := by
  obtain ⟨ws, hws⟩ : ∃ ws, Widest ((head :: rest.filterMap id).map fun r => r.map (cellCol prt)) ws := by
    refine ⟨_, widest_spec _ head.length (by simp) ?_⟩
    intro r hr
    obtain ⟨r0, h0, rfl⟩ := List.mem_map.1 hr
    rw [List.length_map]
    rcases List.mem_cons.1 h0 with rfl | h0
    · rfl
    · exact hlen r0 (by simpa using h0)
  have hwl : ws.length = head.length := by
    have := hws.1 (head.map (cellCol prt)) (by simp)
    rw [← this, List.length_map]
  have hne : ws ≠ [] := by
    intro h
    rw [h] at hwl
    exact hh (List.length_eq_zero_iff.1 hwl.symm)
  obtain ⟨lines, ws', e1, e2, -, e4⟩ := table_plain prt hsp 0 head (rest.filterMap id) (List.replicate head.length false) ws hws hne (by simp [hwl])
    (by
      intro r hr c hc
      refine hclosed r ?_ c hc
      rcases List.mem_cons.1 hr with rfl | hr
      · simp
      · exact List.mem_cons_of_mem _ (by simpa using hr))
    (by
      intro r hr j c hj _
      have hrl : r.length = head.length := by
        rcases List.mem_cons.1 hr with rfl | hr
        · rfl
        · exact hlen r (by simpa using hr)
      obtain ⟨hj', _⟩ := List.getElem?_eq_some_iff.1 hj
      rw [List.getElem?_replicate, if_pos (by omega)])
    (by omega) (by omega)
  have hww : ws' = ws := by
    apply List.ext_getElem?
    intro j
    by_cases hj : j < ws.length
    · have a := List.getElem?_eq_getElem hj
      have b : ws'[j]? = some (ws'[j]'(by rw [e2.1]; exact hj)) := List.getElem?_eq_getElem (by rw [e2.1]; exact hj)
      rw [a, b, (e2.2 j _ _ a b).2 (by rw [List.getElem?_replicate, if_pos (by omega)])]
    · rw [List.getElem?_eq_none (l := ws') (by rw [e2.1]; omega), List.getElem?_eq_none (by omega)]
  subst hww
  have hfil : ((rest.map (Option.map (List.map some))).filter Option.isSome : List Row) =
      (rest.filterMap id).map fun r => some (r.map some) := by
    clear * -
    induction rest with
    | nil => rfl
    | cons r rest ih =>
      cases r with
      | none => rw [List.map_cons, List.filter_cons_of_neg (by simp)]; exact ih
      | some r => rw [List.map_cons, List.filter_cons_of_pos (by simp), ih]; rfl
  refine ⟨weave ((some head :: rest).map (Option.map (List.map some))) lines, ?_, ws', ?_, ?_⟩
  · rw [printColumns_noShrink, List.map_cons, Option.map_some, printColumns_blank, hfil]
    rw [List.map_cons] at e1
    rw [e1]
    rfl
  · have : (((some head :: rest).map (Option.map (List.map (cellCol prt)))).filterMap id) = (head :: rest.filterMap id).map fun r => r.map (cellCol prt) := by
      rw [List.filterMap_map, List.filterMap_cons]
      simp only [Function.comp, Option.map_some, id, List.map_cons]
      congr 1
      clear * -
      induction rest with
      | nil => rfl
      | cons r rest ih => cases r <;> simp [ih]
    rw [this]
    exact hws
  · rw [weave_plain, e4]
    have := weave_map (fun r => spaced (List.zipWith ColText.on ws' (r.map (cellCol prt))) ++ [10]) (some head :: rest)
    refine Eq.trans this ?_
    rw [List.map_map]
    apply List.map_congr_left
    intro r _
    cases r <;> rfl

/-! ## The cells of the report -/

/-- The cell of an amount. -/
def moneyCell (f : Fmt) (colour : Bool) (ccy : Str) (v : Rat) : Cell :=
  .money (ansi colour ansiBlue (inFront f.letter ccy)) (ansi colour (if (0 : Rat) ≤ v then ansiBlue else ansiRed) (f.number ccy v))

theorem money_cell {f : Fmt} {colour : Bool} {ccy : Str} (h : ccy ≠ []) (v : Rat) : (reportFmt f colour).money ccy v = moneyCell f colour ccy v := by
  show (columnMoney f colour ccy v).getD _ = _
  unfold columnMoney
  rw [inFront_some h]
  rfl

theorem money_seen {prt : Nat → Bool} (hp : AsciiPrint prt) {f : Fmt} (hg : GroupsDigits f.grp) (hpt : f.point = 46) (colour : Bool) {ccy : Str}
    (h5 : ∀ c ∈ ccy, prt c = true ∧ c ≠ 27 ∧ c ≠ 9) (v : Rat) :
    cellCol prt (moneyCell f colour ccy v) = .money (inFront f.letter ccy) (f.number ccy v) ∧
    (moneyCell f colour ccy v).Closed ∧ SymbolOk prt (moneyCell f colour ccy v) := by
  have hn27 : 27 ∉ f.number ccy v := fun hm => by have := number_ascii hg hpt _ _ _ hm; omega
  have hs : ∀ c ∈ inFront f.letter ccy, prt c = true ∧ c ≠ 27 ∧ c ≠ 9 := by
    intro c hc
    rcases inFront_mem hc with h | rfl
    · exact h5 c h
    · exact ⟨(hp 32 (by omega)).2 (by omega), by omega, by omega⟩
  have hs27 : 27 ∉ inFront f.letter ccy := fun hm => (hs _ hm).2.1 rfl
  have hsym : onScreen prt (inFront f.letter ccy) = inFront f.letter ccy := onScreen_self fun c hc => ⟨(hs c hc).1, (hs c hc).2.2⟩
  refine ⟨?_, ⟨terminated_ansi colour code_blue hs27, terminated_ansi colour (code_sign v) hn27⟩, ?_⟩
  · unfold moneyCell
    rw [cellCol, plain_ansi colour code_blue hs27, plain_ansi colour (code_sign v) hn27, hsym, ascii_self hp (number_ascii hg hpt _ _)]
  · show onScreen prt (plain _) = plain _
    rw [plain_ansi colour code_blue hs27, hsym]

theorem code_blueUL : IsCode ansiBlueUL := ⟨b!"[4;34", by decide, rfl⟩

theorem name_seen {prt : Nat → Bool} {f : Fmt} {colour : Bool} {v : Posting} (hl : 0 ≤ v.acctlevel) (h : 27 ∉ v.acctterm) :
    cellCol prt ((reportFmt f colour).name v) = .left (onScreen prt (labelText v)) ∧
    ((reportFmt f colour).name v).Closed ∧ SymbolOk prt ((reportFmt f colour).name v) := by
  unfold TextFmt.name labelText
  by_cases h0 : v.acctlevel = 0
  · rw [if_pos h0, h0]
    show cellCol prt (.str (ansi colour ansiBlueUL v.acctterm)) = _ ∧ _
    refine ⟨?_, terminated_ansi colour code_blueUL h, trivial⟩
    rw [cellCol, plain_ansi colour code_blueUL h]
    rfl
  · rw [if_neg h0]
    have h27 : 27 ∉ List.replicate (2 * v.acctlevel.toNat) 32 ++ v.acctterm := by
      intro hm
      rcases List.mem_append.1 hm with hm | hm
      · have := List.eq_of_mem_replicate hm; omega
      · exact h hm
    show cellCol prt (.str (List.replicate (2 * v.acctlevel.toNat) 32 ++ v.acctterm)) = _ ∧ _
    refine ⟨?_, terminated_plain h27, trivial⟩
    rw [cellCol, plain_self h27]

/-- The cell in the row of `v`. -/
def cellIn (f : Fmt) (colour : Bool) (v : Posting) (t : Txn) : Cell :=
  match t.find? fun p => decide (SameRow p v) with
  | some p => moneyCell f colour p.ccy p.val
  | none => .str []

theorem cell_in {f : Fmt} {colour : Bool} {v : Posting} {t : Txn} (hc : ∀ p ∈ t, p.ccy ≠ []) (h : ∃ p ∈ t, SameRow p v) :
    cellFor (reportFmt f colour) v t = some (cellIn f colour v t) := by
  unfold cellFor cellIn
  cases hf : t.find? fun p => decide (SameRow p v) with
  | none =>
    obtain ⟨p, hp, hs⟩ := h
    rw [List.find?_eq_none] at hf
    exact absurd (by simpa using hs) (hf p hp)
  | some p => exact congrArg some (money_cell (hc p (List.mem_of_find?_eq_some hf)) _)

/-- The rows of cells. -/
def cellRows (f : Fmt) (colour : Bool) (ts : List Txn) (first : Bool) : List Posting → List (Option (List Cell))
  | [] => []
  | v :: vs =>
    (if first = false ∧ v.acctlevel = 0 then [none] else []) ++
      some ((reportFmt f colour).name v :: ts.map (cellIn f colour v)) :: cellRows f colour ts false vs

theorem tableRows_cells {f : Fmt} {colour : Bool} {ts : List Txn} (hc : ∀ t ∈ ts, ∀ p ∈ t, p.ccy ≠ []) :
    ∀ (l : List Posting) (i : Nat), (∀ v ∈ l, ∀ t ∈ ts, ∃ p ∈ t, SameRow p v) →
      tableRows (reportFmt f colour) ts i l = (cellRows f colour ts (decide (i = 0)) l).map (Option.map (List.map some)) := by
  intro l
  induction l with
  | nil => intro i _; rfl
  | cons v l ih =>
    intro i h
    have e : ts.map (cellFor (reportFmt f colour) v) = (ts.map (cellIn f colour v)).map some := by
      rw [List.map_map]
      apply List.map_congr_left
      intro t ht
      exact cell_in (hc t ht) (h v (by simp) t ht)
    have hi : (decide (i = 0) = false) ↔ 0 < i := by simp [Nat.pos_iff_ne_zero]
    rw [tableRows, cellRows, ih (i + 1) fun w hw => h w (by simp [hw]), e, List.map_append, List.map_cons]
    have h1 : decide (i + 1 = 0) = false := by simp
    rw [h1]
    congr 1
    by_cases hb : 0 < i ∧ v.acctlevel = 0
    · rw [if_pos hb, if_pos ⟨hi.2 hb.1, hb.2⟩]; rfl
    · rw [if_neg hb, if_neg (fun h => hb ⟨hi.1 h.1, h.2⟩)]; rfl

/-- The title cells. -/
def titleCells (colour : Bool) (ts : List Txn) : List Cell :=
  .str (ansi colour ansiUL b!"Account") :: ts.map fun t => .right (ansi colour ansiUL (t.head?.elim [] fun p => dateString p.date))

theorem table_cells {f : Fmt} {colour : Bool} {ts : List Txn} (h : Tabular ts) {last : Txn} (hall' : ∀ t ∈ ts, ∀ v ∈ last, ∃ p ∈ t, SameRow p v) :
    table (reportFmt f colour) ts last = (some (titleCells colour ts) :: cellRows f colour ts true last).map (Option.map (List.map some)) := by
  unfold table
  rw [tableRows_cells h.ccy last 0 fun v hv t ht => hall' t ht v hv, List.map_cons]
  congr 1
  rw [Option.map_some, titleCells, List.map_cons, List.map_map]
  congr 2
  apply List.map_congr_left
  intro t ht
  obtain ⟨p, t', e⟩ := List.exists_cons_of_ne_nil (h.nonempty t ht)
  subst e
  rfl

theorem cellRows_mem {f : Fmt} {colour : Bool} {ts : List Txn} : ∀ {l : List Posting} {first : Bool} {r : List Cell},
    some r ∈ cellRows f colour ts first l → ∃ v ∈ l, r = (reportFmt f colour).name v :: ts.map (cellIn f colour v) := by
  intro l
  induction l with
  | nil => intro first r h; cases h
  | cons v l ih =>
    intro first r h
    rw [cellRows] at h
    rcases List.mem_append.1 h with h | h
    · split at h
      · simp at h
      · cases h
    · rcases List.mem_cons.1 h with h | h
      · exact ⟨v, by simp, Option.some.inj h⟩
      · obtain ⟨w, hw, e⟩ := ih h
        exact ⟨w, by simp [hw], e⟩

theorem cell_seen {prt : Nat → Bool} (hp : AsciiPrint prt) {f : Fmt} (hg : GroupsDigits f.grp) (hpt : f.point = 46) (colour : Bool) {v : Posting} {t : Txn}
    (hpl : ∀ p ∈ t, PlainRow prt p) :
    cellCol prt (cellIn f colour v t) = amountCol f.letter f.number v t ∧ (cellIn f colour v t).Closed ∧ SymbolOk prt (cellIn f colour v t) := by
  unfold cellIn amountCol
  cases hf : t.find? fun p => decide (SameRow p v) with
  | none => exact ⟨rfl, terminated_plain (by simp), trivial⟩
  | some p => exact money_seen hp hg hpt colour (hpl p (List.mem_of_find?_eq_some hf)).2.2 _

theorem rows_seen {prt : Nat → Bool} (hp : AsciiPrint prt) {f : Fmt} (hg : GroupsDigits f.grp) (hpt : f.point = 46) (colour : Bool) {ts : List Txn}
    (hpl : ∀ t ∈ ts, ∀ p ∈ t, PlainRow prt p) : ∀ (l : List Posting) (first : Bool), (∀ v ∈ l, 0 ≤ v.acctlevel ∧ 27 ∉ v.acctterm) →
      (cellRows f colour ts first l).map (Option.map (List.map (cellCol prt))) = reportRows prt f.letter f.number ts first l := by
  intro l
  induction l with
  | nil => intro first _; rfl
  | cons v l ih =>
    intro first h
    obtain ⟨h1, h2⟩ := h v (by simp)
    rw [cellRows, reportRows, List.map_append, List.map_cons, ih false fun w hw => h w (by simp [hw]), Option.map_some, List.map_cons,
      (name_seen h1 h2).1, List.map_map]
    have e : ts.map (cellCol prt ∘ cellIn f colour v) = ts.map (amountCol f.letter f.number v) :=
      List.map_congr_left fun t ht => (cell_seen hp hg hpt colour (hpl t ht)).1
    rw [e]
    congr 1
    split <;> rfl

/-- **C129** (partial: labels without escape sequences, currencies with printable names).  If every transaction of the report has the same rows, the
text report is a table: the dates of the transactions as headings; for every row its label, indented by its level, and in the column of every transaction the
currency and amount of that transaction for that row; a blank line before every row of the top level but the first; every column as wide as its
widest text, so that nothing is cut, whatever the width of the screen.  The numbers shown are the amounts. -/
theorem c129_screen_partial (prt : Nat → Bool) (hp : AsciiPrint prt) (termWidth : Int) (f : Fmt) (hf : SoundFmt f) (colour : Bool) (ts : List Txn)
    (h : Tabular ts) (last : Txn) (hlast : ts.getLast? = some last) (hall : ∀ t ∈ ts, ∀ p ∈ t, ∃ v ∈ last, SameRow p v)
    (hall' : ∀ t ∈ ts, ∀ v ∈ last, ∃ p ∈ t, SameRow p v) (hpl : ∀ t ∈ ts, ∀ p ∈ t, PlainRow prt p) :
    ∃ lines, reportText prt termWidth f colour ts = .ok lines ∧
      WholeTable (reportTable prt f.letter dateString f.number ts last) (lines.map plain) ∧
      ∀ t ∈ ts, ∀ p ∈ t, FitsDecimals (decimalsOf f p.ccy) p.val → decimalValue (f.number p.ccy p.val) = p.val := by
  have hm : last ∈ ts := List.mem_of_getLast? hlast
  have hrow : ∀ v ∈ last, 0 ≤ v.acctlevel ∧ 27 ∉ v.acctterm := fun v hv => ⟨h.level last hm v hv, (hpl last hm v hv).1⟩
  have hlen : (titleCells colour ts).length = ts.length + 1 := by simp [titleCells]
  have htitle : ∀ c ∈ titleCells colour ts, c.Closed ∧ SymbolOk prt c := by
    intro c hc
    rcases List.mem_cons.1 hc with rfl | hc
    · exact ⟨(title_col hp colour (s := b!"Account") (by decide)).2.2, trivial⟩
    · obtain ⟨t, _, rfl⟩ := List.mem_map.1 hc
      refine ⟨(title_col hp colour ?_).2.2, trivial⟩
      intro x hx
      cases ht : t.head? with
      | none => rw [ht] at hx; cases hx
      | some p => rw [ht] at hx; exact date_ascii _ _ hx
  obtain ⟨lines, e1, e2⟩ := whole_table prt ((hp 32 (by omega)).2 (by omega)) termWidth (titleCells colour ts) (cellRows f colour ts true last) (by simp [titleCells])
    (by
      intro r hr
      obtain ⟨v, _, rfl⟩ := cellRows_mem hr
      simp [titleCells])
    (by
      intro r hr c hc
      rcases List.mem_cons.1 hr with hr | hr
      · cases hr; exact htitle c hc
      · obtain ⟨v, hv, rfl⟩ := cellRows_mem hr
        rcases List.mem_cons.1 hc with rfl | hc
        · exact (name_seen (hrow v hv).1 (hrow v hv).2).2
        · obtain ⟨t, ht, rfl⟩ := List.mem_map.1 hc
          exact (cell_seen hp hf.groups hf.point colour (hpl t ht)).2)
  rw [← table_cells h hall', hlen] at e1
  refine ⟨lines, ?_, ?_, ?_⟩
  · unfold reportText
    rcases showText_eq prt termWidth (reportFmt f colour) ts h last hlast with ⟨⟨t, ht, p, hpt, hn⟩, _⟩ | ⟨_, ⟨hn, _⟩ | ⟨ls, hl, hs⟩⟩
    · obtain ⟨v, hv, hs⟩ := hall t ht p hpt
      exact absurd hs (hn v hv)
    · rw [e1] at hn; cases hn
    · rw [e1] at hl; cases hl; exact hs
  · have : (some (titleCells colour ts) :: cellRows f colour ts true last).map (Option.map (List.map (cellCol prt))) =
        reportTable prt f.letter dateString f.number ts last := by
      rw [List.map_cons, rows_seen hp hf.groups hf.point colour hpl last true hrow]
      unfold reportTable
      congr 1
      rw [Option.map_some, titleCells, reportTitles, List.map_cons, (title_col hp colour (s := b!"Account") (by decide)).1, List.map_map]
      congr 2
      apply List.map_congr_left
      intro t _
      refine (title_col hp colour ?_).2.1
      intro x hx
      cases ht : t.head? with
      | none => rw [ht] at hx; cases hx
      | some p => rw [ht] at hx; exact date_ascii _ _ hx
    rw [← this]
    exact e2
  · intro t _ p _ hfd
    exact c94_printed_exact_partial f hf _ _ hfd

/-! ## The report of a summarised book -/

theorem summaries_chars {srt : List Posting → List Posting} (hs : IsSort srt) {b : Book} (w : b.WF) (hbal : Balanced b.post) {base div : Str}
    (hne : b.transactions srt ≠ []) {P : Nat → Prop} (hp : ∀ p ∈ reported srt b, ∀ c ∈ p.acct, P c) {k : Str} (hk : k ∈ summaries srt b base div) :
    ∀ c ∈ k, P c := by
  obtain ⟨_, hg, _⟩ := book_data hs w hbal hne
  have hA := c48_accounts srt b
  have hall : ∀ p ∈ ((b.transactions srt).map (fill (acctsOf srt b))).flatten, ∀ c ∈ p.acct, P c := by
    intro p hpm
    obtain ⟨l, hl, hpl⟩ := List.mem_flatten.1 hpm
    obtain ⟨u, hu, rfl⟩ := List.mem_map.1 hl
    obtain ⟨e, he, rfl⟩ := List.mem_map.1 hpl
    obtain ⟨p0, hp0⟩ := List.exists_mem_of_ne_nil u (hg u hu).1.1
    have k1 : (entryOf u e).acct = e.1 := congrArg Prod.fst (entryOf_key (hg u hu).1 e hp0).2.2
    obtain ⟨q, hq, h2, _⟩ := (hA.2 e.1 e.2).1 he
    rw [k1, ← h2]
    exact hp q hq
  unfold summaries accumSet at hk
  rw [List.mem_dedup, List.mem_append] at hk
  rcases hk with hk | hk
  · obtain ⟨p, hpm, rfl⟩ := List.mem_map.1 hk
    exact hall p (List.mem_of_mem_filter hpm)
  · have hk := List.mem_of_mem_filter hk
    obtain ⟨n, hn⟩ := List.mem_iff_getElem?.1 hk
    rw [List.getElem?_zipWith] at hn
    split at hn
    · cases hn
      rename_i p q hpn hq
      intro c hc
      first
        | exact hall _ (List.mem_of_getElem? hpn) c (List.mem_of_mem_take hc)
        | exact hall _ (List.mem_of_getElem? (by assumption)) c (List.mem_of_mem_take hc)
    · cases hn

theorem split_chars {S : List Str} {acct div : Str} {incl : Bool} {n : Nat} {t : Str} (h : splitByStrings S acct incl div = some (n, t)) : ∀ c ∈ t, c ∈ acct := by
  unfold splitByStrings at h
  split at h
  · cases h
    exact fun c hc => List.mem_of_mem_drop hc
  · cases h

/-- The labels and currencies of a summary are those of the book. -/
theorem accumulate_plain (srt : List Posting → List Posting) (hs : IsSort srt) (b : Book) (w : b.WF) (hbal : Balanced b.post)
    (base div : Str) (credit : Option (Str → Bool)) (hidden : Str) (o : Int → Str → List Str → List Str)
    (ho : ∀ d py l, (o d py l).Perm l) (ts : List Txn) (h : b.accumulate srt base div credit hidden o = some ts) (hne : b.transactions srt ≠ [])
    {P Q : Nat → Prop} (hp : ∀ p ∈ reported srt b, ∀ c ∈ p.acct, P c) (hq : ∀ p ∈ reported srt b, ∀ c ∈ p.ccy, Q c) (hb : ∀ c ∈ base, Q c) :
    ∀ t ∈ ts, ∀ p ∈ t, (∀ c ∈ p.acctterm, P c) ∧ ∀ c ∈ p.ccy, Q c := by
  obtain ⟨gs, rfl, g2, _⟩ := accumulate_good hs w hbal ho h
  have hA := c48_accounts srt b
  intro t ht p hpt
  obtain ⟨g, hg, rfl⟩ := List.mem_map.1 ht
  obtain ⟨u, _, h1, _, h3⟩ := forall₂_mem_right g2 hg
  have hm : rowKey p ∈ (hideFlip credit hidden g).map rowKey := List.mem_map.2 ⟨p, hpt, rfl⟩
  rw [hideFlip_keys, List.mem_filter] at hm
  have hc : p.ccy = (rowKey p).ccy := rfl
  have ha : p.acctterm = (rowKey p).term := rfl
  rw [hc, ha]
  rcases List.mem_append.1 ((report_keys h1 h3).mem_iff.1 hm.1) with hm | hm
  · obtain ⟨e, he, e1⟩ := List.mem_map.1 hm
    obtain ⟨q, hq1, hq2, hq3⟩ := (hA.2 e.1 e.2).1 he
    have hP : ∀ c ∈ e.1, P c := by rw [← hq2]; exact hp q hq1
    have hQ : ∀ c ∈ e.2, Q c := by rw [← hq3]; exact hq q hq1
    rw [← e1]
    unfold leafKey
    split
    · rename_i lt hlt
      exact ⟨fun c hc => hP c (split_chars (n := lt.1) hlt c hc), hQ⟩
    · exact ⟨fun c hc => by simp at hc, hQ⟩
  · obtain ⟨k, hk, e1⟩ := List.mem_map.1 hm
    have hP := summaries_chars hs w hbal hne hp hk
    rw [← e1]
    unfold sumKey
    split
    · rename_i lt hlt
      exact ⟨fun c hc => hP c (split_chars (n := lt.1) hlt c hc), hb⟩
    · exact ⟨fun c hc => by simp at hc, hb⟩

theorem text_sum_good (srt : List Posting → List Posting) (hs : IsSort srt) (b : Book) (w : b.WF) (hbal : Balanced b.post)
    (base div : Str) (hd : div ≠ []) (hb : base ≠ []) (credit : Option (Str → Bool)) (hidden : Str) (o : Int → Str → List Str → List Str)
    (ho : ∀ d py l, (o d py l).Perm l) (ts : List Txn) (h : b.accumulate srt base div credit hidden o = some ts)
    (hne : b.transactions srt ≠ []) (prt : Nat → Bool) (hp : AsciiPrint prt)
    (hnames : ∀ p ∈ reported srt b, p.acct ≠ [] ∧ ¬ div <:+ p.acct ∧ 27 ∉ p.acct ∧ p.ccy ≠ [] ∧ ∀ c ∈ p.ccy, prt c = true ∧ c ≠ 27 ∧ c ≠ 9)
    (hbase : ∀ c ∈ base, prt c = true ∧ c ≠ 27 ∧ c ≠ 9)
    (termWidth : Int) (f : Fmt) (hf : SoundFmt f) (colour : Bool) :
    ∃ last lines, ts.getLast? = some last ∧ reportText prt termWidth f colour ts = .ok lines ∧
      WholeTable (reportTable prt f.letter dateString f.number ts last) (lines.map plain) ∧
      (∀ t ∈ ts, ∀ p ∈ t, ∃ v ∈ last, SameRow p v) ∧
      ∀ t ∈ ts, ∀ p ∈ t, FitsDecimals (decimalsOf f p.ccy) p.val → decimalValue (f.number p.ccy p.val) = p.val := by
  have htab := tabular_good srt hs b w hbal base div hd hb credit hidden o ho ts h fun p hp => ⟨(hnames p hp).2.2.2.1, (hnames p hp).1, (hnames p hp).2.1⟩
  have hpl := accumulate_plain srt hs b w hbal base div credit hidden o ho ts h hne (P := (· ≠ 27)) (Q := fun c => prt c = true ∧ c ≠ 27 ∧ c ≠ 9)
    (fun p hp c hc e => (hnames p hp).2.2.1 (e ▸ hc)) (fun p hp => (hnames p hp).2.2.2.2) hbase
  have hlen : ts.length = (b.transactions srt).length := by
    obtain ⟨gs, rfl, g2, _⟩ := accumulate_good hs w hbal ho h
    rw [List.length_map, g2.length_eq]
  have hts : ts ≠ [] := by
    intro e
    rw [e] at hlen
    exact hne (List.length_eq_zero_iff.1 hlen.symm)
  have hlast : ts.getLast? = some (ts.getLast hts) := List.getLast?_eq_some_getLast hts
  have hm := List.getLast_mem hts
  have hrect := (rectangular_good srt hs b w hbal base div hd credit hidden o ho ts h).2
  have hsame : ∀ t ∈ ts, ∀ u ∈ ts, ∀ p ∈ t, ∃ v ∈ u, SameRow p v := by
    intro t ht u hu p hpt
    obtain ⟨v, hv, e⟩ := List.mem_map.1 ((hrect t ht u hu).mem_iff.1 (List.mem_map.2 ⟨p, hpt, rfl⟩))
    simp only [rowKey, RowKey.mk.injEq] at e
    exact ⟨v, hv, e.1.symm, e.2.1.symm, e.2.2.2.symm⟩
  have hall' : ∀ t ∈ ts, ∀ v ∈ ts.getLast hts, ∃ p ∈ t, SameRow p v := by
    intro t ht v hv
    obtain ⟨p, hpt, e⟩ := hsame _ hm t ht v hv
    exact ⟨p, hpt, e.1.symm, e.2.1.symm, e.2.2.symm⟩
  obtain ⟨lines, e1, e2, e3⟩ := c129_screen_partial prt hp termWidth f hf colour ts htab _ hlast (fun t ht p hpt => hsame t ht _ hm p hpt) hall'
    fun t ht p hpt => ⟨fun hm => (hpl t ht p hpt).1 27 hm rfl, htab.ccy t ht p hpt, (hpl t ht p hpt).2⟩
  exact ⟨_, lines, hlast, e1, e2, fun t ht p hpt => hsame t ht _ hm p hpt, e3⟩

/-- **C129** for summaries (partial: names without escape sequences, printable currencies, accounts that are not empty and do not end in the divider).
The text report of every summary is the whole table: it never crashes, never complains and cuts nothing. -/
theorem c129_sum_partial (srt : List Posting → List Posting) (hs : IsSort srt) (today : Int) (b : Book) (hr : Reachable srt today b)
    (base div : Str) (hd : div ≠ []) (hb : base ≠ []) (credit : Option (Str → Bool)) (hidden : Str) (o : Int → Str → List Str → List Str)
    (ho : ∀ d py l, (o d py l).Perm l) (ts : List Txn) (h : b.accumulate srt base div credit hidden o = some ts)
    (hne : b.transactions srt ≠ []) (prt : Nat → Bool) (hp : AsciiPrint prt)
    (hnames : ∀ p ∈ reported srt b, p.acct ≠ [] ∧ ¬ div <:+ p.acct ∧ 27 ∉ p.acct ∧ p.ccy ≠ [] ∧ ∀ c ∈ p.ccy, prt c = true ∧ c ≠ 27 ∧ c ≠ 9)
    (hbase : ∀ c ∈ base, prt c = true ∧ c ≠ 27 ∧ c ≠ 9)
    (termWidth : Int) (f : Fmt) (hf : SoundFmt f) (colour : Bool) :
    ∃ last lines, ts.getLast? = some last ∧ reportText prt termWidth f colour ts = .ok lines ∧
      WholeTable (reportTable prt f.letter dateString f.number ts last) (lines.map plain) ∧
      (∀ t ∈ ts, ∀ p ∈ t, ∃ v ∈ last, SameRow p v) ∧
      ∀ t ∈ ts, ∀ p ∈ t, FitsDecimals (decimalsOf f p.ccy) p.val → decimalValue (f.number p.ccy p.val) = p.val := by
  obtain ⟨w, hbal⟩ := reachable_wf hs hr
  exact text_sum_good srt hs b w hbal base div hd hb credit hidden o ho ts h hne prt hp hnames hbase termWidth f hf colour

/-- The hypotheses are met by the demo book. -/
example : demoBook.transactions insSort ≠ [] ∧
    (∀ p ∈ reported insSort demoBook, p.acct ≠ [] ∧ ¬ b!":" <:+ p.acct ∧ 27 ∉ p.acct ∧ p.ccy ≠ [] ∧ ∀ c ∈ p.ccy, asciiPrt c = true ∧ c ≠ 27 ∧ c ≠ 9) ∧
    (∀ c ∈ b!"USD", asciiPrt c = true ∧ c ≠ 27 ∧ c ≠ 9) ∧
    (demoBook.accumulate insSort b!"USD" b!":" none [] (fun _ _ l => l)).isSome := by decide +kernel

deriving instance DecidableEq for TextRes

/-- What the demo book looks like on the screen. -/
example : (demoBook.accumulate insSort b!"USD" b!":" none [] (fun _ _ l => l)).map (fun ts => reportText asciiPrt 80 (demoFmt demoBook) false ts) =
    some (.ok [b!"Account  2020/01/31 2020/01/31\n", b!"Exp:Food USD    3.5 USD    4.0\n", b!"         EUR      0 EUR      4\n", b!"         USD    3.5 USD    0.0\n",
      b!"\n", b!"Cash     USD   -3.5 USD    1.0\n", b!"         EUR      0 EUR     -4\n", b!"         USD   -3.5 USD    5.0\n",
      b!"\n", b!"Inc      USD    0.0 USD   -5.0\n"]) := by decide +kernel

/-- A transaction with an escape character in a label. -/
def escapeTxn : Txn :=
  [⟨20200131, b!"shop", [], 27 :: b!"x", b!"$", 1, [], 0, 0, 27 :: b!"x", []⟩, ⟨20200131, b!"shop", [], b!"Cash", b!"$", -1, [], 0, 0, b!"Cash", []⟩]

/-- C129 is false of a label with an escape character: it hides what follows. -/
theorem c129_screen_fails : ¬ ∀ (prt : Nat → Bool) (_ : AsciiPrint prt) (termWidth : Int) (f : Fmt) (_ : SoundFmt f) (colour : Bool) (ts : List Txn)
    (_ : Tabular ts) (last : Txn) (_ : ts.getLast? = some last) (_ : ∀ t ∈ ts, ∀ p ∈ t, ∃ v ∈ last, SameRow p v)
    (_ : ∀ t ∈ ts, ∀ v ∈ last, ∃ p ∈ t, SameRow p v) (_ : ∀ t ∈ ts, ∀ p ∈ t, p.ccy ≠ [] ∧ ∀ c ∈ p.ccy, prt c = true ∧ c ≠ 27 ∧ c ≠ 9),
    ∃ lines, reportText prt termWidth f colour ts = .ok lines ∧
      WholeTable (reportTable prt f.letter dateString f.number ts last) (lines.map plain) := by
  intro h
  obtain ⟨lines, h1, ws, h2, h3⟩ := h asciiPrt asciiPrt_ok 0 (demoFmt demoBook) (demoFmt_sound _) false [escapeTxn]
    ⟨by decide, by decide +kernel, by decide, by decide⟩ escapeTxn rfl (by decide +kernel) (by decide +kernel) (by decide +kernel)
  have e : reportText asciiPrt 0 (demoFmt demoBook) false [escapeTxn] =
    .ok [b!"Account 2020/01/31\n", 27 :: b!"x        $     1.00\n", b!"\n", b!"Cash    $    -1.00\n"] := by decide +kernel
  rw [e] at h1
  cases h1
  have hend : ∀ l ∈ (reportTable asciiPrt (demoFmt demoBook).letter dateString (demoFmt demoBook).number [escapeTxn] escapeTxn).map (lineOn ws),
      l.getLast? = some 10 := by
    intro l hl
    obtain ⟨r, _, rfl⟩ := List.mem_map.1 hl
    cases r with
    | none => rfl
    | some r => rw [lineOn, List.getLast?_append]; rfl
  rw [← h3] at hend
  revert hend
  decide +kernel

end Verif
