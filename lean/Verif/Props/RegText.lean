import Verif.Spec.RegText
import Verif.Model.RegText
import Verif.Props.Screen
import Verif.Props.BeanText
import Verif.Props.Csv
import Verif.Props.RegisterCmd

/-! # C100: the register on the screen -/

namespace Verif
open Spec

theorem terminated_plain {s : Str} (h : 27 ∉ s) : Terminated s := by
  refine ⟨s.map .chr, ?_, ?_⟩
  · intro t ht
    obtain ⟨c, hc, rfl⟩ := List.mem_map.1 ht
    show c ≠ 27
    rintro rfl
    exact h hc
  · clear h
    induction s with
    | nil => rfl
    | cons c s ih =>
      have : runesOf (List.map Tok.chr (c :: s)) = c :: runesOf (s.map .chr) := by simp [runesOf, Tok.runes]
      rw [this, ← ih]

/-- A colour: an escape sequence. -/
def IsCode (code : Str) : Prop := ∃ b, 109 ∉ b ∧ code = 27 :: b ++ [109]

theorem code_ul : IsCode ansiUL := ⟨b!"[4", by decide, rfl⟩
theorem code_blue : IsCode ansiBlue := ⟨b!"[0;34", by decide, rfl⟩
theorem code_red : IsCode ansiRed := ⟨b!"[0;31", by decide, rfl⟩

theorem terminated_append {s t : Str} (hs : Terminated s) (ht : Terminated t) : Terminated (s ++ t) := by
  obtain ⟨a, a1, rfl⟩ := hs
  obtain ⟨b, b1, rfl⟩ := ht
  refine ⟨a ++ b, ?_, by simp [runesOf]⟩
  intro x hx
  rcases List.mem_append.1 hx with h | h
  · exact a1 x h
  · exact b1 x h

theorem terminated_code {code : Str} (h : IsCode code) : Terminated code := by
  obtain ⟨b, h1, rfl⟩ := h
  refine ⟨[.esc b], ?_, by simp [runesOf, Tok.runes]⟩
  intro t ht
  simp only [List.mem_singleton] at ht
  subst ht
  exact h1

theorem plain_code {code : Str} (h : IsCode code) (s : Str) : plain (code ++ s) = plain s := by
  obtain ⟨b, h1, rfl⟩ := h
  have : 27 :: b ++ [109] ++ s = 27 :: (b ++ 109 :: s) := by simp
  rw [this]
  unfold plain
  rw [stripFrom, if_pos rfl, strip_body h1]

theorem code_reset : IsCode ansiReset := ⟨b!"[0", by decide, rfl⟩

theorem terminated_ansi (colour : Bool) {code s : Str} (hc : IsCode code) (h : 27 ∉ s) : Terminated (ansi colour code s) := by
  cases colour
  · exact terminated_plain h
  · exact terminated_append (terminated_append (terminated_code hc) (terminated_plain h)) (terminated_code code_reset)

theorem plain_ansi (colour : Bool) {code s : Str} (hc : IsCode code) (h : 27 ∉ s) : plain (ansi colour code s) = s := by
  cases colour
  · exact plain_self h
  · show plain (code ++ s ++ ansiReset) = s
    rw [List.append_assoc, plain_code hc, plain_plain h]
    have : plain ansiReset = [] := by decide
    rw [this, List.append_nil]

theorem onScreen_self {prt : Nat → Bool} {s : Str} (h : ∀ c ∈ s, prt c = true ∧ c ≠ 9) : onScreen prt s = s := by
  unfold onScreen
  rw [List.filter_eq_self.2 fun c hc => by simp [(h c hc).1]]
  conv => rhs; rw [← List.map_id s]
  apply List.map_congr_left
  intro c hc
  rw [if_neg (h c hc).2]
  rfl

theorem inFront_some {f : Fmt} {ccy : Str} (h : ccy ≠ []) : f.symbol ccy = some (inFront f.letter ccy) := by
  unfold Fmt.symbol inFront
  cases e : ccy.getLast? with
  | none => exact absurd (List.getLast?_eq_none_iff.1 e) h
  | some c =>
    by_cases hc : f.letter c = true ∨ c = 34
    · simp [hc]
    · simp [hc]

theorem inFront_mem {letter : Nat → Bool} {ccy : Str} {c : Nat} (h : c ∈ inFront letter ccy) : c ∈ ccy ∨ c = 32 := by
  unfold inFront at h
  split at h
  · simpa using h
  · exact .inl h

/-- The cells of an entry. -/
def regCells (f : Fmt) (colour withAcct withBal : Bool) (p : RegEntry) : List Cell :=
  let m := fun v => Cell.money (ansi colour ansiBlue (inFront f.letter p.ccy))
    (ansi colour (if (0 : Rat) ≤ v then ansiBlue else ansiRed) (f.number p.ccy v))
  [.str (dateString p.date), .str p.payee] ++ (if withAcct then [.str p.account] else []) ++ [.str p.counterAccount, m p.amount] ++
    (if withBal then [m p.balance] else [])

theorem registerRow_cells {f : Fmt} {colour withAcct withBal : Bool} {p : RegEntry} (h : p.ccy ≠ []) :
    registerRow f colour withAcct withBal p = some ((regCells f colour withAcct withBal p).map some) := by
  unfold registerRow columnMoney regCells
  rw [inFront_some h]
  cases withAcct <;> cases withBal <;> rfl

/-- The cells of the headings. -/
def headCells (colour withAcct withBal : Bool) : List Cell :=
  [.str (ansi colour ansiUL b!"Date"), .str (ansi colour ansiUL b!"Payee")] ++
    (if withAcct then [.str (ansi colour ansiUL b!"Account")] else []) ++
    [.str (ansi colour ansiUL b!"Counteraccount"), .right (ansi colour ansiUL b!"Amount")] ++
    (if withBal then [.right (ansi colour ansiUL b!"Balance")] else [])

theorem head_cells (colour withAcct withBal : Bool) : registerHead colour withAcct withBal = (headCells colour withAcct withBal).map some := by
  cases withAcct <;> cases withBal <;> rfl

theorem code_sign (v : Rat) : IsCode (if (0 : Rat) ≤ v then ansiBlue else ansiRed) := by
  split
  · exact code_blue
  · exact code_red

theorem ascii_self {prt : Nat → Bool} (hp : AsciiPrint prt) {s : Str} (h : ∀ c ∈ s, 32 ≤ c ∧ c ≤ 126) : onScreen prt s = s :=
  onScreen_self fun c hc => ⟨(hp c (by have := h c hc; omega)).2 (h c hc), by have := h c hc; omega⟩

theorem title_col {prt : Nat → Bool} (hp : AsciiPrint prt) (colour : Bool) {s : Str} (h : ∀ c ∈ s, 32 ≤ c ∧ c ≤ 126) :
    cellCol prt (.str (ansi colour ansiUL s)) = .left s ∧ cellCol prt (.right (ansi colour ansiUL s)) = .right s ∧
    Terminated (ansi colour ansiUL s) := by
  have h27 : 27 ∉ s := fun hm => by have := h _ hm; omega
  refine ⟨?_, ?_, terminated_ansi colour code_ul h27⟩
  · rw [cellCol, plain_ansi colour code_ul h27, ascii_self hp h]
  · rw [cellCol, plain_ansi colour code_ul h27, ascii_self hp h]

theorem head_cols {prt : Nat → Bool} (hp : AsciiPrint prt) (colour withAcct withBal : Bool) :
    (headCells colour withAcct withBal).map (cellCol prt) = registerTitles withAcct withBal ∧
    ∀ c ∈ headCells colour withAcct withBal, c.Closed ∧ SymbolOk prt c := by
  have t1 := title_col hp colour (s := b!"Date") (by decide)
  have t2 := title_col hp colour (s := b!"Payee") (by decide)
  have t3 := title_col hp colour (s := b!"Account") (by decide)
  have t4 := title_col hp colour (s := b!"Counteraccount") (by decide)
  have t5 := title_col hp colour (s := b!"Amount") (by decide)
  have t6 := title_col hp colour (s := b!"Balance") (by decide)
  constructor
  · cases withAcct <;> cases withBal <;>
      simp only [headCells, registerTitles, if_true, if_false, Bool.false_eq_true, List.map_append, List.map_cons, List.map_nil, t1.1, t2.1, t3.1, t4.1,
        t5.2.1, t6.2.1]
  · intro c hc
    have : c ∈ [Cell.str (ansi colour ansiUL b!"Date"), .str (ansi colour ansiUL b!"Payee"), .str (ansi colour ansiUL b!"Account"),
        .str (ansi colour ansiUL b!"Counteraccount"), .right (ansi colour ansiUL b!"Amount"), .right (ansi colour ansiUL b!"Balance")] := by
      revert hc
      cases withAcct <;> cases withBal <;> simp only [headCells] <;> intro hc <;> simp at hc ⊢ <;> tauto
    simp only [List.mem_cons, List.not_mem_nil, or_false] at this
    rcases this with rfl | rfl | rfl | rfl | rfl | rfl
    · exact ⟨t1.2.2, trivial⟩
    · exact ⟨t2.2.2, trivial⟩
    · exact ⟨t3.2.2, trivial⟩
    · exact ⟨t4.2.2, trivial⟩
    · exact ⟨t5.2.2, trivial⟩
    · exact ⟨t6.2.2, trivial⟩

theorem number_ascii {f : Fmt} (hg : GroupsDigits f.grp) (hpt : f.point = 46) (ccy : Str) (v : Rat) : ∀ c ∈ f.number ccy v, 32 ≤ c ∧ c ≤ 126 := by
  intro c hc
  by_contra h
  exact number_no hg hpt ccy v c (by omega) hc

theorem date_ascii (d : Int) : ∀ c ∈ dateString d, 32 ≤ c ∧ c ≤ 126 := by
  intro c hc
  by_contra h
  exact dateString_no d c (by omega) (by omega) hc

theorem reg_cols {prt : Nat → Bool} (hp : AsciiPrint prt) {f : Fmt} (hg : GroupsDigits f.grp) (hpt : f.point = 46) (colour withAcct withBal : Bool) {p : RegEntry}
    (h : PlainEntry prt p) :
    (regCells f colour withAcct withBal p).map (cellCol prt) = registerCols prt f.letter dateString f.number withAcct withBal p ∧
    ∀ c ∈ regCells f colour withAcct withBal p, c.Closed ∧ SymbolOk prt c := by
  obtain ⟨h1, h2, h3, h4, h5⟩ := h
  have hd27 : 27 ∉ dateString p.date := fun hm => by have := date_ascii _ _ hm; omega
  have hn27 : ∀ v, 27 ∉ f.number p.ccy v := fun v hm => by have := number_ascii hg hpt _ _ _ hm; omega
  have hs : ∀ c ∈ inFront f.letter p.ccy, prt c = true ∧ c ≠ 27 ∧ c ≠ 9 := by
    intro c hc
    rcases inFront_mem hc with h | rfl
    · exact h5 c h
    · exact ⟨(hp 32 (by omega)).2 (by omega), by omega, by omega⟩
  have hs27 : 27 ∉ inFront f.letter p.ccy := fun hm => (hs _ hm).2.1 rfl
  have hsym : onScreen prt (inFront f.letter p.ccy) = inFront f.letter p.ccy := onScreen_self fun c hc => ⟨(hs c hc).1, (hs c hc).2.2⟩
  have cm : ∀ v, cellCol prt (.money (ansi colour ansiBlue (inFront f.letter p.ccy))
      (ansi colour (if (0 : Rat) ≤ v then ansiBlue else ansiRed) (f.number p.ccy v))) = .money (inFront f.letter p.ccy) (f.number p.ccy v) := by
    intro v
    rw [cellCol, plain_ansi colour code_blue hs27, plain_ansi colour (code_sign v) (hn27 v), hsym, ascii_self hp (number_ascii hg hpt _ _)]
  have ok : ∀ v, (Cell.money (ansi colour ansiBlue (inFront f.letter p.ccy))
      (ansi colour (if (0 : Rat) ≤ v then ansiBlue else ansiRed) (f.number p.ccy v))).Closed ∧
      SymbolOk prt (.money (ansi colour ansiBlue (inFront f.letter p.ccy))
        (ansi colour (if (0 : Rat) ≤ v then ansiBlue else ansiRed) (f.number p.ccy v))) := by
    intro v
    refine ⟨⟨terminated_ansi colour code_blue hs27, terminated_ansi colour (code_sign v) (hn27 v)⟩, ?_⟩
    show onScreen prt (plain _) = plain _
    rw [plain_ansi colour code_blue hs27, hsym]
  have c1 : cellCol prt (.str (dateString p.date)) = .left (dateString p.date) := by
    rw [cellCol, plain_self hd27, ascii_self hp (date_ascii _)]
  have c2 : ∀ s, 27 ∉ s → cellCol prt (.str s) = .left (onScreen prt s) := fun s hs => by rw [cellCol, plain_self hs]
  constructor
  · cases withAcct <;> cases withBal <;>
      simp only [regCells, registerCols, if_true, if_false, Bool.false_eq_true, List.map_append, List.map_cons, List.map_nil, c1, c2 _ h1, c2 _ h2,
        c2 _ h3, cm]
  · intro c hc
    unfold regCells at hc
    simp only at hc
    rcases List.mem_append.1 hc with hc | hc
    · rcases List.mem_append.1 hc with hc | hc
      · rcases List.mem_append.1 hc with hc | hc
        · simp only [List.mem_cons, List.not_mem_nil, or_false] at hc
          rcases hc with rfl | rfl
          · exact ⟨terminated_plain hd27, trivial⟩
          · exact ⟨terminated_plain h1, trivial⟩
        · split at hc
          · simp only [List.mem_singleton] at hc
            subst hc
            exact ⟨terminated_plain h2, trivial⟩
          · cases hc
      · simp only [List.mem_cons, List.not_mem_nil, or_false] at hc
        rcases hc with rfl | rfl
        · exact ⟨terminated_plain h3, trivial⟩
        · exact ok _
    · split at hc
      · simp only [List.mem_singleton] at hc
        subst hc
        exact ok _
      · cases hc

theorem mapM_cells {f : Fmt} {colour withAcct withBal : Bool} {rep : List RegEntry} (h : ∀ p ∈ rep, p.ccy ≠ []) :
    ((rep.map some).mapM fun (e : Option RegEntry) => e.bind (registerRow f colour withAcct withBal)) =
      some (rep.map fun p => (regCells f colour withAcct withBal p).map some) := by
  induction rep with
  | nil => rfl
  | cons p rep ih =>
    rw [List.map_cons, List.mapM_cons, ih fun x hx => h x (by simp [hx])]
    simp [registerRow_cells (h p (by simp))]

/-- The widths of a table. -/
def widest (rows : List (List ColText)) : List Nat :=
  match rows with
  | [] => []
  | [r] => r.map ColText.size
  | r :: rest => List.zipWith max (r.map ColText.size) (widest rest)

theorem widest_spec : ∀ (rows : List (List ColText)) (n : Nat), rows ≠ [] → (∀ r ∈ rows, r.length = n) → Widest rows (widest rows)
  | [], _, h, _ => absurd rfl h
  | [r], n, _, hl => by
    refine ⟨by simp [widest], ?_⟩
    intro j w hj
    simp only [widest, List.getElem?_map, Option.map_eq_some_iff] at hj
    obtain ⟨c, hc, rfl⟩ := hj
    refine ⟨?_, r, by simp, c, hc, rfl⟩
    intro row hrow c' hc'
    simp only [List.mem_singleton] at hrow
    subst hrow
    rw [hc] at hc'
    cases hc'
    exact Nat.le_refl _
  | r :: r2 :: rest, n, _, hl => by
    obtain ⟨i1, i2⟩ := widest_spec (r2 :: rest) n (by simp) (fun x hx => hl x (by simp [hx]))
    have hr := hl r (by simp)
    have h2 : (widest (r2 :: rest)).length = n := by rw [← i1 r2 (by simp)]; exact hl r2 (by simp)
    have hw : widest (r :: r2 :: rest) = List.zipWith max (r.map ColText.size) (widest (r2 :: rest)) := rfl
    have hwl : (widest (r :: r2 :: rest)).length = n := by rw [hw]; simp [hr, h2]
    refine ⟨fun x hx => by rw [hwl]; exact hl x hx, ?_⟩
    intro j w hj
    rw [hw, List.getElem?_zipWith] at hj
    have hjn : j < n := by
      by_contra hge
      rw [List.getElem?_eq_none (by simp [hr]; omega)] at hj
      simp at hj
    have hc : r[j]? = some r[j] := List.getElem?_eq_getElem (by omega)
    have hv : (widest (r2 :: rest))[j]? = some (widest (r2 :: rest))[j] := List.getElem?_eq_getElem (by omega)
    rw [List.getElem?_map, hc, hv] at hj
    simp only [Option.map_some, Option.some.injEq] at hj
    obtain ⟨j1, row, hrow, c, j2, j3⟩ := i2 j _ hv
    refine ⟨?_, ?_⟩
    · intro row' hrow' c' hc'
      rcases List.mem_cons.1 hrow' with rfl | hrow'
      · rw [hc] at hc'
        cases hc'
        omega
      · have := j1 row' hrow' c' hc'
        omega
    · by_cases hle : r[j].size ≤ (widest (r2 :: rest))[j]
      · exact ⟨row, by simp [List.mem_cons.1 hrow], c, j2, by omega⟩
      · exact ⟨r, by simp, r[j], hc, by omega⟩

theorem rows_length {prt letter : Nat → Bool} {day : Int → Str} {number : Str → Rat → Str} {withAcct withBal : Bool} {rep : List RegEntry} :
    ∀ r ∈ registerTable prt letter day number withAcct withBal rep, r.length = (registerMay withAcct withBal).length := by
  intro r hr
  rcases List.mem_cons.1 hr with rfl | hr
  · cases withAcct <;> cases withBal <;> rfl
  · obtain ⟨p, _, rfl⟩ := List.mem_map.1 hr
    cases withAcct <;> cases withBal <;> rfl

/-- **C100** (partial: texts without escape sequences, and a screen on which the dates, amounts and balances fit).  The register printed as text
shows, without its colours, the headings and then one line per entry: date, payee, account, counter account, amount and balance, each in its column;
the columns are as wide as their widest text, only the columns of names are cut, and only as far as the line must be cut to fit the screen.
The amounts shown are the amounts of the entries. -/
theorem c100_register_text_partial (prt : Nat → Bool) (hp : AsciiPrint prt) (termWidth : Int) (f : Fmt) (hf : SoundFmt f)
    (colour withAcct withBal : Bool) (rep : List RegEntry) (hrep : ∀ p ∈ rep, PlainEntry prt p)
    (hroom : Room termWidth (registerMay withAcct withBal) (registerTable prt f.letter dateString f.number withAcct withBal rep)) :
    ∃ lines, registerText prt termWidth f colour withAcct withBal (rep.map some) = some lines ∧
      TableSeen termWidth (registerMay withAcct withBal) (registerTable prt f.letter dateString f.number withAcct withBal rep) (lines.map plain) ∧
      ∀ p ∈ rep, (FitsDecimals (decimalsOf f p.ccy) p.amount → decimalValue (f.number p.ccy p.amount) = p.amount) ∧
        (FitsDecimals (decimalsOf f p.ccy) p.balance → decimalValue (f.number p.ccy p.balance) = p.balance) := by
  obtain ⟨ws, hws⟩ : ∃ ws, Widest (registerTable prt f.letter dateString f.number withAcct withBal rep) ws :=
    ⟨_, widest_spec _ _ (by simp [registerTable]) rows_length⟩
  have hroom := hroom ws hws
  have hws0 := hws
  unfold registerTable at hws
  have hc : (headCells colour withAcct withBal :: rep.map (regCells f colour withAcct withBal)).map (fun r => r.map (cellCol prt)) =
      registerTitles withAcct withBal :: rep.map (registerCols prt f.letter dateString f.number withAcct withBal) := by
    rw [List.map_cons, (head_cols hp colour withAcct withBal).1, List.map_map]
    congr 1
    apply List.map_congr_left
    intro p hpm
    exact (reg_cols hp hf.groups hf.point colour withAcct withBal (hrep p hpm)).1
  have hlen : (registerMay withAcct withBal).length = ws.length := by
    rw [← hws.1 (registerTitles withAcct withBal) (by simp)]
    cases withAcct <;> cases withBal <;> rfl
  have hne : ws ≠ [] := by
    intro h
    rw [h] at hlen
    revert hlen
    cases withAcct <;> cases withBal <;> simp [registerMay]
  -- the column of the counter accounts
  have hj : (registerTitles withAcct withBal)[if withAcct then 3 else 2]? = some (.left b!"Counteraccount") := by
    cases withAcct <;> cases withBal <;> rfl
  have hlast : (((ws.zip (registerMay withAcct withBal)).filter (·.2)).map (·.1)).getLast? ≠ some 0 := by
    have hj2 : ∀ w, ws[if withAcct then 3 else 2]? = some w → 14 ≤ w := fun w hw => by
      have := (hws.2 _ w hw).1 _ (List.mem_cons_self ..) _ hj
      simpa [ColText.size] using this
    clear hc hws hroom hj hne
    cases withAcct <;> cases withBal
    all_goals
      simp only [registerMay, if_true, if_false, Bool.false_eq_true] at hlen hj2 ⊢
    · match ws, hlen with
      | [a, b, c, d], _ =>
        have := hj2 c rfl
        simp; omega
    · match ws, hlen with
      | [a, b, c, d, e], _ =>
        have := hj2 c rfl
        simp; omega
    · match ws, hlen with
      | [a, b, c, d, e], _ =>
        have := hj2 d rfl
        simp; omega
    · match ws, hlen with
      | [a, b, c, d, e, g], _ =>
        have := hj2 d rfl
        simp; omega
  obtain ⟨lines, ws', e1, e2, e3, e4⟩ := table_plain prt ((hp 32 (by omega)).2 (by omega)) termWidth (headCells colour withAcct withBal)
    (rep.map (regCells f colour withAcct withBal)) (registerMay withAcct withBal) ws (by rw [hc]; exact hws) hne (by omega)
    (by
      intro r hr c hcm
      rcases List.mem_cons.1 hr with rfl | hr
      · exact (head_cols hp colour withAcct withBal).2 c hcm
      · obtain ⟨p, hpm, rfl⟩ := List.mem_map.1 hr
        exact (reg_cols hp hf.groups hf.point colour withAcct withBal (hrep p hpm)).2 c hcm)
    (by
      intro r hr j c hjc hm
      rcases List.mem_cons.1 hr with rfl | hr
      · exfalso
        have hall : (headCells colour withAcct withBal).all (fun c => !c.isMoney) = true := by cases withAcct <;> cases withBal <;> rfl
        have := List.all_eq_true.1 hall c (List.mem_of_getElem? hjc)
        rw [hm] at this
        cases this
      · obtain ⟨p, hpm, rfl⟩ := List.mem_map.1 hr
        revert hjc
        cases withAcct <;> cases withBal <;> simp only [regCells, registerMay, if_true, if_false, Bool.false_eq_true, List.cons_append, List.nil_append,
          List.append_nil] <;> intro hjc
        · match j, hjc with
          | 0, h => cases h; cases hm
          | 1, h => cases h; cases hm
          | 2, h => cases h; cases hm
          | 3, _ => rfl
        · match j, hjc with
          | 0, h => cases h; cases hm
          | 1, h => cases h; cases hm
          | 2, h => cases h; cases hm
          | 3, _ => rfl
          | 4, _ => rfl
        · match j, hjc with
          | 0, h => cases h; cases hm
          | 1, h => cases h; cases hm
          | 2, h => cases h; cases hm
          | 3, h => cases h; cases hm
          | 4, _ => rfl
        · match j, hjc with
          | 0, h => cases h; cases hm
          | 1, h => cases h; cases hm
          | 2, h => cases h; cases hm
          | 3, h => cases h; cases hm
          | 4, _ => rfl
          | 5, _ => rfl)
    (fun _ _ => hlast) (fun h _ => hroom h)
  refine ⟨lines, ?_, ⟨ws, ws', hws0, e2, ?_, ?_⟩, ?_⟩
  · unfold registerText
    rw [mapM_cells fun p hpm => (hrep p hpm).2.2.2.1]
    rw [Option.bind_some, head_cells]
    have : registerShrink withAcct withBal = registerMay withAcct withBal := rfl
    rw [this, ← e1]
    congr 1
    simp [List.map_map, Function.comp_def]
  · rw [e3]
    have : true ∈ (registerMay withAcct withBal).take ws.length := by
      rw [← hlen, List.take_length]
      cases withAcct <;> cases withBal <;> decide
    simp only [this, and_true]
  · rw [e4, registerTable, ← hc, List.map_map]
    rfl
  · intro p _
    exact ⟨fun h => c94_printed_exact_partial f hf _ _ h, fun h => c94_printed_exact_partial f hf _ _ h⟩


/-- **C100** (partial as above).  Without `--combined` there is a table for each account, in order, after a blank line and the account. -/
theorem c100_sections_partial (prt : Nat → Bool) (hp : AsciiPrint prt) (termWidth : Int) (f : Fmt) (hf : SoundFmt f) (colour : Bool)
    (secs : List (Str × List RegEntry)) (hrep : ∀ s ∈ secs, 27 ∉ s.1 ∧ ∀ p ∈ s.2, PlainEntry prt p)
    (hroom : ∀ s ∈ secs, Room termWidth (registerMay false true) (registerTable prt f.letter dateString f.number false true s.2)) :
    ∃ out tables, registerSectionsText prt termWidth f colour (secs.map fun s => (s.1, s.2.map some)) = some out ∧
      List.Forall₂ (fun s t => TableSeen termWidth (registerMay false true) (registerTable prt f.letter dateString f.number false true s.2) t)
        secs tables ∧
      out.map plain = (List.zipWith (fun s t => [[10], s.1 ++ [10]] ++ t) secs tables).flatten := by
  induction secs with
  | nil => exact ⟨[], [], rfl, .nil, rfl⟩
  | cons s secs ih =>
    obtain ⟨out, tables, i1, i2, i3⟩ := ih (fun x hx => hrep x (by simp [hx])) (fun x hx => hroom x (by simp [hx]))
    obtain ⟨h27, hpl⟩ := hrep s (by simp)
    obtain ⟨lines, l1, l2, _⟩ := c100_register_text_partial prt hp termWidth f hf colour false true s.2 hpl (hroom s (by simp))
    refine ⟨[[10], ansi colour ansiBlueUL s.1 ++ [10]] ++ lines ++ out, lines.map plain :: tables, ?_, .cons l2 i2, ?_⟩
    · simp only [List.map_cons, registerSectionsText, l1, i1, Option.bind_some, Option.map_some]
    · have e : plain (ansi colour ansiBlueUL s.1 ++ [10]) = s.1 ++ [10] := by
        have hc : IsCode ansiBlueUL := ⟨b!"[4;34", by decide, rfl⟩
        cases colour
        · exact plain_self (by simp [ansi, h27])
        · show plain (ansiBlueUL ++ s.1 ++ ansiReset ++ [10]) = _
          rw [List.append_assoc, List.append_assoc, plain_code hc, plain_plain h27, plain_code code_reset]
          rfl
      simp only [List.map_append, List.map_cons, List.map_nil, List.zipWith_cons_cons, List.flatten_cons, e, i3]
      rfl

theorem registerRows_asc {e : OpEnv} {a : AppConf} {r : RegisterConf} {mat : Str → Bool} {b : Book} (hr : r.asc = true)
    {rows : List (Option RegEntry)} (h : registerRows e a r mat b = .ok rows) : ∃ rep : List RegEntry, rows = rep.map some := by
  unfold registerRows at h
  have h := orCrash_ok h
  obtain ⟨win, hw, hrows⟩ := Option.map_eq_some_iff.1 h
  rw [hr] at hrows
  exact ⟨countRows r.count win, hrows.symm⟩

/-- The register command in ascending order leaves no holes: what `c100_register_text_partial` and `c100_sections_partial` print. -/
theorem c100_no_holes (le : Env) (depth : Nat) (e : OpEnv) (fuel : Nat) (a : AppConf) (r : RegisterConf) (hr : r.asc = true) (args : List Str)
    (arg : Str) (secs : List (Str × List (Option RegEntry))) (h : registerCmd le depth e fuel a r args arg = .ok secs) :
    ∃ secs' : List (Str × List RegEntry), secs = secs'.map fun s => (s.1, s.2.map some) := by
  have key : ∀ secs : List (Str × List (Option RegEntry)), (∀ s ∈ secs, ∃ rep : List RegEntry, s.2 = rep.map some) →
      ∃ secs' : List (Str × List RegEntry), secs = secs'.map fun s => (s.1, s.2.map some) := by
    intro secs
    induction secs with
    | nil => intro _; exact ⟨[], rfl⟩
    | cons s secs ih =>
      intro hs
      obtain ⟨secs', h1⟩ := ih fun x hx => hs x (by simp [hx])
      obtain ⟨rep, h2⟩ := hs s (by simp)
      exact ⟨(s.1, rep) :: secs', by rw [List.map_cons, ← h1, ← h2]⟩
  unfold registerCmd at h
  obtain ⟨b, _, h⟩ := bind_ok h
  apply key
  split at h
  · split at h
    · obtain ⟨rows, h1, h2⟩ := bind_ok h
      cases h2
      intro s hs
      simp only [List.mem_singleton] at hs
      subst hs
      exact registerRows_asc hr h1
    · cases h
  · split at h
    · intro s hs
      exact registerRows_asc hr ((registerSections_ok _ _ h).2 s hs)
    · cases h

/-- ASCII only. -/
def asciiPrt (c : Nat) : Bool := decide (32 ≤ c ∧ c ≤ 126)

theorem asciiPrt_ok : AsciiPrint asciiPrt := fun c _ => by simp [asciiPrt]

/-- Two entries. -/
def demoEntries : List RegEntry :=
  [⟨20200131, b!"Cash", b!"shop", b!"Exp:Food", -2469/2, b!"$", -2469/2, [], [], [], 0, .inferred, 0⟩,
   ⟨20200201, b!"Cash", b!"a long payee", b!"Inc", 3/2, b!"EUR", 3/2, [], [], [], 0, .inferred, 0⟩]

/-- The register of the two entries, and on a narrow screen. -/
example : (registerText asciiPrt 0 (demoFmt (bookOf exportCalls)) true false true (demoEntries.map some)).map (·.map plain) =
      some [b!"Date       Payee        Counteraccount    Amount   Balance\n",
            b!"2020/01/31 shop         Exp:Food       $-1,234.5 $-1,234.5\n",
            b!"2020/02/01 a long payee Inc            EUR  1.50 EUR  1.50\n"] ∧
    (registerText asciiPrt 50 (demoFmt (bookOf exportCalls)) false false true (demoEntries.map some)).map (·.map plain) =
      some [b!"Date       Payee     Counterac    Amount   Balance\n",
            b!"2020/01/31 shop      Exp:Food  $-1,234.5 $-1,234.5\n",
            b!"2020/02/01 a long pa Inc       EUR  1.50 EUR  1.50\n"] := by
  decide +kernel

/-- The hypotheses of `c100_register_text_partial` on that screen. -/
example : AsciiPrint asciiPrt ∧ SoundFmt (demoFmt (bookOf exportCalls)) ∧ (∀ p ∈ demoEntries, PlainEntry asciiPrt p) ∧
    Room 50 (registerMay false true) (registerTable asciiPrt (demoFmt (bookOf exportCalls)).letter dateString
      (demoFmt (bookOf exportCalls)).number false true demoEntries) := by
  refine ⟨asciiPrt_ok, demoFmt_sound _, ?_, ?_⟩
  · unfold PlainEntry
    decide +kernel
  · intro ws hws _
    have hu : ∀ ws', Widest (registerTable asciiPrt (demoFmt (bookOf exportCalls)).letter dateString
      (demoFmt (bookOf exportCalls)).number false true demoEntries) ws' → ws' = ws := by
      intro ws' hws'
      have hl : ws'.length = ws.length := by
        rw [← hws.1 _ (List.mem_cons_self ..), ← hws'.1 _ (List.mem_cons_self ..)]
      apply List.ext_getElem hl
      intro j h1 h2
      obtain ⟨a1, r1, b1, c1, d1, e1⟩ := hws'.2 j _ (List.getElem?_eq_getElem h1)
      obtain ⟨a2, r2, b2, c2, d2, e2⟩ := hws.2 j _ (List.getElem?_eq_getElem h2)
      have := a1 r2 b2 c2 d2
      have := a2 r1 b1 c1 d1
      omega
    rw [← hu _ (widest_spec _ _ (by simp [registerTable]) rows_length)]
    decide +kernel

/-- C100 is false of a payee with an escape character: it hides what follows. -/
theorem c100_register_text_fails : ¬ ∀ (prt : Nat → Bool) (_ : AsciiPrint prt) (termWidth : Int) (f : Fmt) (_ : SoundFmt f)
    (colour withAcct withBal : Bool) (rep : List RegEntry) (_ : ∀ p ∈ rep, p.ccy ≠ [] ∧ ∀ c ∈ p.ccy, prt c = true ∧ c ≠ 27 ∧ c ≠ 9)
    (_ : Room termWidth (registerMay withAcct withBal) (registerTable prt f.letter dateString f.number withAcct withBal rep)),
    ∃ lines, registerText prt termWidth f colour withAcct withBal (rep.map some) = some lines ∧
      TableSeen termWidth (registerMay withAcct withBal) (registerTable prt f.letter dateString f.number withAcct withBal rep) (lines.map plain) := by
  intro h
  obtain ⟨lines, h1, ws, ws', h2, h3, h4, h5⟩ := h asciiPrt asciiPrt_ok 0 (demoFmt (bookOf exportCalls)) (demoFmt_sound _) false false false
    [⟨20200131, b!"Cash", 27 :: b!"x", b!"Exp:Food", 1, b!"$", 1, [], [], [], 0, .inferred, 0⟩] (by decide +kernel)
    (by intro ws _ h; omega)
  have e : registerText asciiPrt 0 (demoFmt (bookOf exportCalls)) false false false
      ([⟨20200131, b!"Cash", 27 :: b!"x", b!"Exp:Food", 1, b!"$", 1, [], [], [], 0, .inferred, 0⟩].map some) =
    some [b!"Date       Payee Counteraccount Amount\n", b!"2020/01/31 " ++ 27 :: b!"x      Exp:Food       $  1.0\n"] := by decide +kernel
  rw [e] at h1
  cases h1
  have hlast := congrArg (fun l : List (List Nat) => (l[1]?).bind (·.getLast?)) h5
  simp only [registerTable, List.map_cons, List.map_nil, List.getElem?_cons_succ, List.getElem?_cons_zero, Option.bind_some,
    List.getLast?_append, List.getLast?_singleton, Option.some_or] at hlast
  revert hlast
  decide +kernel

end Verif
