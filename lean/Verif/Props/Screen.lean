import Verif.Spec.Screen
import Verif.Props.Table

/-! # C63: tables as they are seen -/

namespace Verif
open Spec

/-- The characters among the tokens. -/
def charsOf : List Tok → List Nat
  | [] => []
  | .esc _ :: ts => charsOf ts
  | .chr r :: ts => r :: charsOf ts

theorem strip_body {body : List Nat} (h : 109 ∉ body) (s : List Nat) : stripFrom true (body ++ 109 :: s) = stripFrom false s := by
  induction body with
  | nil => simp [stripFrom]
  | cons c b ih =>
    simp only [List.mem_cons, not_or] at h
    simp [stripFrom, Ne.symm h.1, ih h.2]

theorem plain_runes {ts : List Tok} (h : ∀ t ∈ ts, Tok.Ok t) (s : List Nat) : plain (runesOf ts ++ s) = charsOf ts ++ plain s := by
  unfold plain
  induction ts with
  | nil => rfl
  | cons t ts ih =>
    have ih := ih fun x hx => h x (by simp [hx])
    cases t with
    | esc b =>
      have hb : 109 ∉ b := h (.esc b) (by simp)
      have : runesOf (.esc b :: ts) ++ s = 27 :: (b ++ 109 :: (runesOf ts ++ s)) := by simp [runesOf, Tok.runes]
      rw [this, stripFrom, if_pos rfl, strip_body hb, ih]
      rfl
    | chr c =>
      have hc : c ≠ 27 := h (.chr c) (by simp)
      have : runesOf (.chr c :: ts) ++ s = c :: (runesOf ts ++ s) := by simp [runesOf, Tok.runes]
      rw [this, stripFrom, if_neg hc, ih]
      rfl

theorem plain_plain {s : List Nat} (h : 27 ∉ s) (t : List Nat) : plain (s ++ t) = s ++ plain t := by
  unfold plain
  induction s with
  | nil => rfl
  | cons c s ih =>
    simp only [List.mem_cons, not_or] at h
    simp [stripFrom, Ne.symm h.1, ih h.2]

theorem plain_self {s : List Nat} (h : 27 ∉ s) : plain s = s := by
  have := plain_plain h []
  simpa [plain, stripFrom] using this

theorem visible_chars (prt : Nat → Bool) (ts : List Tok) : visibleCount prt ts = (onScreen prt (charsOf ts)).length := by
  induction ts with
  | nil => rfl
  | cons t ts ih =>
    cases t with
    | esc b => simpa [visibleCount, Tok.visible, charsOf] using ih
    | chr c =>
      have e : visibleCount prt (.chr c :: ts) = (if (prt c || c == 9) = true then 1 else 0) + visibleCount prt ts := by
        unfold visibleCount
        by_cases hc : (prt c || c == 9) = true
        · rw [List.filter_cons_of_pos (by simpa [Tok.visible] using hc), if_pos hc]; simp; omega
        · rw [List.filter_cons_of_neg (by simpa [Tok.visible] using hc), if_neg hc]; simp
      rw [e, ih]
      unfold onScreen
      by_cases hc : (prt c || c == 9) = true
      · rw [charsOf, List.filter_cons_of_pos (p := fun c => prt c || c == 9) hc, if_pos hc]; simp; omega
      · rw [charsOf, List.filter_cons_of_neg (p := fun c => prt c || c == 9) hc, if_neg hc]; simp

theorem clip_chars (prt : Nat → Bool) (ts : List Tok) : ∀ n, charsOf (clip prt n ts) = (onScreen prt (charsOf ts)).take n := by
  induction ts with
  | nil => intro n; simp [clip, charsOf, onScreen]
  | cons t ts ih =>
    intro n
    cases t with
    | esc b => simpa [clip, charsOf] using ih n
    | chr c =>
      simp only [clip, charsOf]
      by_cases hc : (prt c || c == 9) = true
      · rw [if_pos hc]
        have e : onScreen prt (c :: charsOf ts) = (if c = 9 then 32 else c) :: onScreen prt (charsOf ts) := by
          unfold onScreen
          rw [List.filter_cons_of_pos (p := fun c => prt c || c == 9) hc]
          rfl
        rw [e]
        cases n with
        | zero => simp [ih 0]
        | succ n => simp [charsOf, ih n]
      · rw [if_neg hc]
        have e : onScreen prt (c :: charsOf ts) = onScreen prt (charsOf ts) := by
          unfold onScreen
          rw [List.filter_cons_of_neg (p := fun c => prt c || c == 9) hc]
        rw [e, ih n]

/-- What a cell shows. -/
def cellCol (prt : Nat → Bool) : Cell → ColText
  | .str s => .left (onScreen prt (plain s))
  | .right s => .right (onScreen prt (plain s))
  | .money sym amt => .money (onScreen prt (plain sym)) (onScreen prt (plain amt))

/-- Currency symbols are printed as they are: they must be printable. -/
def SymbolOk (prt : Nat → Bool) : Cell → Prop
  | .money sym _ => onScreen prt (plain sym) = plain sym
  | _ => True

theorem plain_spaces (n : Nat) (s : List Nat) : plain (List.replicate n 32 ++ s) = List.replicate n 32 ++ plain s :=
  plain_plain (fun h => by have := List.eq_of_mem_replicate h; omega) s

theorem plain_toks {ts : List Tok} (h : ∀ t ∈ ts, Tok.Ok t) : plain (runesOf ts) = charsOf ts := by
  have := plain_runes h []
  simpa [plain, stripFrom] using this

theorem shows_plain {prt : Nat → Bool} {w : Nat} {c : Cell} {p : List Nat} (h : Shows prt w c p) (hsym : SymbolOk prt c) (s : List Nat) :
    plain (p ++ s) = (cellCol prt c).on w ++ plain s := by
  cases h with
  | str ts hts =>
    rw [List.append_assoc, plain_runes (clip_ok prt hts _), plain_spaces, clip_chars, visible_chars]
    simp only [cellCol, ColText.on, plain_toks hts, List.append_assoc]
  | right ts hts =>
    rw [List.append_assoc, plain_spaces, plain_runes (clip_ok prt hts _), clip_chars, visible_chars]
    simp only [cellCol, ColText.on, plain_toks hts, List.append_assoc]
  | money ss ts k hss hts hw =>
    simp only [SymbolOk, plain_toks hss] at hsym
    have e1 : visibleCount prt ss = (charsOf ss).length := by rw [visible_chars, hsym]
    have e2 : w - (charsOf ss).length = k := by omega
    rw [List.append_assoc, plain_runes hss, List.append_assoc, plain_spaces, plain_runes (clip_ok prt hts _), clip_chars, visible_chars prt ts]
    simp only [cellCol, ColText.on, plain_toks hss, plain_toks hts, hsym, e2, List.append_assoc]

theorem size_length (prt : Nat → Bool) {c : Cell} (h : c.Closed) : (cellCol prt c).size = c.length prt := by
  cases c with
  | str s =>
    obtain ⟨ts, h1, rfl⟩ := h
    simp [cellCol, ColText.size, Cell.length, strLength_runes prt h1, visible_chars, plain_toks h1]
  | right s =>
    obtain ⟨ts, h1, rfl⟩ := h
    simp [cellCol, ColText.size, Cell.length, strLength_runes prt h1, visible_chars, plain_toks h1]
  | money a b =>
    obtain ⟨⟨ss, h1, rfl⟩, ts, h2, rfl⟩ := h
    simp [cellCol, ColText.size, Cell.length, strLength_runes prt h1, strLength_runes prt h2, visible_chars, plain_toks h1, plain_toks h2]

/-- The pieces of a line, seen. -/
theorem pieces_plain {prt : Nat → Bool} : ∀ (ws : List Int) (cs : List Cell) (pieces : List (List Nat)), pieces.length = ws.length →
    cs.length = ws.length → (∀ c ∈ cs, SymbolOk prt c) →
    (∀ (j : Nat) (w : Int) (p : List Nat), ws[j]? = some w → pieces[j]? = some p → ∃ c, (cs.map some)[j]? = some (some c) ∧ Shows prt w.toNat c p) →
    ∀ s, plain (spaced pieces ++ s) = spaced (List.zipWith ColText.on (ws.map Int.toNat) (cs.map (cellCol prt))) ++ plain s
  | [], cs, pieces, h1, h2, _, _, s => by
    have e1 : pieces = [] := List.length_eq_zero_iff.1 h1
    subst e1
    simp [spaced]
  | [w], cs, pieces, h1, h2, hsym, hp, s => by
    match pieces, h1, cs, h2 with
    | [p], _, [c], _ =>
      obtain ⟨c', hc', hs⟩ := hp 0 w p rfl rfl
      simp only [List.map_cons, List.getElem?_cons_zero, Option.some.injEq] at hc'
      subst hc'
      simpa [spaced] using shows_plain hs (hsym c (by simp)) s
  | w :: w2 :: ws, cs, pieces, h1, h2, hsym, hp, s => by
    match pieces, h1, cs, h2 with
    | p :: q :: ps, h1, c :: c2 :: cs, h2 =>
      obtain ⟨c', hc', hs⟩ := hp 0 w p rfl rfl
      simp only [List.map_cons, List.getElem?_cons_zero, Option.some.injEq] at hc'
      subst hc'
      have ih := pieces_plain (w2 :: ws) (c2 :: cs) (q :: ps) (by simpa using h1) (by simpa using h2) (fun c hc => hsym c (by simp [hc]))
        (fun j v r h3 h4 => by
          obtain ⟨c, a, b⟩ := hp (j + 1) v r (by simpa using h3) (by simpa using h4)
          exact ⟨c, by simpa using a, b⟩) s
      simp only [spaced, List.map_cons, List.zipWith_cons_cons, List.append_assoc, List.cons_append] at ih ⊢
      rw [shows_plain hs (hsym c (by simp))]
      rw [show (32 :: (spaced (q :: ps) ++ s)) = [32] ++ (spaced (q :: ps) ++ s) from rfl, plain_plain (by decide), ih]
      simp [spaced]

theorem sum_cast (ws : List Nat) : ((ws.map fun n : Nat => (n : Int)).sum) = ((ws.sum : Nat) : Int) := by
  induction ws with
  | nil => rfl
  | cons w ws ih => simp [ih]

theorem rowWidth_cast {ws : List Nat} (h : ws ≠ []) : rowWidth (ws.map fun n : Nat => (n : Int)) = (lineWidth ws : Int) := by
  have : 1 ≤ ws.length := List.length_pos_iff.2 h
  unfold rowWidth lineWidth
  rw [sum_cast, List.length_map]
  omega

theorem shrinkable_cast (ws : List Nat) : ∀ may : List Bool, shrinkable (ws.map fun n : Nat => (n : Int)) may =
    (((ws.zip may).filter (·.2)).map (·.1)).map fun n : Nat => (n : Int) := by
  induction ws with
  | nil => intro may; simp [shrinkable]
  | cons w ws ih =>
    intro may
    cases may with
    | nil => simp [shrinkable]
    | cons m may =>
      have := ih may
      unfold shrinkable at this ⊢
      cases m <;> simp [this]

/-- Tables as they are seen: the lines, without colours, are the rows with each cell on the places of its column, a blank between columns. -/
theorem table_plain (prt : Nat → Bool) (hsp : prt 32 = true) (termWidth : Int) (head : List Cell) (rest : List (List Cell)) (may : List Bool)
    (ws : List Nat) (hws : Widest ((head :: rest).map fun r => r.map (cellCol prt)) ws) (hne : ws ≠ []) (hl : ws.length ≤ may.length)
    (hclosed : ∀ r ∈ head :: rest, ∀ c ∈ r, c.Closed ∧ SymbolOk prt c)
    (hmoney : ∀ r ∈ head :: rest, ∀ (j : Nat) (c : Cell), r[j]? = some c → c.isMoney = true → may[j]? = some false)
    (hlast : 0 < termWidth → termWidth < lineWidth ws → (((ws.zip may).filter (·.2)).map (·.1)).getLast? ≠ some 0)
    (henough : 0 < termWidth → termWidth < lineWidth ws → lineWidth ws - termWidth ≤ (markedWidth ws may : Int)) :
    ∃ lines ws', printColumns prt termWidth ((head :: rest).map fun r => some (r.map some)) may = some lines ∧ Narrowed ws ws' may ∧
      ((lineWidth ws' : Int) = if 0 < termWidth ∧ termWidth < lineWidth ws ∧ true ∈ may.take ws.length then termWidth else lineWidth ws) ∧
      lines.map plain = (head :: rest).map fun r => spaced (List.zipWith ColText.on ws' (r.map (cellCol prt))) ++ [10] := by
  obtain ⟨hlen, hw⟩ := hws
  have hlen' : ∀ r ∈ head :: rest, r.length = ws.length := by
    intro r hr
    have := hlen _ (List.mem_map.2 ⟨r, hr, rfl⟩)
    simpa using this
  have hrow : ∀ r : List (Option Cell), some r ∈ ((head :: rest).map fun r => (some (r.map some) : Row)) → ∃ r0 ∈ head :: rest, r = r0.map some := by
    intro r hr
    obtain ⟨r0, h1, h2⟩ := List.mem_map.1 hr
    exact ⟨r0, h1, (Option.some.inj h2).symm⟩
  have hW : Widths prt ((head :: rest).map fun r => some (r.map some)) (ws.map fun n : Nat => (n : Int)) := by
    refine ⟨⟨head.map some, rest.map fun r => some (r.map some), rfl, by simp [hlen' head (by simp)]⟩, ?_, ?_⟩
    · intro r hr j w hj
      obtain ⟨r0, h1, rfl⟩ := hrow r hr
      rw [List.getElem?_map, Option.map_eq_some_iff] at hj
      obtain ⟨n, hn, rfl⟩ := hj
      obtain ⟨hjl, _⟩ := List.getElem?_eq_some_iff.1 hn
      have hj0 : j < r0.length := by rw [hlen' r0 h1]; exact hjl
      refine ⟨r0[j], by simp [List.getElem?_eq_getElem hj0], ?_⟩
      have := (hw j n hn).1 _ (List.mem_map.2 ⟨r0, h1, rfl⟩) (cellCol prt r0[j]) (by simp [List.getElem?_eq_getElem hj0])
      rw [size_length prt (hclosed r0 h1 _ (List.getElem_mem _)).1] at this
      exact_mod_cast this
    · intro j w hj
      rw [List.getElem?_map, Option.map_eq_some_iff] at hj
      obtain ⟨n, hn, rfl⟩ := hj
      obtain ⟨row, hrow, c, hc, e⟩ := (hw j n hn).2
      obtain ⟨r0, h1, rfl⟩ := List.mem_map.1 hrow
      rw [List.getElem?_map, Option.map_eq_some_iff] at hc
      obtain ⟨c0, hc0, rfl⟩ := hc
      right
      refine ⟨r0.map some, List.mem_map.2 ⟨r0, h1, rfl⟩, c0, by simp [hc0], ?_⟩
      rw [size_length prt (hclosed r0 h1 _ (List.mem_of_getElem? hc0)).1] at e
      exact_mod_cast e
  have hsh := shrinkable_cast ws may
  have hrw := rowWidth_cast hne
  obtain ⟨lines, ws', e, l1, l2, l3, l4, _⟩ := c63_table_partial prt hsp termWidth _ may _ hW (by simpa using hne) (by simpa using hl)
    (by
      intro r hr c hc
      obtain ⟨r0, h1, rfl⟩ := hrow r hr
      obtain ⟨c0, h2, h3⟩ := List.mem_map.1 hc
      cases h3
      exact (hclosed r0 h1 c h2).1)
    (by
      intro r hr j c hc hm
      obtain ⟨r0, h1, rfl⟩ := hrow r hr
      rw [List.getElem?_map, Option.map_eq_some_iff] at hc
      obtain ⟨c0, h2, h3⟩ := hc
      cases h3
      exact hmoney r0 h1 j c h2 hm)
    (by
      intro h1 h2
      rw [hrw] at h2
      rw [hsh, List.getLast?_map]
      intro h3
      rw [Option.map_eq_some_iff] at h3
      obtain ⟨a, h4, h5⟩ := h3
      have : a = 0 := by exact_mod_cast h5
      rw [this] at h4
      exact hlast h1 h2 h4)
    (by
      intro h1 h2
      rw [hrw] at h2
      rw [hrw, hsh, sum_cast]
      exact henough h1 h2)
  rw [List.length_map] at l1
  have hnn : ∀ w ∈ ws', 0 ≤ w := by
    intro w hw'
    obtain ⟨j, hj, rfl⟩ := List.mem_iff_getElem.1 hw'
    have hj' : j < ws.length := by omega
    exact (l2 j ws[j] ws'[j] (by simp [List.getElem?_eq_getElem hj']) (List.getElem?_eq_getElem hj)).1
  have hback : (ws'.map Int.toNat).map (fun n : Nat => (n : Int)) = ws' := by
    rw [List.map_map]
    conv => rhs; rw [← List.map_id ws']
    apply List.map_congr_left
    intro w hw'
    have := hnn w hw'
    simp [Int.toNat_of_nonneg this]
  have hne' : ws'.map Int.toNat ≠ [] := by
    intro h
    have : ws'.length = 0 := by rw [← List.length_map (f := Int.toNat), h]; rfl
    exact hne (List.length_eq_zero_iff.1 (by omega))
  refine ⟨lines, ws'.map Int.toNat, e, ⟨by simp [l1], ?_⟩, ?_, ?_⟩
  · intro j w w' hj hj'
    rw [List.getElem?_map, Option.map_eq_some_iff] at hj'
    obtain ⟨v, hv, rfl⟩ := hj'
    obtain ⟨a, b, c⟩ := l2 j w v (by simp [hj]) hv
    refine ⟨by omega, fun h => ?_⟩
    have := c h
    omega
  · rw [← rowWidth_cast hne', hback, l3, hrw, hsh]
    have : (((ws.zip may).filter (·.2)).map (·.1)).map (fun n : Nat => (n : Int)) ≠ [] ↔ true ∈ may.take ws.length := by
      clear * -
      induction ws generalizing may with
      | nil => simp
      | cons w ws ih =>
        cases may with
        | nil => simp
        | cons m may => cases m <;> simp_all
    simp only [this]
  · have key : ∀ (rs : List (List Cell)) (ls : List (List Nat)), (∀ r ∈ rs, r ∈ head :: rest) →
        List.Forall₂ (LineShows prt ws') (rs.map fun r => some (r.map some)) ls →
        ls.map plain = rs.map fun r => spaced (List.zipWith ColText.on (ws'.map Int.toNat) (r.map (cellCol prt))) ++ [10] := by
      intro rs
      induction rs with
      | nil => intro ls _ h; cases h; rfl
      | cons r rs ih =>
        intro ls hsub h
        cases h with
        | cons h1 h2 =>
          rw [List.map_cons, List.map_cons, ih _ (fun x hx => hsub x (by simp [hx])) h2]
          congr 1
          obtain ⟨pieces, h3, h4, h5⟩ := h1.2 _ rfl
          rw [h3, pieces_plain ws' r pieces h4 (by rw [hlen' r (hsub r (by simp)), l1]) (fun c hc => (hclosed r (hsub r (by simp)) c hc).2) h5]
          rfl
    exact key _ _ (fun _ h => h) l4

end Verif
