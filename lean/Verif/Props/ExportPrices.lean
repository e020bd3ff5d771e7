import Verif.Props.Export
import Verif.Props.Price

/-! # C76: an exported ledger, with its prices, can be loaded again -/

namespace Verif
open Spec

theorem bare_head {s : Str} (h : BareCCY s) : ∃ c r, s = c :: r ∧ isCCYRune c = true ∧ c ≠ 34 := by
  obtain ⟨c, r, rfl⟩ := List.exists_cons_of_ne_nil h.1
  exact ⟨c, r, rfl, h.2.1 c (by simp), fun e => h.2.2 (by simp [e])⟩

theorem num_no0 {num : Numeral} (n2 : num.Valid) : 0 ∉ num.text := by
  unfold Numeral.text Numeral.fracText
  have d0 : ∀ c, isDigit c = true ∨ c = 44 → c ≠ 0 := by
    rintro c hc rfl; rcases hc with hc | hc <;> revert hc <;> decide
  have i0 : 0 ∉ num.ip := fun hm => d0 0 (n2.1 0 hm) rfl
  cases hf : num.frac with
  | none => cases num.neg <;> simp [i0]
  | some fr =>
    have : 0 ∉ fr := fun hm => d0 0 (n2.2 fr hf 0 hm) rfl
    cases num.neg <;> simp [i0, this]

/-- A price line is printed, and reading it records the price. -/
theorem read_price {f : Fmt} (hg : SoundFmt f) {u c : Str} {q : Price} (h : PrintablePrice f u c q) :
    ∃ line, showPrice f u c q = some (line ++ [10]) ∧ 0 ∉ line ∧ line.head? = some 80 ∧
      ∀ (e : Env) (b : Builder) (als : Aliases) (rest : List Nat),
        parseStep e b als (line ++ 10 :: rest) = .go (b.addPrice q.date u c q.val) als rest := by
  obtain ⟨num, n1, n2, n3, n4, n5, n6⟩ := fmtFixed_exact hg.float hg.nearest hg.groups h.value
  obtain ⟨y, hy, hy2, hd⟩ := h.date
  obtain ⟨uc, ur, hu, huc, hu34⟩ := bare_head h.unitBare
  obtain ⟨cc, cr, hc, hcc, hc34⟩ := bare_head h.ccyBare
  have hnum : f.number c q.val = num.text := (number_sound hg.point _ _).trans n1
  refine ⟨b!"P " ++ dateString q.date ++ b!" 00:00:00 " ++ u ++ [32] ++ (c ++ symbolGap f c) ++ num.text, ?_, ?_, rfl, ?_⟩
  · unfold showPrice
    rw [symbol_eq f h.ccyBare.1]
    simp only [Option.map_some, Option.some.injEq, hnum]
  · have z : ∀ s : Str, BareCCY s → 0 ∉ s := fun s hs hm => by have := hs.2.1 0 hm; revert this; decide
    have hgap : 0 ∉ symbolGap f c := fun hm => by have := symbolGap_blank f _ 0 hm; revert this; decide
    have hdate : 0 ∉ dateString q.date := by
      rw [hd, dateString_code hy hy2]; simp; omega
    simp [z u h.unitBare, z c h.ccyBare, hgap, hdate, num_no0 n2]
  · intro e b als rest
    generalize hR : num.text ++ 10 :: rest = R
    have hdate := c25_ledger_roundtrip y hy hy2 (b!" 00:00:00 " ++ u ++ [32] ++ (c ++ symbolGap f c) ++ R)
      (by intro d hd; simp at hd; subst hd; decide)
    rw [← hd] at hdate
    have hne : ∃ d r, dateString q.date = d :: r ∧ isDigit d = true := by
      have hy1 := hy.1
      rw [hd, dateString_code hy hy2]; exact ⟨_, _, rfl, by simp [isDigit]; omega⟩
    obtain ⟨d0, dr, hd0, hdig⟩ := hne
    have ws1 : consumeWS (32 :: (dateString q.date ++ (b!" 00:00:00 " ++ u ++ [32] ++ (c ++ symbolGap f c) ++ R))) =
        dateString q.date ++ (b!" 00:00:00 " ++ u ++ [32] ++ (c ++ symbolGap f c) ++ R) :=
      ws_exact (bl := [32]) (by decide) (by intro x hx; rw [hd0] at hx; simp at hx; subst hx; exact (digit_facts hdig).1)
    have ws2 : consumeWS (b!" 00:00:00 " ++ u ++ [32] ++ (c ++ symbolGap f c) ++ R) =
        b!"00:00:00" ++ (32 :: u ++ [32] ++ (c ++ symbolGap f c) ++ R) := by
      have := ws_exact (bl := [32]) (x := b!"00:00:00" ++ (32 :: u ++ [32] ++ (c ++ symbolGap f c) ++ R)) (by decide)
        (by intro x hx; simp at hx; subst hx; decide)
      rw [← this]; simp
    have htime : ∀ r, parseTime (b!"00:00:00" ++ 32 :: r) = some (0, 32 :: r) := by
      intro r
      simp [parseTime, parseTriple, parseNumber, consumeRune, isDigit, List.takeWhile, List.dropWhile, digitsVal]
    -- the unit
    have hunit : parseCCY (32 :: u ++ [32] ++ (c ++ symbolGap f c) ++ R) = some (u, 32 :: ((c ++ symbolGap f c) ++ R)) := by
      have hw : consumeWS (32 :: u ++ [32] ++ (c ++ symbolGap f c) ++ R) = u ++ 32 :: ((c ++ symbolGap f c) ++ R) := by
        have := ws_exact (bl := [32]) (x := u ++ 32 :: ((c ++ symbolGap f c) ++ R)) (by decide)
          (by intro x hx; rw [hu] at hx; simp at hx; subst hx; exact (ccyRune_facts huc).2.2.2.2.1)
        rw [← this]; simp
      unfold parseCCY
      simp only [hw]
      rw [if_neg (by rw [hu]; exact hu34)]
      obtain ⟨s1, s2⟩ := span_exact (p := isCCYRune) (x := u) (r := 32 :: ((c ++ symbolGap f c) ++ R)) h.unitBare.2.1
        (by intro x hx; simp at hx; subst hx; decide)
      rw [s1, s2]
    -- currency and value
    let l : PostLine := ⟨[65], false, true, false, c, num, none, [32], [32], symbolGap f c, [], []⟩
    have hl : l.Valid := by
      refine ⟨⟨by simp [l], by simp [l]; decide⟩, by simp [l], by simp [l], ?_, ⟨n2, n3, n4⟩, n6, h.ccyBare.1, fun _ => h.ccyBare.2.1, ?_, by simp [l], by simp [l]⟩
      · intro x hx
        simp only [l, List.mem_append] at hx
        rcases hx with (((hx | hx) | hx) | hx) | hx
        · simp at hx; subst hx; decide
        · simp at hx; subst hx; decide
        · exact symbolGap_blank f _ x hx
        · simp at hx
        · simp at hx
      · intro _ x r hx
        have hx' : c = x :: r := hx
        rw [hc] at hx'
        simp only [List.cons.injEq] at hx'
        exact ⟨hx'.1 ▸ hc34, fun hf => by simp [l] at hf⟩
    have hamt := parseCCYAmt_exact hl num ⟨rfl, rfl⟩ (r := 10 :: rest) (by intro x hx; simp at hx; exact Or.inr hx.symm)
    simp only [l, PostLine.ccyText, if_true, Bool.false_eq_true, if_false] at hamt
    have ws3 : consumeWS (32 :: ((c ++ symbolGap f c) ++ R)) = (c ++ symbolGap f c) ++ R :=
      ws_exact (bl := [32]) (by decide) (by intro x hx; rw [hc] at hx; simp at hx; subst hx; exact (ccyRune_facts hcc).2.2.2.2.1)
    have hprice : parsePrice (80 :: 32 :: (dateString q.date ++ (b!" 00:00:00 " ++ u ++ [32] ++ (c ++ symbolGap f c) ++ R))) =
        some ((q.date, u, c, q.val), rest) := by
      unfold parsePrice
      simp only [consumeRune, if_true, ws1, hdate, ws2]
      have := htime (u ++ [32] ++ (c ++ symbolGap f c) ++ R)
      simp only [List.cons_append] at this hunit ⊢
      simp only [this, hunit, ws3]
      rw [← hR, ← List.append_assoc, hamt]
      simp [skipEOL, Reader.ch, Reader.next, n5]
    have hws : consumeWS (80 :: 32 :: (dateString q.date ++ (b!" 00:00:00 " ++ u ++ [32] ++ (c ++ symbolGap f c) ++ R))) =
        80 :: 32 :: (dateString q.date ++ (b!" 00:00:00 " ++ u ++ [32] ++ (c ++ symbolGap f c) ++ R)) :=
      ws_exact (bl := []) (by simp) (by intro x hx; simp at hx; subst hx; decide)
    have etext : b!"P " ++ dateString q.date ++ b!" 00:00:00 " ++ u ++ [32] ++ (c ++ symbolGap f c) ++ num.text ++ 10 :: rest =
        80 :: 32 :: (dateString q.date ++ (b!" 00:00:00 " ++ u ++ [32] ++ (c ++ symbolGap f c) ++ R)) := by
      rw [← hR]; simp
    rw [etext]
    unfold parseStep
    simp only [hws]
    rw [if_neg (by simp [Reader.ch]), if_pos trivial, if_neg (by simp [Reader.ch]), if_pos (by simp [Reader.ch])]
    simp only [hprice]

/-- The calls that record the prices of a table. -/
def priceCallsOf (pl : PriceBook) : List Call := pl.flatMap fun kv => kv.2.map fun q => .addPrice q.date kv.1.1 kv.1.2 q.val

theorem line_no0 {line : List Nat} (hd : line.head? = some 80) (r : List Nat) : Reader.ch (line ++ r) ≠ 0 := by
  cases line with
  | nil => cases hd
  | cons c l => simp at hd; subst hd; simp [Reader.ch]

theorem read_prices1 {f : Fmt} (hg : SoundFmt f) {u c : Str} : ∀ qs : PriceList, (∀ q ∈ qs, PrintablePrice f u c q) →
    ∃ text, concatOpt (showPrice f u c) qs = some text ∧ 0 ∉ text ∧ Lines text ∧
      ∀ (e : Env), e.letter 10 = false → ∀ (depth : Nat) (fn : Str) (b : Builder),
        readText e depth fn b [] text = Outcome.ofCalls (b.calls (qs.map fun q => .addPrice q.date u c q.val)) := by
  intro qs
  induction qs with
  | nil => intro _; exact ⟨[], rfl, by simp, Or.inl rfl, fun _ _ _ _ _ => rfl⟩
  | cons q qs ih =>
    intro h
    obtain ⟨text, k1, k2, k3, k4⟩ := ih fun q hq => h q (by simp [hq])
    obtain ⟨line, m1, m2, m3, m4⟩ := read_price hg (h q (by simp))
    refine ⟨line ++ [10] ++ text, ?_, ?_, ?_, ?_⟩
    · simp only [concatOpt, m1, k1, Option.bind_some, Option.map_some]
    · simp [m2, k2]
    · rcases k3 with e | ⟨s, e⟩
      · exact Or.inr ⟨line, by simp [e]⟩
      · exact Or.inr ⟨line ++ [10] ++ s, by simp [e]⟩
    · intro e he depth fn b
      rw [c60_reads_on_partial e he depth fn b [] (line ++ [10]) text (by simp [m2]) (Or.inr ⟨line, rfl⟩),
        readText_go (line_no0 m3 [10]) (m4 e b [] [])]
      simp only [Outcome.andThen, k4 e he, List.map_cons, Builder.calls, Builder.call]

theorem read_prices {f : Fmt} (hg : SoundFmt f) : ∀ pl : PriceBook, (∀ kv ∈ pl, ∀ q ∈ kv.2, PrintablePrice f kv.1.1 kv.1.2 q) →
    ∃ text, showPrices f pl = some text ∧ 0 ∉ text ∧ Lines text ∧
      ∀ (e : Env), e.letter 10 = false → ∀ (depth : Nat) (fn : Str) (b : Builder),
        readText e depth fn b [] text = Outcome.ofCalls (b.calls (priceCallsOf pl)) := by
  intro pl
  induction pl with
  | nil => intro _; exact ⟨[], rfl, by simp, Or.inl rfl, fun _ _ _ _ _ => rfl⟩
  | cons kv pl ih =>
    intro h
    obtain ⟨text, k1, k2, k3, k4⟩ := ih fun q hq => h q (by simp [hq])
    obtain ⟨s, m1, m2, m3, m4⟩ := read_prices1 hg kv.2 (h kv (by simp))
    refine ⟨s ++ text, ?_, by simp [m2, k2], ?_, ?_⟩
    · have : showPrices f (kv :: pl) = (concatOpt (showPrice f kv.1.1 kv.1.2) kv.2).bind fun a => (showPrices f pl).map fun b => a ++ b := rfl
      rw [this, m1, k1]; rfl
    · rcases k3 with e | ⟨x, e⟩
      · rw [e, List.append_nil]; exact m3
      · exact Or.inr ⟨s ++ x, by simp [e]⟩
    · intro e he depth fn b
      rw [c60_reads_on_partial e he depth fn b [] s text m2 m3, m4 e he]
      unfold priceCallsOf
      rw [List.flatMap_cons, calls_append]
      cases b.calls (kv.2.map fun q => .addPrice q.date kv.1.1 kv.1.2 q.val) with
      | none => rfl
      | some b1 => simp only [Outcome.ofCalls, Outcome.andThen, Option.bind_some]; exact k4 e he depth fn b1

/-! ## The price tables -/

theorem prices_calls : ∀ (pl : List (Int × Str × Str × Rat)) (b : Builder), ∃ b', b.calls (pl.map fun q => .addPrice q.1 q.2.1 q.2.2.1 q.2.2.2) = some b' ∧
    b'.post = b.post ∧ (∀ names, OpenInv b names → OpenInv b' names) := by
  intro pl
  induction pl with
  | nil => intro b; exact ⟨b, rfl, rfl, fun _ h => h⟩
  | cons q pl ih =>
    intro b
    obtain ⟨b', h1, h2, h3⟩ := ih (b.addPrice q.1 q.2.1 q.2.2.1 q.2.2.2)
    exact ⟨b', h1, h2, fun n h => h3 n ⟨h.keys, h.amt⟩⟩

theorem priceCallsOf_eq (pl : PriceBook) : ∃ l : List (Int × Str × Str × Rat), priceCallsOf pl = l.map fun q => .addPrice q.1 q.2.1 q.2.2.1 q.2.2.2 := by
  refine ⟨pl.flatMap fun kv => kv.2.map fun q => (q.date, kv.1.1, kv.1.2, q.val), ?_⟩
  unfold priceCallsOf
  rw [List.map_flatMap]
  congr 1
  funext kv
  rw [List.map_map]; rfl

theorem set_keys (b : PriceBook) (k : Str × Str) (v : PriceList) (h : (b.map (·.1)).Nodup) :
    ((b.set k v).map (·.1)).Nodup ∧ ∀ x ∈ (b.set k v).map (·.1), x ∈ b.map (·.1) ∨ x = k := by
  induction b with
  | nil => exact ⟨by simp [PriceBook.set], by intro x hx; simp [PriceBook.set] at hx; exact Or.inr hx⟩
  | cons kv b ih =>
    obtain ⟨k0, v0⟩ := kv
    simp only [List.map_cons, List.nodup_cons] at h
    obtain ⟨i1, i2⟩ := ih h.2
    simp only [PriceBook.set]
    split
    · rename_i e
      subst e
      exact ⟨by simpa using h, by intro x hx; left; simpa using hx⟩
    · rename_i e
      refine ⟨?_, ?_⟩
      · simp only [List.map_cons, List.nodup_cons]
        refine ⟨fun hm => ?_, i1⟩
        rcases i2 _ hm with hm | hm
        · exact h.1 hm
        · exact e hm
      · intro x hx
        simp only [List.map_cons, List.mem_cons] at hx ⊢
        rcases hx with hx | hx
        · exact Or.inl (Or.inl hx)
        · rcases i2 x hx with hx | hx
          · exact Or.inl (Or.inr hx)
          · exact Or.inr hx

theorem calls_keys (cs : List Call) : ∀ (b b' : Builder), (b.prices.map (·.1)).Nodup → b.calls cs = some b' → (b'.prices.map (·.1)).Nodup := by
  induction cs with
  | nil => intro b b' h hb; cases hb; exact h
  | cons cl cs ih =>
    intro b b' h hb
    simp only [Builder.calls] at hb
    cases hc : b.call cl with
    | none => rw [hc] at hb; cases hb
    | some b1 =>
      rw [hc] at hb
      refine ih b1 b' ?_ hb
      cases cl with
      | newTransaction d p n =>
        have hp := (newTransaction_post hc).2.2
        rw [hp]; exact h
      | addPosting a cc v n => cases hc; exact h
      | addPrice d u' c' v =>
        cases hc
        show ((b.prices.addPrice d u' c' v).map (·.1)).Nodup
        unfold PriceBook.addPrice
        split <;> exact (set_keys _ _ _ h).1

theorem fromCalls_keys {srt today cs b} (h : FromCalls srt today cs b) : (b.prices.map (·.1)).Nodup := by
  obtain ⟨bb, b0, ops, h1, h2, h3⟩ := h
  rw [applyOps_prices h3]
  have hk := calls_keys cs Builder.new bb (by simp [Builder.new]) h1
  have hp : b0.prices = bb.prices.build := by
    unfold Builder.build at h2
    split at h2
    · cases h2
    · rename_i b2 hb2
      cases h2
      have : b2.prices = bb.prices := by
        unfold Builder.checkAndClear at hb2
        split at hb2
        · cases hb2; rfl
        · cases hb2
      rw [← this]
      unfold Book.compact; split <;> rfl
  rw [hp]
  have : (bb.prices.build.map (·.1)) = bb.prices.map (·.1) := by
    unfold PriceBook.build; rw [List.map_map]; rfl
  rw [this]; exact hk

theorem mem_find {b : PriceBook} (h : (b.map (·.1)).Nodup) {k : Str × Str} {v : PriceList} : (k, v) ∈ b ↔ b.find k = some v := by
  induction b with
  | nil => simp [PriceBook.find]
  | cons kv b ih =>
    obtain ⟨k0, v0⟩ := kv
    simp only [List.map_cons, List.nodup_cons] at h
    simp only [PriceBook.find, List.mem_cons, Prod.mk.injEq]
    by_cases e : k0 = k
    · subst e
      rw [if_pos rfl]
      constructor
      · rintro (⟨_, e⟩ | hm)
        · rw [e]
        · exact absurd (List.mem_map.2 ⟨_, hm, rfl⟩) h.1
      · intro e; cases e; simp
    · rw [if_neg e, ← ih h.2]
      constructor
      · rintro (⟨e1, _⟩ | hm)
        · exact absurd e1.symm e
        · exact hm
      · exact Or.inr

theorem recorded_append (u c : Str) (xs ys : List Call) : recorded u c (xs ++ ys) = recorded u c xs ++ recorded u c ys := by
  induction xs with
  | nil => rfl
  | cons x xs ih =>
    cases x <;> simp only [List.cons_append, recorded, ih]
    split <;> simp

theorem recorded_txnCalls (u c : Str) (ts : List Txn) : recorded u c (ts.flatMap txnCalls) = [] := by
  induction ts with
  | nil => rfl
  | cons t ts ih =>
    rw [List.flatMap_cons, recorded_append, ih, List.append_nil]
    cases t with
    | nil => rfl
    | cons p ps =>
      simp only [txnCalls, recorded]
      generalize p :: ps = qs
      induction qs with
      | nil => rfl
      | cons q qs ih => exact ih

theorem recorded_prices (u c : Str) : ∀ pl : PriceBook, (pl.map (·.1)).Nodup →
    recorded u c (priceCallsOf pl) = (pl.find (u, c)).getD [] := by
  have h1 : ∀ (k : Str × Str) (qs : PriceList), recorded u c (qs.map fun q => .addPrice q.date k.1 k.2 q.val) = if k = (u, c) then qs else [] := by
    intro k qs
    obtain ⟨k1, k2⟩ := k
    induction qs with
    | nil => simp [recorded]
    | cons q qs ih =>
      simp only [List.map_cons, recorded, ih]
      by_cases e : k1 = u ∧ k2 = c
      · rw [if_pos e, if_pos (by rw [e.1, e.2]), if_pos (by rw [e.1, e.2])]
      · rw [if_neg e, if_neg (by simpa using e), if_neg (by simpa using e)]
  intro pl
  induction pl with
  | nil => intro _; rfl
  | cons kv pl ih =>
    intro h
    simp only [List.map_cons, List.nodup_cons] at h
    have e1 : priceCallsOf (kv :: pl) = (kv.2.map fun q => .addPrice q.date kv.1.1 kv.1.2 q.val) ++ priceCallsOf pl := rfl
    rw [e1, recorded_append, h1, ih h.2]
    obtain ⟨k, v⟩ := kv
    simp only [PriceBook.find]
    by_cases e : k = (u, c)
    · have : PriceBook.find pl (u, c) = none := by
        cases hf : PriceBook.find pl (u, c) with
        | none => rfl
        | some w => exact absurd (List.mem_map.2 ⟨_, (mem_find h.2).2 hf, e.symm⟩) h.1
      rw [if_pos e, if_pos e, this]; simp
    · rw [if_neg e, if_neg e]; simp

theorem insertPrice_last {q : Price} : ∀ l : PriceList, (∀ r ∈ l, r.date ≤ q.date) → insertPrice q l = l ++ [q] := by
  intro l
  induction l with
  | nil => intro _; rfl
  | cons r l ih =>
    intro h
    have := h r (by simp)
    simp only [insertPrice]
    rw [if_neg (by omega), ih fun x hx => h x (by simp [hx])]; rfl

theorem sortPrices_sorted {l : PriceList} (h : l.Pairwise (fun a b => a.date ≤ b.date)) : sortPrices l = l := by
  have : ∀ (l acc : PriceList), (acc ++ l).Pairwise (fun a b => a.date ≤ b.date) →
      l.foldl (fun acc q => insertPrice q acc) acc = acc ++ l := by
    intro l
    induction l with
    | nil => intro acc _; simp
    | cons q l ih =>
      intro acc h
      have h' := List.pairwise_append.1 h
      simp only [List.foldl_cons]
      rw [insertPrice_last acc fun r hr => h'.2.2 r hr q (by simp), ih _ (by simpa using h)]
      simp
  exact this l [] (by simpa using h)

/-- A price table as the program keeps it: one list per pair, not empty, by date. -/
def GoodPrices (pb : PriceBook) : Prop :=
  (pb.map (·.1)).Nodup ∧ ∀ k v, (k, v) ∈ pb → v ≠ [] ∧ v.Pairwise (fun a b => a.date ≤ b.date)

theorem fromCalls_prices {srt today cs b} (h : FromCalls srt today cs b) : GoodPrices b.prices := by
  refine ⟨fromCalls_keys h, ?_⟩
  rintro ⟨u, c⟩ v hm
  have hf := (mem_find (fromCalls_keys h)).1 hm
  rw [fromCalls_find h] at hf
  by_cases hz : recorded u c cs = []
  · rw [if_pos hz] at hf; cases hf
  · rw [if_neg hz] at hf; cases hf
    exact ⟨sortPrices_ne hz, (sortPrices_spec _).2⟩

/-- What loading an export does: the calls of the transactions and of the prices. -/
theorem export_reload_calls {srt : List Posting → List Posting} (hs : IsSort srt) {b : Book}
    (hwf : b.WF) (hbal : Balanced b.post) (hgp : GoodPrices b.prices) {f : Fmt} (hg : SoundFmt f) (hp : ∀ t ∈ b.transactions srt, PrintableTxn f t)
    (hpp : ∀ u c, ∀ q ∈ (b.prices.find (u, c)).getD [], PrintablePrice f u c q) {pl : PriceBook} (hpl : pl.Perm b.prices) :
    ∃ text, exportLedger f (b.transactions srt) pl = some text ∧
      ∀ (e : Env), e.letter 10 = false → ∀ (depth : Nat) (fn : Str), e.files fn = some text →
        ∃ bk bb, loadBook srt e (depth + 1) fn = .ok bk ∧ bk.transactions srt = (b.transactions srt).map asLoaded ∧
          (∀ pair, bk.prices.find pair = b.prices.find pair) ∧
          Builder.new.calls ((b.transactions srt).flatMap txnCalls ++ priceCallsOf pl) = some bb ∧ bb.build srt = some bk := by
  have hwf1 := compact_wf hs hwf.plain hwf.nil_trans
  have hcan : Canonical (b.transactions srt) := compact_canonical hs hwf
  have hflat := transactions_flatten hs hwf
  have hpost : (b.transactions srt).flatten = compactPost srt b.post := by rw [hflat, compact_post b (srt_nil hs)]
  have hplain : ∀ p ∈ (b.transactions srt).flatten, Plain p := by rw [hflat]; exact hwf1.plain
  have hbt : ∀ t ∈ b.transactions srt, Balanced t := wf_balanced_trans hwf1 (compact_balanced hs hbal)
  have hfix : setBals (fun _ => 0) (b.transactions srt).flatten = (b.transactions srt).flatten := by
    rw [hpost]; unfold compactPost; exact setBals_setBals _ _
  have hnd := hgp.1
  have hndp : (pl.map (·.1)).Nodup := (hpl.map (·.1)).nodup_iff.2 hnd
  have hfind : ∀ k, pl.find k = b.prices.find k := by
    intro k
    apply Option.ext
    intro v
    have h1 := mem_find hndp (k := k) (v := v)
    have h2 := mem_find hnd (k := k) (v := v)
    rw [hpl.mem_iff] at h1
    exact h1.symm.trans h2
  obtain ⟨text, k1, k2, k3, k4⟩ := c57_text_roundtrip_partial f hg _ hp
  obtain ⟨ptext, p1, p2, p3, p4⟩ := read_prices hg pl (by
    intro kv hkv q hq
    apply hpp
    obtain ⟨⟨u, c⟩, v⟩ := kv
    rw [(mem_find hnd).1 (hpl.mem_iff.1 hkv)]; exact hq)
  generalize b.transactions srt = ts at *
  refine ⟨text ++ b!"\n; Prices\n" ++ ptext, ?_, ?_⟩
  · unfold exportLedger; rw [k1, p1]; rfl
  intro e he depth fn hfile
  obtain ⟨b', m1, m2, m3, m4⟩ := append_all_named ts Builder.new [] seenInv_new openInv_new hcan hbt (by simp)
  obtain ⟨l, hl⟩ := priceCallsOf_eq pl
  obtain ⟨b2, q1, q2, q3⟩ := prices_calls l b'
  rw [← hl] at q1
  have hall : Builder.new.calls (ts.flatMap txnCalls ++ priceCallsOf pl) = some b2 := by
    rw [calls_append, m1]; exact q1
  have hld : parseFile e (depth + 1) Builder.new fn = .ok b2 [] := by
    have hread : readText e depth fn Builder.new [] (text ++ b!"\n; Prices\n" ++ ptext) = .ok b2 [] := by
      rw [List.append_assoc, c60_reads_on_partial e he depth fn Builder.new [] text _ k2 k3, k4 e he, m1]
      simp only [Outcome.ofCalls, Outcome.andThen]
      rw [show b!"\n; Prices\n" ++ ptext = [10] ++ (b!"; Prices\n" ++ ptext) by rfl,
        c60_reads_on_partial e he depth fn b' [] [10] _ (by simp) (Or.inr ⟨[], rfl⟩),
        readText_go (b' := b') (als' := []) (by simp [Reader.ch]) (by rfl)]
      simp only [Outcome.andThen]
      rw [c60_reads_on_partial e he depth fn b' [] b!"; Prices\n" _ (by decide) (Or.inr ⟨b!"; Prices", rfl⟩),
        readText_go (b' := b') (als' := []) (by simp [Reader.ch]) (by rfl)]
      simp only [Outcome.andThen]
      rw [p4 e he, q1]; rfl
    unfold parseFile parseFileLocal
    rw [hfile]; exact hread
  obtain ⟨bk, hbk, ht, hpr⟩ := reload_build hs hcan hplain hfix hall (q3 _ m2) (by rw [q2, m4]; rfl)
  have hsame : ∀ pair, bk.prices.find pair = b.prices.find pair := by
    rintro ⟨u, c⟩
    rw [built_prices hall hbk, recorded_append, recorded_txnCalls, List.nil_append, recorded_prices u c pl hndp, hfind]
    cases hv : b.prices.find (u, c) with
    | none => simp
    | some v =>
      obtain ⟨g1, g2⟩ := hgp.2 _ _ ((mem_find hnd).2 hv)
      simp only [Option.getD_some, if_neg g1, sortPrices_sorted g2]
  refine ⟨bk, b2, ?_, ht, hsame, hall, hbk⟩
  unfold loadBook; rw [hld]; simp only [hbk]

/-- C76, the part that holds: the ledger export of a book (built and changed in any way), with its
prices in whatever order the map yields the pairs, loaded as a file of its own gives the same
transactions, the same price list for every pair, and so the same answer to every price query.
Missing: what the export cannot express (`PrintableTxn`, `PrintablePrice`). -/
theorem c76_export_reload_partial (srt : List Posting → List Posting) (hs : IsSort srt) (today : Int) (cs : List Call) (b : Book)
    (hr : FromCalls srt today cs b) (f : Fmt) (hg : SoundFmt f) (hp : ∀ t ∈ b.transactions srt, PrintableTxn f t)
    (hpp : ∀ u c, ∀ q ∈ (b.prices.find (u, c)).getD [], PrintablePrice f u c q) (pl : PriceBook) (hpl : pl.Perm b.prices) :
    ∃ text, exportLedger f (b.transactions srt) pl = some text ∧
      ∀ (e : Env), e.letter 10 = false → ∀ (depth : Nat) (fn : Str), e.files fn = some text →
        ∃ bk, loadBook srt e (depth + 1) fn = .ok bk ∧ bk.transactions srt = (b.transactions srt).map asLoaded ∧
          (∀ pair, bk.prices.find pair = b.prices.find pair) ∧
          ∀ date u c, bk.prices.getPrice date u c = b.prices.getPrice date u c := by
  obtain ⟨hwf, hbal⟩ := reachable_wf hs ⟨cs, hr⟩
  obtain ⟨text, h1, h2⟩ := export_reload_calls hs hwf hbal (fromCalls_prices hr) hg hp hpp hpl
  refine ⟨text, h1, fun e he depth fn hfile => ?_⟩
  obtain ⟨bk, _, h3, h4, h5, _⟩ := h2 e he depth fn hfile
  refine ⟨bk, h3, h4, h5, ?_⟩
  intro date u c
  unfold PriceBook.getPrice
  simp only [h5]

/-! ## Concrete cases -/

/-- A book with two price histories. -/
def exportPriceCalls : List Call :=
  [.newTransaction 20200131 b!"shop" [], .addPosting b!"Exp:Food" b!"$" (5/2) [], .addPosting b!"Cash" b!"$" (-5/2) [],
   .addPrice 20200203 b!"AAPL" b!"$" (31/2), .addPrice 20200201 b!"AAPL" b!"$" 15, .addPrice 20200201 b!"GOLD" b!"EUR" (7/4)]

example : exportLedger (demoFmt (bookOf exportPriceCalls)) ((bookOf exportPriceCalls).transactions insSort) (bookOf exportPriceCalls).prices =
    some b!"2020/01/31 shop\n  Cash  $-2.5\n  Exp:Food  $2.5\n\n\n; Prices\nP 2020/02/01 00:00:00 AAPL $15.0\nP 2020/02/03 00:00:00 AAPL $15.5\nP 2020/02/01 00:00:00 GOLD EUR 1.75\n" := by
  decide +kernel

/-- A checkable form of `PrintablePrice`. -/
def printablePriceB (f : Fmt) (u c : Str) (q : Price) : Bool :=
  decide ((⟨yearOf q.date, monthOf q.date, dayOf q.date⟩ : YMD).Valid ∧ yearOf q.date ≤ 9999 ∧
      q.date = (⟨yearOf q.date, monthOf q.date, dayOf q.date⟩ : YMD).code) &&
    !u.isEmpty && u.all isCCYRune && u.head? != some 34 && !c.isEmpty && c.all isCCYRune && c.head? != some 34 &&
    decide (decimalsOf f c ≤ 18) && decide ((q.val * 10 ^ decimalsOf f c).den = 1 ∧ |(q.val * 10 ^ decimalsOf f c).num| < 2 ^ 52)

theorem printablePrice_of_b {f : Fmt} {u c : Str} {q : Price} (h : printablePriceB f u c q = true) : PrintablePrice f u c q := by
  unfold printablePriceB at h
  simp only [Bool.and_eq_true, List.all_eq_true, decide_eq_true_eq, Bool.not_eq_true', List.isEmpty_eq_false_iff, bne_iff_ne, ne_eq] at h
  obtain ⟨⟨⟨⟨⟨⟨⟨⟨a1, a2⟩, a3⟩, a4⟩, a5⟩, a6⟩, a7⟩, a8⟩, a9⟩ := h
  refine ⟨⟨_, a1⟩, ⟨a2, a3, a4⟩, ⟨a5, a6, a7⟩, a8, _, ?_, a9.2⟩
  have := (q.val * 10 ^ decimalsOf f c).num_div_den
  rw [a9.1] at this
  simpa using this.symm

/-- Non-vacuity: the book meets the hypotheses of the round trip. -/
example : FromCalls insSort 0 exportPriceCalls (bookOf exportPriceCalls) ∧
    (∀ t ∈ (bookOf exportPriceCalls).transactions insSort, PrintableTxn (demoFmt (bookOf exportPriceCalls)) t) ∧
    ∀ u c, ∀ q ∈ ((bookOf exportPriceCalls).prices.find (u, c)).getD [], PrintablePrice (demoFmt (bookOf exportPriceCalls)) u c q := by
  have hf : FromCalls insSort 0 exportPriceCalls (bookOf exportPriceCalls) := by
    obtain ⟨bb, h1, h2⟩ := bookOf_built (cs := exportPriceCalls) (by decide +kernel)
    exact ⟨bb, _, [], h1, h2, rfl⟩
  refine ⟨hf, ?_, ?_⟩
  · have h : (((bookOf exportPriceCalls).transactions insSort).all fun t => printableB (demoFmt (bookOf exportPriceCalls)) t) = true := by decide +kernel
    intro t ht
    exact printable_of_b (List.all_eq_true.1 h t ht)
  · have h : ((bookOf exportPriceCalls).prices.all fun kv => kv.2.all fun q =>
        printablePriceB (demoFmt (bookOf exportPriceCalls)) kv.1.1 kv.1.2 q) = true := by decide +kernel
    intro u c q hq
    cases hv : (bookOf exportPriceCalls).prices.find (u, c) with
    | none => rw [hv] at hq; cases hq
    | some v =>
      rw [hv] at hq
      exact printablePrice_of_b (List.all_eq_true.1 (List.all_eq_true.1 h _ ((mem_find (fromCalls_keys hf)).2 hv)) q hq)

/-- The prices a load reports for a pair, if it succeeds. -/
def LoadOutcome.prices? (u c : Str) : LoadOutcome → Option (Option PriceList)
  | .ok b => some (b.prices.find (u, c))
  | _ => none

/-- C76 is false of the code: the unit of a price is written without the quotes it needs, and the
exported file cannot be loaded. -/
theorem c76_unquoted_fails : ¬ ∀ (cs : List Call) (b : Book), Built insSort cs b →
    ∀ text, exportLedger (demoFmt b) (b.transactions insSort) b.prices = some text → ∀ u c,
      (loadBook insSort (demoEnv [(b!"f", text)]) 1 b!"f").prices? u c = some (b.prices.find (u, c)) := by
  intro h
  have h1 : Built insSort [.addPrice 20200201 b!"Fund 1" b!"EUR" 2] (bookOf [.addPrice 20200201 b!"Fund 1" b!"EUR" 2]) :=
    bookOf_built (by decide +kernel)
  have h2 : exportLedger (demoFmt (bookOf [.addPrice 20200201 b!"Fund 1" b!"EUR" 2]))
      ((bookOf [.addPrice 20200201 b!"Fund 1" b!"EUR" 2]).transactions insSort) (bookOf [.addPrice 20200201 b!"Fund 1" b!"EUR" 2]).prices =
      some b!"\n; Prices\nP 2020/02/01 00:00:00 Fund 1 EUR 2.00\n" := by decide +kernel
  have := h _ _ h1 _ h2 b!"Fund 1" b!"EUR"
  revert this
  decide +kernel

/-- C76 is false of the code: a price is rounded to the decimals of the amounts in its currency. -/
theorem c76_rounded_fails : ¬ ∀ (cs : List Call) (b : Book), Built insSort cs b →
    ∀ text, exportLedger (demoFmt b) (b.transactions insSort) b.prices = some text → ∀ u c,
      ∀ q ∈ recorded u c cs, BareCCY u → BareCCY c →
      (loadBook insSort (demoEnv [(b!"f", text)]) 1 b!"f").prices? u c = some (b.prices.find (u, c)) := by
  intro h
  have h1 : Built insSort [.addPrice 20200201 b!"GBP" b!"EUR" (1174/1000)] (bookOf [.addPrice 20200201 b!"GBP" b!"EUR" (1174/1000)]) :=
    bookOf_built (by decide +kernel)
  have h2 : exportLedger (demoFmt (bookOf [.addPrice 20200201 b!"GBP" b!"EUR" (1174/1000)]))
      ((bookOf [.addPrice 20200201 b!"GBP" b!"EUR" (1174/1000)]).transactions insSort) (bookOf [.addPrice 20200201 b!"GBP" b!"EUR" (1174/1000)]).prices =
      some b!"\n; Prices\nP 2020/02/01 00:00:00 GBP EUR 1.17\n" := by decide +kernel
  have := h _ _ h1 _ h2 b!"GBP" b!"EUR" ⟨20200201, 1174/1000⟩ (by simp [recorded]) ⟨by decide, by decide, by decide⟩ ⟨by decide, by decide, by decide⟩
  revert this
  decide +kernel

end Verif
