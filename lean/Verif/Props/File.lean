import Verif.Spec.File
import Verif.Props.Export
import Verif.Props.ExportPrices
import Verif.Proofs.Chars

/-! # C96: a ledger file is read as its lines say -/

namespace Verif
open Spec

/-! ## Single lines -/

theorem parseDay_exact {d : DayText} {t : YMD} (h : d.Means t) (r : List Nat) (hr : ∀ c, r.head? = some c → isDigit c = false) :
    parseDate (d.text ++ r) = some (t.code, r) := by
  obtain ⟨hd, ⟨l1, l2, l3, l4, l5, l6⟩, v1, v2, v3⟩ := h
  rw [digitChar_eq] at hd
  have n1 := parseNumber_digits (lo := 1) (hi := 4) (ds := d.ys) (fun c hc => hd c (by simp [hc])) l1 l2
    (r := 47 :: (d.ms ++ 47 :: (d.ds ++ r))) (by simp; decide)
  have n2 := parseNumber_digits (lo := 1) (hi := 2) (ds := d.ms) (fun c hc => hd c (by simp [hc])) l3 l4
    (r := 47 :: (d.ds ++ r)) (by simp; decide)
  have n3 := parseNumber_digits (lo := 1) (hi := 2) (ds := d.ds) (fun c hc => hd c (by simp [hc])) l5 l6 hr
  unfold parseDate parseTriple DayText.text
  simp only [List.cons_append, List.append_assoc]
  simp only [n1, n2, n3, consumeRune, if_true, v1, v2, v3]
  simp only [Option.some.injEq, Prod.mk.injEq, and_true]
  unfold YMD.code
  ring

theorem parseTime_exact {a b c r : Str} (hd : ∀ x ∈ a ++ b ++ c, isDigit x = true) (la : 1 ≤ a.length ∧ a.length ≤ 2)
    (lb : 1 ≤ b.length ∧ b.length ≤ 2) (lc : 1 ≤ c.length ∧ c.length ≤ 2) (hr : ∀ c, r.head? = some c → isDigit c = false) :
    ∃ v, parseTime (a ++ 58 :: (b ++ 58 :: (c ++ r))) = some (v, r) := by
  have n1 := parseNumber_digits (lo := 1) (hi := 2) (ds := a) (fun x hx => hd x (by simp [hx])) la.1 la.2
    (r := 58 :: (b ++ 58 :: (c ++ r))) (by simp; decide)
  have n2 := parseNumber_digits (lo := 1) (hi := 2) (ds := b) (fun x hx => hd x (by simp [hx])) lb.1 lb.2
    (r := 58 :: (c ++ r)) (by simp; decide)
  have n3 := parseNumber_digits (lo := 1) (hi := 2) (ds := c) (fun x hx => hd x (by simp [hx])) lc.1 lc.2 hr
  unfold parseTime parseTriple
  simp only [n1, n2, n3, consumeRune, if_true]
  exact ⟨_, rfl⟩

theorem noteText_read {n : NoteText} (h : n.Valid) (rest : List Nat) : parseNote (n.text ++ 10 :: rest) = (n.note.getD [], 10 :: rest) := by
  have hb1 : ∀ c ∈ n.sp1, isBlank c = true := fun c hc => h.blanks c (by simp [hc])
  have hb2 : ∀ c ∈ n.sp2, isBlank c = true := fun c hc => h.blanks c (by simp [hc])
  unfold parseNote NoteText.text
  cases hn : n.note with
  | none =>
    simp only
    rw [ws_exact hb1 (by intro c hc; simp at hc; rw [← hc]; decide)]
    rw [if_pos (by simp [Reader.ch])]
    rfl
  | some s =>
    have h1 := h.line s hn
    have h2 := fun c r => h.start s c r hn
    simp only [List.append_assoc, List.cons_append]
    rw [ws_exact hb1 (by intro c hc; simp at hc; rw [← hc]; decide)]
    rw [if_neg (by simp [Reader.ch])]
    have h3 : consumeWS (n.sp2 ++ (s ++ 10 :: rest)) = s ++ 10 :: rest := by
      apply ws_exact hb2
      intro c hc
      cases s with
      | nil => simp at hc; subst hc; decide
      | cons x xs => simp at hc; subst hc; exact h2 x xs rfl
    simp only [Reader.next, List.tail_cons, h3]
    have := span_exact (p := inLine) (x := s) (r := 10 :: rest) h1 (by simp; decide)
    rw [this.1, this.2]; rfl

/-- A note begins with a blank, a semicolon or the end of the line. -/
theorem noteText_begin {n : NoteText} (h : n.Valid) (rest : List Nat) :
    ∃ c r, n.text ++ 10 :: rest = c :: r ∧ (isBlank c = true ∨ c = 59 ∨ c = 10) := by
  have hb1 : ∀ c ∈ n.sp1, isBlank c = true := fun c hc => h.blanks c (by simp [hc])
  unfold NoteText.text
  cases hs : n.sp1 with
  | cons x xs =>
    have := hb1 x (by simp [hs])
    cases n.note <;> exact ⟨x, _, rfl, .inl this⟩
  | nil =>
    cases n.note with
    | none => exact ⟨10, _, rfl, .inr (.inr rfl)⟩
    | some s => exact ⟨59, _, rfl, .inr (.inl rfl)⟩

theorem ws_skip {bl : List Nat} (hb : ∀ c ∈ bl, isBlank c = true) (x : List Nat) : consumeWS (bl ++ x) = consumeWS x := by
  induction bl with
  | nil => rfl
  | cons c bl ih =>
    have := ih fun d hd => hb d (by simp [hd])
    unfold consumeWS at this ⊢
    rw [List.cons_append, List.dropWhile_cons_of_pos (hb c (by simp)), this]

theorem ws_idem (s : List Nat) : consumeWS (consumeWS s) = consumeWS s := by
  induction s with
  | nil => rfl
  | cons c s ih =>
    by_cases h : isBlank c = true
    · have : consumeWS (c :: s) = consumeWS s := ws_skip (bl := [c]) (by simpa using h) s
      rw [this, ih]
    · have : consumeWS (c :: s) = c :: s := by unfold consumeWS; rw [List.dropWhile_cons_of_neg h]
      rw [this, this]

/-- After its blanks. -/
theorem noteText_ws {n : NoteText} (h : n.Valid) (rest : List Nat) :
    n.text ++ 10 :: rest = n.sp1 ++ consumeWS (n.text ++ 10 :: rest) ∧ ∃ r, (consumeWS (n.text ++ 10 :: rest) = 59 :: r ∨ (n.note = none ∧ r = rest ∧ consumeWS (n.text ++ 10 :: rest) = 10 :: r)) ∧
      parseNote (consumeWS (n.text ++ 10 :: rest)) = (n.note.getD [], 10 :: rest) := by
  have hb1 : ∀ c ∈ n.sp1, isBlank c = true := fun c hc => h.blanks c (by simp [hc])
  have hn := noteText_read h rest
  have hidem : ∀ s, consumeWS (consumeWS s) = consumeWS s := by
    exact ws_idem
  have hp : parseNote (consumeWS (n.text ++ 10 :: rest)) = (n.note.getD [], 10 :: rest) := by
    rw [← hn]; unfold parseNote; rw [hidem]
  unfold NoteText.text at hp ⊢
  cases hs : n.note with
  | none =>
    rw [hs] at hp
    have hw : consumeWS (n.sp1 ++ 10 :: rest) = 10 :: rest := ws_exact hb1 (by intro c hc; simp at hc; rw [← hc]; decide)
    exact ⟨by simp only [hw], rest, .inr ⟨rfl, rfl, hw⟩, hp⟩
  | some s =>
    rw [hs] at hp
    have hw : consumeWS (n.sp1 ++ 59 :: n.sp2 ++ s ++ 10 :: rest) = 59 :: (n.sp2 ++ (s ++ 10 :: rest)) := by
      simp only [List.append_assoc, List.cons_append]
      exact ws_exact hb1 (by intro c hc; simp at hc; rw [← hc]; decide)
    exact ⟨by simp only [hw]; simp, n.sp2 ++ (s ++ 10 :: rest), .inl hw, hp⟩

theorem blank_line {c : Nat} (h : isBlank c = true) : inLine c = true ∧ c ≠ 59 ∧ c ≠ 0 ∧ c ≠ 10 ∧ isDigit c = false ∧ c ≠ 42 ∧ c ≠ 61 ∧
    isSpace c = true := by
  have hs : isSpace c = true := by simp only [isBlank, Bool.and_eq_true] at h; exact h.1
  have h0 : c ≠ 0 := by rintro rfl; revert hs; decide
  have h10 : c ≠ 10 := by rintro rfl; revert h; decide
  refine ⟨by simp [inLine, h0, h10], ?_, h0, h10, (blank_not_ccy h).2.1, ?_, ?_, hs⟩ <;> (rintro rfl; revert hs; decide)

theorem space_not_blank {c : Nat} (h : spaceChar c = false) : isBlank c = false := by
  rw [spaceChar_eq] at h
  simp [isBlank, h]

/-- Reading payee and note. -/
theorem payee_read {t : TxnLine} (h : t.Valid) (rest : List Nat) :
    ∃ s, parsePayee ((if t.quoted then 34 :: t.payee ++ [34] else t.payee) ++ (t.note.text ++ 10 :: rest)) = some (t.payee, s) ∧
      parseNote s = (t.note.note.getD [], 10 :: rest) ∧
      (t.star = false → Reader.ch (consumeWS ((if t.quoted then 34 :: t.payee ++ [34] else t.payee) ++ (t.note.text ++ 10 :: rest))) ≠ 42) := by
  obtain ⟨hN, r, hr, hp⟩ := noteText_ws h.note rest
  have hb1 : ∀ c ∈ t.note.sp1, isBlank c = true := fun c hc => h.note.blanks c (by simp [hc])
  have hfirst : ∀ c, t.payee.head? = some c → isSpace c = false := h.first
  have hlast : ∀ c, t.payee.getLast? = some c → isSpace c = false := h.last
  have hch : ∀ x, Reader.ch (59 :: x) = 59 ∧ Reader.ch (10 :: x) = 10 := fun x => ⟨rfl, rfl⟩
  cases hq : t.quoted with
  | true =>
    have hws : ∀ x, consumeWS (34 :: x) = 34 :: x := fun _ => rfl
    have hpq := parseQuoted_exact (q := t.payee) (r := t.note.text ++ 10 :: rest) (fun c hc => ⟨h.line c hc, fun e => h.quote hq (e ▸ hc)⟩)
    refine ⟨t.note.text ++ 10 :: rest, ?_, noteText_read h.note rest, ?_⟩
    · have e : (if true = true then 34 :: t.payee ++ [34] else t.payee) ++ (t.note.text ++ 10 :: rest) =
          34 :: t.payee ++ 34 :: (t.note.text ++ 10 :: rest) := by simp
      rw [e]
      unfold parsePayee
      simp only [List.cons_append, hws] at hpq ⊢
      rw [if_pos (by rfl), hpq]
      have := trimSpace_pad (x := t.payee) (bl := []) hfirst hlast (by simp)
      simp only [List.append_nil] at this
      simp [this]
    · intro _
      simp [hws, Reader.ch]
  | false =>
    obtain ⟨p1, p2, p3⟩ := h.plain hq
    simp only [Bool.false_eq_true, if_false]
    cases hpay : t.payee with
    | nil =>
      refine ⟨consumeWS (t.note.text ++ 10 :: rest), ?_, hp, ?_⟩
      · unfold parsePayee
        simp only [List.nil_append]
        rcases hr with hr | ⟨_, _, hr⟩
        all_goals
          simp only [hr, hch]
          rfl
      · intro _
        simp only [List.nil_append]
        rcases hr with hr | ⟨_, _, hr⟩ <;> rw [hr] <;> simp [Reader.ch]
    | cons c x =>
      have hc := hfirst c (by rw [hpay]; rfl)
      have hcb : isBlank c = false := by simp [isBlank, hc]
      have hws : ∀ z, consumeWS (c :: z) = c :: z := by
        intro z
        unfold consumeWS
        rw [List.dropWhile_cons_of_neg (by simp [hcb])]
      refine ⟨consumeWS (t.note.text ++ 10 :: rest), ?_, hp, ?_⟩
      · unfold parsePayee
        simp only [List.cons_append, hws]
        rw [if_neg (by simp only [Reader.ch, List.headD_cons]; intro e; apply p2; rw [hpay, e]; rfl)]
        have hspan := span_exact (p := fun c => inLine c && c != 59) (x := t.payee ++ t.note.sp1) (r := consumeWS (t.note.text ++ 10 :: rest))
          (by
            intro d hd
            rcases List.mem_append.1 hd with hd | hd
            · have h1 := h.line d hd
              rw [lineChar_eq] at h1
              have h2 : d ≠ 59 := fun e => p1 (e ▸ hd)
              simp [h1, h2]
            · have := blank_line (hb1 d hd)
              simp [this.1, this.2.1])
          (by
            intro d hd
            rcases hr with hr | ⟨_, _, hr⟩
            · rw [hr] at hd; simp at hd; subst hd; decide
            · rw [hr] at hd; simp at hd; subst hd; decide)
        have e : c :: (x ++ (t.note.text ++ 10 :: rest)) = t.payee ++ t.note.sp1 ++ consumeWS (t.note.text ++ 10 :: rest) := by
          rw [hpay, List.append_assoc, ← hN]; rfl
        rw [e, hspan.1, hspan.2, trimSpace_pad hfirst hlast fun d hd => (blank_line (hb1 d hd)).2.2.2.2.2.2.2, hpay]
      · intro hs
        simp only [List.cons_append, hws, Reader.ch, List.headD_cons]
        intro e
        apply p3 hs
        rw [hpay, e]; rfl

/-- Reading the first line of a transaction. -/
theorem txnLine_read {t : TxnLine} (h : t.Valid) (rest : List Nat) :
    parseTransaction (t.text ++ 10 :: rest) = some ((t.date.code, t.payee, t.note.note.getD []), rest) := by
  obtain ⟨s, h1, h2, h3⟩ := payee_read h rest
  have hb1 : ∀ c ∈ t.sp1, isBlank c = true := fun c hc => h.blanks c (by simp [hc])
  have hb2 : ∀ c ∈ t.sp2, isBlank c = true := fun c hc => h.blanks c (by simp [hc])
  obtain ⟨y, ys, hy⟩ := List.exists_cons_of_ne_nil h.gap
  have hyb := blank_line (hb1 y (by rw [hy]; simp))
  set P := (if t.quoted then 34 :: t.payee ++ [34] else t.payee) ++ (t.note.text ++ 10 :: rest) with hP
  have e1 : t.text ++ 10 :: rest = t.day.text ++ (t.sp1 ++ ((if t.star then 42 :: t.sp2 else []) ++ P)) := by
    simp [TxnLine.text, hP]
  have hpw : parsePayee (consumeWS P) = some (t.payee, s) := by
    rw [← h1]; unfold parsePayee; rw [ws_idem]
  rw [e1]
  unfold parseTransaction
  rw [parseDay_exact h.day _ (by intro c hc; rw [hy] at hc; simp at hc; subst hc; exact hyb.2.2.2.2.1)]
  simp only [ws_skip hb1]
  cases hs : t.star with
  | true =>
    have : consumeWS (42 :: t.sp2 ++ P) = 42 :: t.sp2 ++ P := rfl
    simp only [if_true, this]
    rw [if_pos (by rfl)]
    simp only [List.cons_append, Reader.next, List.tail_cons, ws_skip hb2, hpw, h2]
    rfl
  | false =>
    simp only [Bool.false_eq_true, if_false, List.nil_append]
    rw [if_neg (h3 hs), hpw]
    simp only [h2]
    rfl

/-- Reading a posting without an amount. -/
theorem restLine_read (als : Aliases) {r : RestLine} (h : r.Valid) (rest : List Nat) :
    parsePostingLine als (r.acct ++ (r.note.text ++ 10 :: rest)) = some ((als.resolve r.acct, [], 0, r.note.note.getD []), rest) := by
  obtain ⟨hN, t, hr, hp⟩ := noteText_ws h.note rest
  obtain ⟨x, xs, hx⟩ := List.exists_cons_of_ne_nil h.acct.1
  have hxf := acct_facts (h.acct.2 x (by rw [hx]; simp))
  have hend : ∀ c, (r.note.text ++ 10 :: rest).head? = some c → isBlank c = true ∨ c = 10 := by
    intro c hc
    have hb1 : ∀ c ∈ r.note.sp1, isBlank c = true := fun c hc => h.note.blanks c (by simp [hc])
    cases hs : r.note.sp1 with
    | cons y ys =>
      left
      rw [hN, hs] at hc
      simp at hc
      subst hc
      exact hb1 y (by simp [hs])
    | nil =>
      right
      cases hn : r.note.note with
      | none => simp [NoteText.text, hn, hs] at hc; exact hc.symm
      | some s => exact absurd hs (h.gap (by simp [hn]))
  have hws : consumeWS (r.acct ++ (r.note.text ++ 10 :: rest)) = r.acct ++ (r.note.text ++ 10 :: rest) := by
    have := ws_exact (bl := []) (x := r.acct ++ (r.note.text ++ 10 :: rest)) (by simp)
      (by intro c hc; rw [hx] at hc; simp at hc; rw [← hc]; exact hxf.1)
    simpa using this
  unfold parsePostingLine
  simp only [hws, parseAccount_exact h.acct.1 h.acct.2 hend]
  have w59 : ∀ z, consumeWS (59 :: z) = 59 :: z := fun _ => rfl
  have w10 : ∀ z, consumeWS (10 :: z) = 10 :: z := fun _ => rfl
  rcases hr with hr | ⟨_, _, hr⟩
  all_goals
    rw [hr] at hp ⊢
    simp [parseCCYAmt, Reader.ch, isCCYRune, parseAmt, w59, w10, optMinus, amtLoop, isDigit, newRat, parseCCY, skipAtPrice, hp, isSpace,
      skipEOL, Reader.next]

theorem quoteIf_eq (l : PostLine) : quoteIf l.quoted l.ccy = l.ccyText := rfl

/-- The unit of a price as the currency of a posting. -/
def unitPost (p : PriceLine) : PostLine :=
  { acct := b!"A", minus := false, ccyFirst := true, quoted := p.unitQuoted, ccy := p.unit, num := p.num, note := none,
    sp0 := [32], sp1 := [32], sp2 := [], sp3 := [], sp4 := [] }

/-- The price as the amount of a posting. -/
def amtPost (p : PriceLine) : PostLine :=
  { acct := b!"A", minus := false, ccyFirst := p.ccyFirst, quoted := p.quoted, ccy := p.ccy, num := p.num, note := none,
    sp0 := [32], sp1 := [32], sp2 := p.sp4, sp3 := [], sp4 := [] }

theorem unitPost_valid {p : PriceLine} (h : p.Valid) : (unitPost p).Valid := by
  refine ⟨⟨by simp [unitPost], by simp [unitPost]; decide⟩, by simp [unitPost], by simp [unitPost],
    by simp [unitPost]; decide, h.num, h.digit, h.unit, fun hq => (h.unitPlain hq).2, ?_, h.unitQuote, by simp [unitPost]⟩
  intro hq c r hc
  refine ⟨?_, fun hf => by simp [unitPost] at hf⟩
  rintro rfl
  have hc' : p.unit = 34 :: r := hc
  exact (h.unitPlain hq).1 (by rw [hc']; rfl)

theorem amtPost_valid {p : PriceLine} (h : p.Valid) : (amtPost p).Valid := by
  refine ⟨⟨by simp [amtPost], by simp [amtPost]; decide⟩, by simp [amtPost], by simp [amtPost],
    ?_, h.num, h.digit, h.ccy, fun hq => (h.plain hq).2.2, ?_, h.quote, by simp [amtPost]⟩
  · intro c hc
    simp only [amtPost, List.mem_append, List.mem_cons, List.not_mem_nil, or_false] at hc
    rcases hc with (rfl | rfl) | hc
    · decide
    · decide
    · exact h.blanks c (by simp [hc])
  · intro hq c r hc
    have hc' : p.ccy = c :: r := hc
    have hpl := h.plain hq
    refine ⟨?_, fun hf hs => ?_⟩
    · rintro rfl
      exact hpl.1 (by rw [hc']; rfl)
    · rintro rfl
      exact hpl.2.1 hf hs (by rw [hc']; rfl)

/-- The amount does not begin with a blank. -/
theorem amtText_head {l : PostLine} (hv : l.Valid) (r : List Nat) : ∃ c, (l.amtText ++ r).head? = some c ∧ isBlank c = false := by
  unfold PostLine.amtText
  cases hf : l.ccyFirst with
  | false =>
    obtain ⟨c, h1, h2, _⟩ := numeral_head hv.digit (l.sp2 ++ l.ccyText ++ r)
    exact ⟨c, by simpa using h1, h2⟩
  | true =>
    simp only [if_true]
    unfold PostLine.ccyText
    cases hq : l.quoted with
    | true => exact ⟨34, by simp, by decide⟩
    | false =>
      obtain ⟨c, cs, hc⟩ := List.exists_cons_of_ne_nil hv.ccy
      have := ccyRune_facts (hv.plain hq c (by rw [hc]; simp))
      exact ⟨c, by simp [hc], this.2.2.2.2.1⟩

/-- Reading a price line. -/
theorem priceLine_read {p : PriceLine} (h : p.Valid) (rest : List Nat) :
    parsePrice (p.text ++ 10 :: rest) = some ((p.date.code, p.unit, p.ccy, p.num.value), rest) := by
  have hb : ∀ c ∈ p.sp0 ++ p.sp1 ++ p.sp2 ++ p.sp3 ++ p.sp4, isBlank c = true := h.blanks
  have hb0 : ∀ c ∈ p.sp0, isBlank c = true := fun c hc => hb c (by simp [hc])
  have hb1 : ∀ c ∈ p.sp1, isBlank c = true := fun c hc => hb c (by simp [hc])
  have hb2 : ∀ c ∈ p.sp2, isBlank c = true := fun c hc => hb c (by simp [hc])
  have hb3 : ∀ c ∈ p.sp3, isBlank c = true := fun c hc => hb c (by simp [hc])
  obtain ⟨g1, g2, g3⟩ := h.gaps
  obtain ⟨td, t1, t2, t3, t4, t5, t6⟩ := h.time
  rw [digitChar_eq] at td
  have hfirst : ∀ (bl : List Nat), bl ≠ [] → (∀ c ∈ bl, isBlank c = true) → ∀ z c, (bl ++ z).head? = some c → isBlank c = true := by
    intro bl hne hbl z c hc
    obtain ⟨y, ys, hy⟩ := List.exists_cons_of_ne_nil hne
    rw [hy] at hc
    simp at hc
    subst hc
    exact hbl y (by rw [hy]; simp)
  have va := amtPost_valid h
  have vu := unitPost_valid h
  obtain ⟨ac, ah1, ah2⟩ := amtText_head va (10 :: rest)
  set A := (amtPost p).amtText ++ 10 :: rest with hA
  have e1 : p.text ++ 10 :: rest = 80 :: (p.sp0 ++ (p.day.text ++ (p.sp1 ++ (p.hour ++ 58 :: (p.minute ++ 58 :: (p.second ++
      (p.sp2 ++ ((unitPost p).ccyText ++ (p.sp3 ++ A))))))))) := by
    have hq1 : (unitPost p).ccyText = quoteIf p.unitQuoted p.unit := rfl
    have hq2 : (amtPost p).amtText = (if p.ccyFirst then quoteIf p.quoted p.ccy ++ p.sp4 ++ p.num.text else p.num.text ++ p.sp4 ++ quoteIf p.quoted p.ccy) := rfl
    rw [hA, hq1, hq2]
    simp [PriceLine.text]
  have digitHead : ∀ (ds : Str), 1 ≤ ds.length → (∀ c ∈ ds, isDigit c = true) → ∀ z c, (ds ++ z).head? = some c → isBlank c = false := by
    intro ds hl hd z c hc
    cases ds with
    | nil => simp at hl
    | cons y ys =>
      simp at hc
      subst hc
      exact (digit_facts (hd y (by simp))).1
  have dd : ∀ c ∈ p.day.ys ++ p.day.ms ++ p.day.ds, isDigit c = true := h.day.digits
  have w0 : ∀ z, consumeWS (p.sp0 ++ (p.day.text ++ z)) = p.day.text ++ z := by
    intro z
    apply ws_exact hb0
    intro c hc
    unfold DayText.text at hc
    rw [List.append_assoc, List.append_assoc] at hc
    exact digitHead _ h.day.lens.1 (fun c hc => dd c (by simp [hc])) _ c hc
  have w1 : ∀ z, consumeWS (p.sp1 ++ (p.hour ++ z)) = p.hour ++ z := by
    intro z
    exact ws_exact hb1 (fun c hc => digitHead _ t1 (fun c hc => td c (by simp [hc])) _ c hc)
  have w3 : consumeWS (p.sp3 ++ A) = A := ws_exact hb3 (by intro c hc; rw [ah1] at hc; cases hc; exact ah2)
  have hday := parseDay_exact h.day (p.sp1 ++ (p.hour ++ 58 :: (p.minute ++ 58 :: (p.second ++ (p.sp2 ++ ((unitPost p).ccyText ++ (p.sp3 ++ A)))))))
    (fun c hc => (blank_line (hfirst _ g1 hb1 _ c hc)).2.2.2.2.1)
  obtain ⟨v, htime⟩ := parseTime_exact (a := p.hour) (b := p.minute) (c := p.second) (r := p.sp2 ++ ((unitPost p).ccyText ++ (p.sp3 ++ A))) td
    ⟨t1, t2⟩ ⟨t3, t4⟩ ⟨t5, t6⟩ (fun c hc => (blank_line (hfirst _ g2 hb2 _ c hc)).2.2.2.2.1)
  have hunit := parseCCY_exact vu (bl := p.sp2) (r := p.sp3 ++ A) hb2 (fun _ c hc => (blank_not_ccy (hfirst _ g3 hb3 _ c hc)).1)
  have hamt := parseCCYAmt_exact va p.num ⟨rfl, rfl⟩ (r := 10 :: rest) (by intro c hc; simp at hc; right; exact hc.symm)
  have hamt' : parseCCYAmt A = some ((p.ccy, p.num.value), 10 :: rest) := hamt
  have hu : (unitPost p).ccy = p.unit := rfl
  rw [e1]
  unfold parsePrice
  simp only [consumeRune, if_true, w0, hday, w1, htime, hunit, w3, hamt', hu]
  simp [skipEOL, Reader.ch, Reader.next]

/-! ## One step of the reader per line -/

theorem step_skip (e : Env) (b : Builder) (als : Aliases) {sp : List Nat} (hb : ∀ c ∈ sp, isBlank c = true) {t : Str}
    (ht : t = [] ∨ ∃ s, t = 59 :: s) (hl : ∀ c ∈ t, inLine c = true) (rest : List Nat) :
    parseStep e b als (sp ++ (t ++ 10 :: rest)) = .go b als rest := by
  have hspan := span_exact (p := inLine) (x := t) (r := 10 :: rest) hl (by simp; decide)
  have hsk : skipLine (t ++ 10 :: rest) = rest := by
    unfold skipLine
    rw [hspan.2]
    simp [skipEOL, Reader.ch, Reader.next]
  have hws : consumeWS (sp ++ (t ++ 10 :: rest)) = t ++ 10 :: rest := by
    apply ws_exact hb
    intro c hc
    rcases ht with rfl | ⟨s, rfl⟩ <;> simp at hc <;> subst hc <;> decide
  unfold parseStep
  simp only [hws]
  rw [if_pos, hsk]
  rcases ht with rfl | ⟨s, rfl⟩ <;> simp [Reader.ch]

theorem step_unused (e : Env) (b : Builder) (als : Aliases) {c : Nat} (hc : c = 61 ∨ c = 68) {t : Str} (hl : ∀ c ∈ t, inLine c = true)
    (rest : List Nat) : parseStep e b als (c :: t ++ 10 :: rest) = .go b als rest := by
  have hspan := span_exact (p := inLine) (x := c :: t) (r := 10 :: rest)
    (by
      intro d hd
      rcases List.mem_cons.1 hd with rfl | hd
      · rcases hc with rfl | rfl <;> decide
      · exact hl d hd)
    (by simp; decide)
  have hsk : skipLine (c :: t ++ 10 :: rest) = rest := by
    unfold skipLine
    rw [hspan.2]
    simp [skipEOL, Reader.ch, Reader.next]
  have hws : consumeWS (c :: t ++ 10 :: rest) = c :: t ++ 10 :: rest := by
    rcases hc with rfl | rfl <;> rfl
  unfold parseStep
  simp only [hws, hsk]
  have hch : Reader.ch (c :: t ++ 10 :: rest) = c := rfl
  rw [hch, if_neg (by rcases hc with rfl | rfl <;> decide), if_pos trivial, if_pos hc]

theorem step_txn (e : Env) (b : Builder) (als : Aliases) {t : TxnLine} (h : t.Valid) (rest : List Nat) :
    parseStep e b als (t.text ++ 10 :: rest) =
      (match b.newTransaction t.date.code t.payee (t.note.note.getD []) with
        | none => .stop
        | some b => .go b als rest) := by
  have hr := txnLine_read h rest
  obtain ⟨c, x, hx, hc⟩ : ∃ c x, t.text ++ 10 :: rest = c :: x ∧ isDigit c = true := by
    have h1 := h.day.lens.1
    have h2 := h.day.digits
    unfold TxnLine.text DayText.text
    cases hy : t.day.ys with
    | nil => rw [hy] at h1; simp at h1
    | cons c x => exact ⟨c, _, rfl, h2 c (by simp [hy])⟩
  have hcc : 48 ≤ c ∧ c ≤ 57 := by simpa [isDigit] using hc
  have hws : consumeWS (t.text ++ 10 :: rest) = t.text ++ 10 :: rest := by
    rw [hx]
    unfold consumeWS
    rw [List.dropWhile_cons_of_neg (by simp [(digit_facts hc).1])]
  have hch : Reader.ch (t.text ++ 10 :: rest) = c := by rw [hx]; rfl
  unfold parseStep
  simp only [hws, hch, hr]
  rw [if_neg (by omega), if_pos trivial, if_neg (by omega), if_neg (by omega), if_pos hc]
  rfl

theorem step_price (e : Env) (b : Builder) (als : Aliases) {p : PriceLine} (h : p.Valid) (rest : List Nat) :
    parseStep e b als (p.text ++ 10 :: rest) = .go (b.addPrice p.date.code p.unit p.ccy p.num.value) als rest := by
  have hr := priceLine_read h rest
  have hx : ∃ x, p.text ++ 10 :: rest = 80 :: x := ⟨_, rfl⟩
  obtain ⟨x, hx⟩ := hx
  have hws : consumeWS (p.text ++ 10 :: rest) = p.text ++ 10 :: rest := by rw [hx]; rfl
  have hch : Reader.ch (p.text ++ 10 :: rest) = 80 := by rw [hx]; rfl
  unfold parseStep
  simp only [hws, hch, hr]
  rfl

theorem step_rest (e : Env) (b : Builder) (als : Aliases) {r : RestLine} (h : r.Valid) (rest : List Nat) :
    parseStep e b als (r.text ++ 10 :: rest) = .go (addElided (als.resolve r.acct) (r.note.note.getD []) (e.ord b) b) als rest := by
  have hline := restLine_read als h rest
  obtain ⟨x, xs, hx⟩ := List.exists_cons_of_ne_nil h.acct.1
  have hxf := acct_facts (h.acct.2 x (by rw [hx]; simp))
  have e1 : r.text ++ 10 :: rest = r.sp0 ++ (r.acct ++ (r.note.text ++ 10 :: rest)) := by simp [RestLine.text]
  have hws : consumeWS (r.sp0 ++ (r.acct ++ (r.note.text ++ 10 :: rest))) = r.acct ++ (r.note.text ++ 10 :: rest) :=
    ws_exact h.blanks (by intro c hc; rw [hx] at hc; simp at hc; rw [← hc]; exact hxf.1)
  have hch : Reader.ch (r.acct ++ (r.note.text ++ 10 :: rest)) = x := by rw [hx]; rfl
  have hlen : ∀ z : List Nat, ¬ (z.length = (r.sp0 ++ z).length) := by
    intro z
    have : r.sp0.length ≠ 0 := by simpa using h.indent
    simp only [List.length_append]; omega
  rw [e1]
  unfold parseStep
  simp only [hws, hch]
  rw [if_neg (by simp [hxf]), if_neg (hlen _), hline]
  simp only [postingEffect, if_true]

/-- A lower-case word, then a blank. -/
theorem ident_read {e : Env} (hl : PlainLetters e) {w sp r : List Nat} (hne : w ≠ []) (hw : ∀ c ∈ w, 97 ≤ c ∧ c ≤ 122) (hsp : sp ≠ [])
    (hb : ∀ c ∈ sp, isBlank c = true) : parseIdentifier e (w ++ (sp ++ r)) = (w.map (· - 32), consumeWS r) := by
  obtain ⟨y, ys, hy⟩ := List.exists_cons_of_ne_nil hsp
  have hyb := hb y (by rw [hy]; simp)
  have hsp1 : spaceChar y = true := (blank_line hyb).2.2.2.2.2.2.2
  have hid : ∀ c ∈ w, e.isIdent c = true := by
    intro c hc
    have := hw c hc
    unfold Env.isIdent
    rw [(hl.letter c this).1]
    simp; omega
  have hnid : e.isIdent y = false := by
    unfold Env.isIdent
    rw [hl.space y hsp1]
    have : y ≠ 95 := by rintro rfl; revert hsp1; decide
    simp [this]
  have hspan := span_exact (p := e.isIdent) (x := w) (r := sp ++ r) hid (by intro c hc; rw [hy] at hc; simp at hc; subst hc; exact hnid)
  have hws : consumeWS (w ++ (sp ++ r)) = w ++ (sp ++ r) := by
    cases w with
    | nil => exact absurd rfl hne
    | cons c w =>
      have := hw c (by simp)
      unfold consumeWS
      rw [List.cons_append, List.dropWhile_cons_of_neg]
      have : isSpace c = false := by
        simp only [isSpace, Bool.or_eq_false_iff, decide_eq_false_iff_not, beq_eq_false_iff_ne]
        omega
      simp [isBlank, this]
  unfold parseIdentifier
  simp only [hws, hspan.1, hspan.2, ws_skip hb]
  congr 1
  apply List.map_congr_left
  intro c hc
  exact (hl.letter c (hw c hc)).2

theorem step_alias {e : Env} (hl : PlainLetters e) (b : Builder) (als : Aliases) {sp1 sp2 sp3 sp4 : List Nat} {a l : Str}
    (h : FileLine.Valid (.short sp1 a sp2 sp3 l sp4)) (rest : List Nat) :
    parseStep e b als (FileLine.text (.short sp1 a sp2 sp3 l sp4) ++ 10 :: rest) = .go b ((a, l) :: als) (10 :: rest) := by
  obtain ⟨h1, h2, hb, ha, hlong, hr⟩ := h
  rw [blankChar_eq] at hb
  rw [acctChar_eq] at hr
  have hb1 : ∀ c ∈ sp1, isBlank c = true := fun c hc => hb c (by simp [hc])
  have hb2 : ∀ c ∈ sp2, isBlank c = true := fun c hc => hb c (by simp [hc])
  have hb3 : ∀ c ∈ sp3, isBlank c = true := fun c hc => hb c (by simp [hc])
  have hb4 : ∀ c ∈ sp4, isBlank c = true := fun c hc => hb c (by simp [hc])
  have acctWs : ∀ (x : Str), x ≠ [] → (∀ c ∈ x, isAcctRune c = true) → ∀ z c, (x ++ z).head? = some c → isBlank c = false := by
    intro x hx hxa z c hc
    obtain ⟨y, ys, rfl⟩ := List.exists_cons_of_ne_nil hx
    simp at hc
    subst hc
    exact (acct_facts (hxa y (by simp))).1
  have e1 : FileLine.text (.short sp1 a sp2 sp3 l sp4) ++ 10 :: rest =
      b!"alias" ++ (sp1 ++ (a ++ (sp2 ++ 61 :: (sp3 ++ (l ++ (sp4 ++ 10 :: rest)))))) := by simp [FileLine.text]
  have hid := ident_read hl (w := b!"alias") (sp := sp1) (r := a ++ (sp2 ++ 61 :: (sp3 ++ (l ++ (sp4 ++ 10 :: rest))))) (by decide) (by decide) h1 hb1
  have wa : consumeWS (a ++ (sp2 ++ 61 :: (sp3 ++ (l ++ (sp4 ++ 10 :: rest))))) = a ++ (sp2 ++ 61 :: (sp3 ++ (l ++ (sp4 ++ 10 :: rest)))) := by
    have := ws_exact (bl := []) (by simp) (acctWs a ha (fun c hc => hr c (by simp [hc])) (sp2 ++ 61 :: (sp3 ++ (l ++ (sp4 ++ 10 :: rest)))))
    simpa using this
  have pa := parseAccount_exact (a := a) (r := sp2 ++ 61 :: (sp3 ++ (l ++ (sp4 ++ 10 :: rest)))) ha (fun c hc => hr c (by simp [hc]))
    (by
      intro c hc
      obtain ⟨y, ys, hy⟩ := List.exists_cons_of_ne_nil h2
      rw [hy] at hc
      simp at hc
      subst hc
      exact .inl (hb2 y (by rw [hy]; simp)))
  have w2 : consumeWS (sp2 ++ 61 :: (sp3 ++ (l ++ (sp4 ++ 10 :: rest)))) = 61 :: (sp3 ++ (l ++ (sp4 ++ 10 :: rest))) :=
    ws_exact hb2 (by intro c hc; simp at hc; subst hc; decide)
  have w3 : consumeWS (sp3 ++ (l ++ (sp4 ++ 10 :: rest))) = l ++ (sp4 ++ 10 :: rest) :=
    ws_exact hb3 (acctWs l hlong (fun c hc => hr c (by simp [hc])) _)
  have pl := parseAccount_exact (a := l) (r := sp4 ++ 10 :: rest) hlong (fun c hc => hr c (by simp [hc]))
    (by
      intro c hc
      cases hs : sp4 with
      | nil => rw [hs] at hc; simp at hc; exact .inr hc.symm
      | cons y ys => rw [hs] at hc; simp at hc; subst hc; exact .inl (hb4 y (by rw [hs]; simp)))
  have w4 : consumeWS (sp4 ++ 10 :: rest) = 10 :: rest := ws_exact hb4 (by intro c hc; simp at hc; subst hc; decide)
  have pe : parseToEOL (10 :: rest) = ([], 10 :: rest) := rfl
  have hal : parseAlias (a ++ (sp2 ++ 61 :: (sp3 ++ (l ++ (sp4 ++ 10 :: rest))))) = some ((a, l), 10 :: rest) := by
    unfold parseAlias
    simp only [pa, w2, consumeRune, if_true, w3, pl, w4, pe, if_neg hlong]
  rw [e1]
  have hws : ∀ z, consumeWS (b!"alias" ++ z) = b!"alias" ++ z := fun _ => rfl
  have hch : ∀ z, Reader.ch (b!"alias" ++ z) = 97 := fun _ => rfl
  have hw : (b!"alias").map (· - 32) = b!"ALIAS" := by decide
  unfold parseStep
  simp only [hws, hch, hid, wa, hw]
  rw [if_neg (by decide), if_pos trivial, if_neg (by decide), if_neg (by decide), if_neg (by decide), if_neg (by decide), if_pos trivial, hal]

theorem step_incl {e : Env} (hl : PlainLetters e) (b : Builder) (als : Aliases) {sp : List Nat} {q : Bool} {f : Str}
    (h : FileLine.Valid (.incl sp q f)) (rest : List Nat) :
    parseStep e b als (FileLine.text (.incl sp q f) ++ 10 :: rest) = .incl f (10 :: rest) := by
  obtain ⟨h1, hb, hf, hline, hq⟩ := h
  rw [blankChar_eq] at hb
  rw [lineChar_eq] at hline
  have e1 : FileLine.text (.incl sp q f) ++ 10 :: rest = b!"include" ++ (sp ++ (quoteIf q f ++ 10 :: rest)) := by simp [FileLine.text]
  have hid := ident_read hl (w := b!"include") (sp := sp) (r := quoteIf q f ++ 10 :: rest) (by decide) (by decide) h1 hb
  have wf : consumeWS (quoteIf q f ++ 10 :: rest) = quoteIf q f ++ 10 :: rest := by
    unfold quoteIf
    cases hqq : q with
    | true => rfl
    | false =>
      have := ws_exact (bl := []) (x := f ++ 10 :: rest) (by simp) (by
        intro c hc
        obtain ⟨y, ys, hy⟩ := List.exists_cons_of_ne_nil hf
        rw [hy] at hc
        simp at hc
        subst hc
        exact (hq hqq).2 y (by rw [hy]; rfl))
      simpa using this
  have hspan := span_exact (p := inLine) (x := quoteIf q f) (r := 10 :: rest)
    (by
      intro c hc
      unfold quoteIf at hc
      split at hc
      · simp only [List.cons_append, List.mem_cons, List.mem_append, List.not_mem_nil, or_false] at hc
        rcases hc with rfl | hc | rfl
        · decide
        · exact hline c hc
        · decide
      · exact hline c hc)
    (by simp; decide)
  have pe : parseToEOL (quoteIf q f ++ 10 :: rest) = (quoteIf q f, 10 :: rest) := by
    unfold parseToEOL
    simp only [wf, hspan.1, hspan.2]
  have hu : unquote (quoteIf q f) = some f := by
    unfold quoteIf
    cases hqq : q with
    | true =>
      simp only [if_true, unquote, List.cons_append]
      rw [if_pos ⟨trivial, by rw [← List.cons_append, List.getLast?_append]; rfl⟩]
      obtain ⟨y, ys, hy⟩ := List.exists_cons_of_ne_nil hf
      rw [hy]
      show some ((y :: ys ++ [34]).dropLast) = some (y :: ys)
      rw [List.dropLast_concat]
    | false =>
      obtain ⟨y, ys, hy⟩ := List.exists_cons_of_ne_nil hf
      have hne := (hq hqq).1
      rw [hy] at hne ⊢
      simp only [Bool.false_eq_true, if_false, unquote]
      rw [if_neg]
      rintro ⟨e, _⟩
      exact hne (by rw [e]; rfl)
  rw [e1]
  have hws : ∀ z, consumeWS (b!"include" ++ z) = b!"include" ++ z := fun _ => rfl
  have hch : ∀ z, Reader.ch (b!"include" ++ z) = 105 := fun _ => rfl
  have hw : (b!"include").map (· - 32) = b!"INCLUDE" := by decide
  unfold parseStep
  simp only [hws, hch, hid, wf, hw]
  rw [if_neg (by decide), if_pos trivial, if_neg (by decide), if_neg (by decide), if_neg (by decide), if_pos trivial, pe]
  simp only [hu]

/-! ## Lines as texts of their own -/

theorem readText_go2 {e : Env} {depth : Nat} {fn : Str} {b b' : Builder} {als als' : Aliases} {s : Reader}
    (h0 : s.ch ≠ 0) (h2 : 2 ≤ s.length) (h : parseStep e b als s = .go b' als' [10]) : readText e depth fn b als s = .ok b' als' := by
  obtain ⟨n, hn⟩ : ∃ n, s.length + 1 = n + 3 := ⟨s.length - 2, by omega⟩
  unfold readText
  rw [hn]
  have hs : parseStep e b' als' [10] = .go b' als' [] := rfl
  simp only [parseLoop, if_neg h0, h, hs]
  simp [Reader.ch]

theorem readText_incl {e : Env} {depth : Nat} {fn f : Str} {b : Builder} {als : Aliases} {s : Reader}
    (h0 : s.ch ≠ 0) (h2 : 2 ≤ s.length) (h : parseStep e b als s = .incl f [10]) :
    readText e depth fn b als s =
      (match parseFileLocal e depth b als (e.join fn f) with
        | .ok b' _ => .ok b' als
        | o => o) := by
  obtain ⟨n, hn⟩ : ∃ n, s.length + 1 = n + 3 := ⟨s.length - 2, by omega⟩
  unfold readText
  rw [hn]
  have hs : ∀ b', parseStep e b' als [10] = .go b' als [] := fun _ => rfl
  simp only [parseLoop, if_neg h0, h]
  cases parseFileLocal e depth b als (e.join fn f) with
  | ok b' als' =>
    simp only [hs]
    simp [Reader.ch]
  | err => rfl
  | fatal => rfl
  | running => rfl

theorem digitChar_no0 {c : Nat} (h : digitChar c = true) : c ≠ 0 := by rintro rfl; revert h; decide
theorem blankChar_no0 {c : Nat} (h : blankChar c = true) : c ≠ 0 := by rintro rfl; revert h; decide
theorem lineChar_no0 {c : Nat} (h : lineChar c = true) : c ≠ 0 := by rintro rfl; revert h; decide
theorem acctChar_no0 {c : Nat} (h : acctChar c = true) : c ≠ 0 := by rintro rfl; revert h; decide
theorem ccyChar_no0 {c : Nat} (h : ccyChar c = true) : c ≠ 0 := by rintro rfl; revert h; decide

theorem no0_of {P : Nat → Prop} (hP : ∀ c, P c → c ≠ 0) {s : Str} (h : ∀ c ∈ s, P c) : 0 ∉ s := fun hm => hP 0 (h 0 hm) rfl

theorem numeral_no0 {n : Numeral} (h : n.Valid) : 0 ∉ n.text := by
  have h1 : 0 ∉ n.ip := fun hm => by rcases h.1 0 hm with h | h <;> revert h <;> decide
  have h2 : 0 ∉ n.fracText := by
    unfold Numeral.fracText
    cases hf : n.frac with
    | none => simp
    | some f =>
      have : 0 ∉ f := fun hm => by rcases h.2 f hf 0 hm with h | h <;> revert h <;> decide
      simp [this]
  unfold Numeral.text
  cases n.neg <;> simp [h1, h2]

theorem quoteIf_no0 {q : Bool} {s : Str} (h : 0 ∉ s) : 0 ∉ quoteIf q s := by
  unfold quoteIf; cases q <;> simp [h]

theorem noteText_no0 {n : NoteText} (h : n.Valid) : 0 ∉ n.text := by
  have hb := no0_of (fun _ => blankChar_no0) h.blanks
  simp only [List.mem_append, not_or] at hb
  unfold NoteText.text
  cases hn : n.note with
  | none => exact hb.1
  | some s =>
    have := no0_of (fun _ => lineChar_no0) (h.line s hn)
    simp [hb.1, hb.2, this]

theorem day_no0 {d : DayText} {t : YMD} (h : d.Means t) : 0 ∉ d.text := by
  have := no0_of (fun _ => digitChar_no0) h.digits
  simp only [List.mem_append, not_or] at this
  simp [DayText.text, this.1.1, this.1.2, this.2]

/-- No line has a NUL. -/
theorem fileLine_no0 {l : FileLine} (h : l.Valid) : 0 ∉ l.text := by
  cases l with
  | blank sp => exact no0_of (fun _ => blankChar_no0) h
  | comment sp s =>
    have h1 := no0_of (fun _ => blankChar_no0) h.1
    have h2 := no0_of (fun _ => lineChar_no0) h.2
    simp [FileLine.text, h1, h2]
  | unused c s =>
    have h2 := no0_of (fun _ => lineChar_no0) h.2
    rcases h.1 with rfl | rfl <;> simp [FileLine.text, h2]
  | txn t =>
    have h : t.Valid := h
    have h1 := day_no0 h.day
    have h2 := no0_of (fun _ => blankChar_no0) h.blanks
    have h3 := no0_of (fun _ => lineChar_no0) h.line
    have h4 := noteText_no0 h.note
    simp only [List.mem_append, not_or] at h2
    simp only [FileLine.text, TxnLine.text, List.mem_append, not_or]
    refine ⟨⟨⟨⟨h1, h2.1⟩, ?_⟩, ?_⟩, h4⟩
    · cases t.star <;> simp [h2.2]
    · cases t.quoted <;> simp [h3]
  | posting l =>
    have h : l.Valid := h.1
    have h1 := no0_of (fun _ => blankChar_no0) h.blanks
    have h2 := no0_of (fun _ => acctChar_no0) h.acct.2
    have h3 := numeral_no0 h.num.1
    have h4 : 0 ∉ l.ccyText := by
      apply quoteIf_no0 (q := l.quoted)
      cases hq : l.quoted with
      | true => exact no0_of (fun _ hc => lineChar_no0 hc.1) (h.quote hq)
      | false => exact no0_of (fun _ => ccyChar_no0) (h.plain hq)
    have h5 : 0 ∉ l.noteText := by
      simp only [List.mem_append, not_or] at h1
      unfold PostLine.noteText
      cases hn : l.note with
      | none => exact h1.1.2
      | some n =>
        have := no0_of (fun _ => lineChar_no0) (h.note n hn).1
        simp [h1.1.2, h1.2, this]
    simp only [List.mem_append, not_or] at h1
    simp only [FileLine.text, PostLine.text, PostLine.amtText, List.mem_append, not_or]
    refine ⟨⟨⟨⟨⟨h1.1.1.1.1, h2⟩, h1.1.1.1.2⟩, ?_⟩, ?_⟩, h5⟩
    · cases l.minus <;> simp
    · cases l.ccyFirst <;> simp [h3, h4, h1.1.1.2]
  | rest r =>
    have h : r.Valid := h
    have h1 := no0_of (fun _ => blankChar_no0) h.blanks
    have h2 := no0_of (fun _ => acctChar_no0) h.acct.2
    simp [FileLine.text, RestLine.text, h1, h2, noteText_no0 h.note]
  | price p =>
    have h : p.Valid := h
    have h1 := no0_of (fun _ => blankChar_no0) h.blanks
    have h2 := no0_of (fun _ => digitChar_no0) h.time.1
    have h3 := numeral_no0 h.num.1
    have h4 : 0 ∉ quoteIf p.quoted p.ccy := by
      apply quoteIf_no0
      cases hq : p.quoted with
      | true => exact no0_of (fun _ hc => lineChar_no0 hc.1) (h.quote hq)
      | false => exact no0_of (fun _ => ccyChar_no0) (h.plain hq).2.2
    have h5 : 0 ∉ quoteIf p.unitQuoted p.unit := by
      apply quoteIf_no0
      cases hq : p.unitQuoted with
      | true => exact no0_of (fun _ hc => lineChar_no0 hc.1) (h.unitQuote hq)
      | false => exact no0_of (fun _ => ccyChar_no0) (h.unitPlain hq).2
    simp only [List.mem_append, not_or] at h1 h2
    have h6 := day_no0 h.day
    have h7 : 0 ∉ (if p.ccyFirst = true then quoteIf p.quoted p.ccy ++ p.sp4 ++ p.num.text else p.num.text ++ p.sp4 ++ quoteIf p.quoted p.ccy) := by
      cases p.ccyFirst <;> simp [h3, h4, h1.2]
    simp only [List.append_assoc] at h7
    simp [FileLine.text, PriceLine.text, h1, h2, h5, h6, h7]
  | short sp1 a sp2 sp3 l sp4 =>
    obtain ⟨_, _, hb, _, _, hr⟩ := h
    have h1 := no0_of (fun _ => blankChar_no0) hb
    have h2 := no0_of (fun _ => acctChar_no0) hr
    simp only [List.mem_append, not_or] at h1 h2
    simp [FileLine.text, h1, h2]
  | incl sp q f =>
    obtain ⟨_, hb, _, hline, _⟩ := h
    have h1 := no0_of (fun _ => blankChar_no0) hb
    have h2 := quoteIf_no0 (q := q) (no0_of (fun _ => lineChar_no0) hline)
    simp [FileLine.text, h1, h2]

theorem ch_of_no0 {s : Str} (h : 0 ∉ s) : Reader.ch (s ++ [10]) ≠ 0 := by
  cases s with
  | nil => simp [Reader.ch]
  | cons c r => simp [Reader.ch]; intro e; apply h; simp [e]

/-- What reading lines should come to, when they stand for some bookings. -/
def outcomeOf (als : Aliases) : Option Builder → Outcome
  | none => .err
  | some b => .ok b als

theorem resolve_standsFor (als : List (Str × Str)) (a : Str) : Aliases.resolve als.reverse a = standsFor als a := by
  unfold standsFor
  generalize als.reverse = m
  induction m with
  | nil => rfl
  | cons kv m ih =>
    obtain ⟨k, v⟩ := kv
    simp only [Aliases.resolve, List.find?_cons]
    by_cases h : k = a
    · simp [h]
    · have : (k == a) = false := by simpa using h
      simp [h, this, ih]

/-- The open balances as the builder has them. -/
theorem open_balances {e : Env} (he : e.Ok) {pre : List Call} {b : Builder} (hb : Builder.new.calls pre = some b) :
    ((((e.ord b).filter fun kv => decide (kv.2 ≠ 0)).map fun kv => (kv.1, -kv.2)).map (·.1)).Nodup ∧
    ∀ c v, (c, v) ∈ (((e.ord b).filter fun kv => decide (kv.2 ≠ 0)).map fun kv => (kv.1, -kv.2)) ↔
      net c (openAmounts pre) ≠ 0 ∧ v = -net c (openAmounts pre) := by
  obtain ⟨cur, hcur⟩ : ∃ cur, (segments [] pre).getLast? = some cur := by
    have : ∀ (cs : List Call) cur, segments cur cs ≠ [] := by
      intro cs
      induction cs with
      | nil => intro cur; simp [segments]
      | cons c cs ih => intro cur; cases c <;> simp [segments, ih]
    cases h : (segments [] pre).getLast? with
    | none => exact absurd (List.getLast?_eq_none_iff.1 h) (this _ _)
    | some x => exact ⟨x, rfl⟩
  have hinv : OpenInv b cur := (calls_iff pre Builder.new [] openInv_new).2 b hb cur hcur
  have ho : openAmounts pre = cur := by unfold openAmounts; rw [hcur]; rfl
  rw [ho]
  constructor
  · rw [List.map_map]
    have h1 : (((e.ord b).filter fun kv => decide (kv.2 ≠ 0)).map (·.1)).Nodup := by
      apply List.Nodup.sublist (List.Sublist.map _ List.filter_sublist)
      exact ((he b).map _).nodup_iff.2 hinv.keys
    exact h1
  · intro c v
    simp only [List.mem_map, List.mem_filter, decide_eq_true_eq, Prod.exists, Prod.mk.injEq]
    constructor
    · rintro ⟨c', v', ⟨h1, h2⟩, rfl, rfl⟩
      have := amtFind_mem hinv.keys ((he b).mem_iff.1 h1)
      rw [← hinv.amt, this]
      exact ⟨h2, rfl⟩
    · rintro ⟨h1, rfl⟩
      rw [← hinv.amt] at h1 ⊢
      exact ⟨c, _, ⟨(he b).mem_iff.2 (amtAt_ne_mem h1), h1⟩, rfl, rfl⟩

/-- The aliases known after a line. -/
def aliasesAfter (als : List (Str × Str)) : FileLine → List (Str × Str)
  | .short _ s _ _ l _ => als ++ [(s, l)]
  | _ => als

/-- Reading a line other than an include does the bookings it stands for. -/
theorem read_line {e : Env} (he : e.Ok) (hl : PlainLetters e) (fs : Str → Option (List FileLine)) (depth : Nat) (fn : Str)
    {pre : List Call} {b : Builder} (hb : Builder.new.calls pre = some b) (als : List (Str × Str)) {l : FileLine} (hv : l.Valid)
    (hni : ∀ sp q f, l ≠ .incl sp q f) :
    ∃ cs1, (∀ ls cs, FileSays fs e.join fn (aliasesAfter als l) (pre ++ cs1) ls cs → FileSays fs e.join fn als pre (l :: ls) (cs1 ++ cs)) ∧
      readText e depth fn b als.reverse (l.text ++ [10]) = outcomeOf (aliasesAfter als l).reverse (b.calls cs1) := by
  have hch := ch_of_no0 (fileLine_no0 hv)
  cases l with
  | blank sp =>
    refine ⟨[], fun ls cs h => ?_, readText_go hch ?_⟩
    · rw [List.append_nil] at h; exact .blank _ _ _ _ _ _ h
    · exact step_skip e b _ hv (t := []) (.inl rfl) (by simp) []
  | comment sp s =>
    refine ⟨[], fun ls cs h => ?_, readText_go hch ?_⟩
    · rw [List.append_nil] at h; exact .comment _ _ _ _ _ _ _ h
    · have := step_skip e b als.reverse hv.1 (t := 59 :: s) (.inr ⟨s, rfl⟩)
        (by
          intro c hc
          rcases List.mem_cons.1 hc with rfl | hc
          · decide
          · exact hv.2 c hc) []
      simpa [FileLine.text, aliasesAfter] using this
  | unused c s =>
    refine ⟨[], fun ls cs h => ?_, readText_go hch ?_⟩
    · rw [List.append_nil] at h; exact .unused _ _ _ _ _ _ _ h
    · exact step_unused e b als.reverse hv.1 hv.2 []
  | txn t =>
    refine ⟨[.newTransaction t.date.code t.payee (t.note.note.getD [])], fun ls cs h => .txn _ _ _ _ _ _ h, ?_⟩
    have hs := step_txn e b als.reverse hv []
    simp only [Builder.calls, Builder.call]
    cases hn : b.newTransaction t.date.code t.payee (t.note.note.getD []) with
    | none => rw [hn] at hs; exact readText_stop hch hs
    | some b' => rw [hn] at hs; exact readText_go hch hs
  | posting l =>
    refine ⟨[.addPosting (standsFor als l.acct) l.ccy l.amount (l.note.getD [])], fun ls cs h => .posting _ _ _ _ _ _ h, ?_⟩
    have hs := c56_posting_line_exact_partial e b als.reverse l hv.1 hv.2 []
    rw [resolve_standsFor] at hs
    exact readText_go hch hs
  | rest r =>
    obtain ⟨h1, h2⟩ := open_balances he hb
    refine ⟨_, fun ls cs h => .rest _ _ _ r _ _ _ h1 h2 h, ?_⟩
    have hs := step_rest e b als.reverse hv []
    rw [resolve_standsFor] at hs
    have := addElided_calls (standsFor als r.acct) (r.note.note.getD []) (e.ord b) b
    rw [List.map_map]
    have h3 : b.calls (((e.ord b).filter fun kv => decide (kv.2 ≠ 0)).map
        ((fun cv => Call.addPosting (standsFor als r.acct) cv.1 cv.2 (r.note.note.getD [])) ∘ fun kv => (kv.1, -kv.2))) =
        some (addElided (standsFor als r.acct) (r.note.note.getD []) (e.ord b) b) := this
    rw [h3]
    exact readText_go hch hs
  | price p =>
    refine ⟨[.addPrice p.date.code p.unit p.ccy p.num.value], fun ls cs h => .price _ _ _ _ _ _ h, ?_⟩
    exact readText_go hch (step_price e b als.reverse hv [])
  | short sp1 a sp2 sp3 l sp4 =>
    refine ⟨[], fun ls cs h => ?_, readText_go2 hch ?_ ?_⟩
    · rw [List.append_nil] at h; exact .short _ _ _ _ _ _ _ _ _ _ _ h
    · simp [FileLine.text]
    · have := step_alias hl b als.reverse hv []
      rw [aliasesAfter, List.reverse_append]
      exact this
  | incl sp q f => exact absurd rfl (hni sp q f)

/-! ## Whole files -/

theorem fileText_cons (l : FileLine) (ls : List FileLine) : fileText (l :: ls) = (l.text ++ [10]) ++ fileText ls := rfl

theorem read_cons {e : Env} (hl : PlainLetters e) (depth : Nat) (fn : Str) (b : Builder) (als : Aliases) {l : FileLine} (hv : l.Valid)
    (ls : List FileLine) : readText e depth fn b als (fileText (l :: ls)) =
      (readText e depth fn b als (l.text ++ [10])).andThen fun b als => readText e depth fn b als (fileText ls) := by
  rw [fileText_cons]
  refine c60_reads_on_partial e (hl.space 10 (by decide)) depth fn b als (l.text ++ [10]) (fileText ls) ?_ (Or.inr ⟨_, rfl⟩)
  have := fileLine_no0 hv
  simp [this]

theorem readFile {e : Env} {fs : Str → Option (List FileLine)} (hd : OnDisk e fs) {fn : Str} {ls : List FileLine} (hf : fs fn = some ls)
    (depth : Nat) (b : Builder) (als : Aliases) :
    parseFileLocal e (depth + 1) b als fn = readText e depth fn b als (fileText ls) := by
  unfold parseFileLocal readText
  rw [(hd fn ls hf).1]

theorem read_include {e : Env} (hl : PlainLetters e) (depth : Nat) (fn : Str) (b : Builder) (als : Aliases) {sp : List Nat} {q : Bool} {f : Str}
    (hv : FileLine.Valid (.incl sp q f)) :
    readText e depth fn b als (FileLine.text (.incl sp q f) ++ [10]) =
      (parseFileLocal e depth b als (e.join fn f)).andThen fun b' _ => .ok b' als := by
  rw [readText_incl (ch_of_no0 (fileLine_no0 hv)) (by simp [FileLine.text]) (step_incl hl b als hv [])]
  cases parseFileLocal e depth b als (e.join fn f) <;> rfl

/-- If the lines of a file were read, then they stand for bookings, and these were done. -/
theorem read_sound {e : Env} (he : e.Ok) (hl : PlainLetters e) {fs : Str → Option (List FileLine)} (hd : OnDisk e fs) :
    ∀ (depth : Nat) (ls : List FileLine) (fn : Str) (pre : List Call) (b : Builder) (als : List (Str × Str)) (b' : Builder) (als' : Aliases),
    (∀ l ∈ ls, l.Valid ∧ ∀ sp q g, l = .incl sp q g → (fs (e.join fn g)).isSome = true) → Builder.new.calls pre = some b →
    readText e depth fn b als.reverse (fileText ls) = .ok b' als' →
    ∃ cs, FileSays fs e.join fn als pre ls cs ∧ b.calls cs = some b' := by
  intro depth
  induction depth with
  | zero =>
    intro ls
    induction ls with
    | nil =>
      intro fn pre b als b' als' _ _ h
      refine ⟨[], .nil _ _ _, ?_⟩
      have h' : Outcome.ok b als.reverse = .ok b' als' := h
      injection h' with h1
      rw [← h1]; rfl
    | cons l ls ih =>
      intro fn pre b als b' als' hv hb h
      rw [read_cons hl 0 fn b _ (hv l (by simp)).1] at h
      by_cases hi : ∃ sp q f, l = .incl sp q f
      · obtain ⟨sp, q, f, rfl⟩ := hi
        rw [read_include hl 0 fn b _ (hv _ (by simp)).1] at h
        cases h
      · obtain ⟨cs1, h1, h2⟩ := read_line he hl fs 0 fn hb als (hv l (by simp)).1 (fun sp q f hh => hi ⟨sp, q, f, hh⟩)
        rw [h2] at h
        cases hc : b.calls cs1 with
        | none => rw [hc] at h; cases h
        | some b1 =>
          rw [hc] at h
          obtain ⟨cs, h3, h4⟩ := ih fn (pre ++ cs1) b1 _ b' als' (fun l hl => hv l (by simp [hl]))
            (by rw [calls_append, hb]; exact hc) h
          exact ⟨cs1 ++ cs, h1 _ _ h3, by rw [calls_append, hc]; exact h4⟩
  | succ depth ihd =>
    intro ls
    induction ls with
    | nil =>
      intro fn pre b als b' als' _ _ h
      refine ⟨[], .nil _ _ _, ?_⟩
      have h' : Outcome.ok b als.reverse = .ok b' als' := h
      injection h' with h1
      rw [← h1]; rfl
    | cons l ls ih =>
      intro fn pre b als b' als' hv hb h
      rw [read_cons hl _ fn b _ (hv l (by simp)).1] at h
      by_cases hi : ∃ sp q f, l = .incl sp q f
      · obtain ⟨sp, q, f, rfl⟩ := hi
        rw [read_include hl _ fn b _ (hv _ (by simp)).1] at h
        obtain ⟨ls', hls'⟩ := Option.isSome_iff_exists.1 ((hv _ (by simp)).2 sp q f rfl)
        rw [readFile hd hls'] at h
        cases hr : readText e depth (e.join fn f) b als.reverse (fileText ls') with
        | err => rw [hr] at h; cases h
        | fatal => rw [hr] at h; cases h
        | running => rw [hr] at h; cases h
        | ok b1 als1 =>
          obtain ⟨cs1, h1, hc⟩ := ihd ls' (e.join fn f) pre b als b1 als1 (hd _ _ hls').2 hb hr
          rw [hr] at h
          obtain ⟨cs, h3, h4⟩ := ih fn (pre ++ cs1) b1 als b' als' (fun l hl => hv l (by simp [hl]))
            (by rw [calls_append, hb]; exact hc) h
          exact ⟨cs1 ++ cs, .incl _ _ _ _ _ _ _ _ _ _ hls' h1 h3, by rw [calls_append, hc]; exact h4⟩
      · obtain ⟨cs1, h1, h2⟩ := read_line he hl fs (depth + 1) fn hb als (hv l (by simp)).1 (fun sp q f hh => hi ⟨sp, q, f, hh⟩)
        rw [h2] at h
        cases hc : b.calls cs1 with
        | none => rw [hc] at h; cases h
        | some b1 =>
          rw [hc] at h
          obtain ⟨cs, h3, h4⟩ := ih fn (pre ++ cs1) b1 _ b' als' (fun l hl => hv l (by simp [hl]))
            (by rw [calls_append, hb]; exact hc) h
          exact ⟨cs1 ++ cs, h1 _ _ h3, by rw [calls_append, hc]; exact h4⟩

/-- Lines that stand for bookings do so whatever was booked before. -/
theorem says_any_pre {fs : Str → Option (List FileLine)} {join : Str → Str → Str} {fn : Str} {als : List (Str × Str)} {pre : List Call}
    {ls : List FileLine} {cs : List Call} (h : FileSays fs join fn als pre ls cs) : ∀ pre', ∃ cs', FileSays fs join fn als pre' ls cs' := by
  induction h with
  | nil => intro pre'; exact ⟨_, .nil _ _ _⟩
  | blank fn als pre sp ls cs _ ih => intro pre'; obtain ⟨cs', h⟩ := ih pre'; exact ⟨_, .blank _ _ _ _ _ _ h⟩
  | comment fn als pre sp s ls cs _ ih => intro pre'; obtain ⟨cs', h⟩ := ih pre'; exact ⟨_, .comment _ _ _ _ _ _ _ h⟩
  | unused fn als pre c s ls cs _ ih => intro pre'; obtain ⟨cs', h⟩ := ih pre'; exact ⟨_, .unused _ _ _ _ _ _ _ h⟩
  | txn fn als pre t ls cs _ ih => intro pre'; obtain ⟨cs', h⟩ := ih _; exact ⟨_, .txn _ _ pre' t _ _ h⟩
  | posting fn als pre l ls cs _ ih => intro pre'; obtain ⟨cs', h⟩ := ih _; exact ⟨_, .posting _ _ pre' l _ _ h⟩
  | rest fn als pre r adds ls cs _ _ _ ih =>
    intro pre'
    let am := openAmounts pre'
    let cc := (am.map (·.1)).dedup.filter fun c => decide (net c am ≠ 0)
    have hcc : ∀ c, c ∈ cc ↔ net c am ≠ 0 := by
      intro c
      simp only [cc, List.mem_filter, List.mem_dedup, decide_eq_true_eq, and_iff_right_iff_imp]
      intro hne
      by_contra hm
      apply hne
      exact net_absent hm
    obtain ⟨cs', h⟩ := ih (pre' ++ (cc.map fun c => (c, -net c am)).map fun cv =>
      .addPosting (standsFor als r.acct) cv.1 cv.2 (r.note.note.getD []))
    refine ⟨_, .rest _ _ pre' r (cc.map fun c => (c, -net c am)) _ _ ?_ ?_ h⟩
    · rw [List.map_map]
      have : cc.Nodup := (List.nodup_dedup _).filter _
      simpa [Function.comp_def] using this
    · intro c v
      simp only [List.mem_map, Prod.mk.injEq]
      constructor
      · rintro ⟨c', h1, rfl, rfl⟩
        exact ⟨(hcc _).1 h1, rfl⟩
      · rintro ⟨h1, rfl⟩
        exact ⟨c, (hcc _).2 h1, rfl, rfl⟩
  | price fn als pre p ls cs _ ih => intro pre'; obtain ⟨cs', h⟩ := ih _; exact ⟨_, .price _ _ pre' p _ _ h⟩
  | short fn als pre sp1 s sp2 sp3 l sp4 ls cs _ ih => intro pre'; obtain ⟨cs', h⟩ := ih pre'; exact ⟨_, .short _ _ _ _ _ _ _ _ _ _ _ h⟩
  | incl fn als pre sp q f ls' cs' ls cs hf _ _ ih1 ih2 =>
    intro pre'
    obtain ⟨c1, h1⟩ := ih1 pre'
    obtain ⟨c2, h2⟩ := ih2 (pre' ++ c1)
    exact ⟨_, .incl _ _ _ _ _ _ _ _ _ _ hf h1 h2⟩

/-- Lines that stand for bookings are read: these bookings are done, up to the first that is refused. -/
theorem read_complete {e : Env} (he : e.Ok) (hl : PlainLetters e) {fs : Str → Option (List FileLine)} (hd : OnDisk e fs)
    {fn : Str} {als : List (Str × Str)} {pre0 : List Call} {ls : List FileLine} {cs0 : List Call}
    (h : FileSays fs e.join fn als pre0 ls cs0) :
    (∀ l ∈ ls, l.Valid ∧ ∀ sp q g, l = .incl sp q g → (fs (e.join fn g)).isSome = true) →
    ∃ n, ∀ depth, n ≤ depth → ∀ pre b, Builder.new.calls pre = some b →
      ∃ cs als', FileSays fs e.join fn als pre ls cs ∧ readText e depth fn b als.reverse (fileText ls) = outcomeOf als' (b.calls cs) := by
  have step : ∀ (fn : Str) (als : List (Str × Str)) (l : FileLine) (ls : List FileLine) (pre0 cs0 : List Call), (∀ sp q f, l ≠ .incl sp q f) →
      FileSays fs e.join fn (aliasesAfter als l) pre0 ls cs0 →
      ((∀ l ∈ ls, l.Valid ∧ ∀ sp q g, l = .incl sp q g → (fs (e.join fn g)).isSome = true) →
        ∃ n, ∀ depth, n ≤ depth → ∀ pre b, Builder.new.calls pre = some b →
        ∃ cs als', FileSays fs e.join fn (aliasesAfter als l) pre ls cs ∧
          readText e depth fn b (aliasesAfter als l).reverse (fileText ls) = outcomeOf als' (b.calls cs)) →
      (∀ l' ∈ l :: ls, l'.Valid ∧ ∀ sp q g, l' = .incl sp q g → (fs (e.join fn g)).isSome = true) →
      ∃ n, ∀ depth, n ≤ depth → ∀ pre b, Builder.new.calls pre = some b →
        ∃ cs als', FileSays fs e.join fn als pre (l :: ls) cs ∧
          readText e depth fn b als.reverse (fileText (l :: ls)) = outcomeOf als' (b.calls cs) := by
    intro fn als l ls pre0 cs0 hni hsay ih hv
    obtain ⟨n, hn⟩ := ih (fun l' hl' => hv l' (by simp [hl']))
    refine ⟨n, fun depth hdep pre b hb => ?_⟩
    obtain ⟨cs1, h1, h2⟩ := read_line he hl fs depth fn hb als (hv l (by simp)).1 hni
    rw [read_cons hl depth fn b _ (hv l (by simp)).1, h2]
    cases hc : b.calls cs1 with
    | none =>
      obtain ⟨cs, hcs⟩ := says_any_pre hsay (pre ++ cs1)
      exact ⟨cs1 ++ cs, [], h1 _ _ hcs, by rw [calls_append, hc]; rfl⟩
    | some b1 =>
      obtain ⟨cs, als', h3, h4⟩ := hn depth hdep (pre ++ cs1) b1 (by rw [calls_append, hb]; exact hc)
      exact ⟨cs1 ++ cs, als', h1 _ _ h3, by rw [calls_append, hc]; exact h4⟩
  induction h with
  | nil fn als pre =>
    intro _
    exact ⟨0, fun depth _ pre b hb => ⟨[], als.reverse, .nil _ _ _, rfl⟩⟩
  | blank fn als pre sp ls cs hs ih => exact step fn als (.blank sp) ls _ _ (by simp) hs ih
  | comment fn als pre sp s ls cs hs ih => exact step fn als (.comment sp s) ls _ _ (by simp) hs ih
  | unused fn als pre c s ls cs hs ih => exact step fn als (.unused c s) ls _ _ (by simp) hs ih
  | txn fn als pre t ls cs hs ih => exact step fn als (.txn t) ls _ _ (by simp) hs ih
  | posting fn als pre l ls cs hs ih => exact step fn als (.posting l) ls _ _ (by simp) hs ih
  | rest fn als pre r adds ls cs _ _ hs ih => exact step fn als (.rest r) ls _ _ (by simp) hs ih
  | price fn als pre p ls cs hs ih => exact step fn als (.price p) ls _ _ (by simp) hs ih
  | short fn als pre sp1 s sp2 sp3 l sp4 ls cs hs ih => exact step fn als (.short sp1 s sp2 sp3 l sp4) ls _ _ (by simp) hs ih
  | incl fn als pre sp q f ls' cs' ls cs hf h1 h2 ih1 ih2 =>
    intro hv
    obtain ⟨n1, hn1⟩ := ih1 (hd _ _ hf).2
    obtain ⟨n2, hn2⟩ := ih2 (fun l' hl' => hv l' (by simp [hl']))
    refine ⟨max (n1 + 1) n2, fun depth hdep pre b hb => ?_⟩
    obtain ⟨d, rfl⟩ : ∃ d, depth = d + 1 := ⟨depth - 1, by omega⟩
    obtain ⟨cs1, als1, h3, h4⟩ := hn1 d (by omega) pre b hb
    rw [read_cons hl _ fn b _ (hv _ (by simp)).1, read_include hl _ fn b _ (hv _ (by simp)).1, readFile hd hf, h4]
    cases hc : b.calls cs1 with
    | none =>
      obtain ⟨cs, hcs⟩ := says_any_pre h2 (pre ++ cs1)
      exact ⟨cs1 ++ cs, [], .incl _ _ _ _ _ _ _ _ _ _ hf h3 hcs, by rw [calls_append, hc]; rfl⟩
    | some b1 =>
      obtain ⟨cs, als', h5, h6⟩ := hn2 (d + 1) (by omega) (pre ++ cs1) b1 (by rw [calls_append, hb]; exact hc)
      exact ⟨cs1 ++ cs, als', .incl _ _ _ _ _ _ _ _ _ _ hf h3 h5, by rw [calls_append, hc]; exact h6⟩

/-! ## The readings of a file agree but for the order of balancing postings -/

/-- The open amounts after `cs`, when `cur` was open. -/
def opens (cur : List (Str × Rat)) (cs : List Call) : List (Str × Rat) := (segments cur cs).getLast?.getD []

theorem opens_nil (cur : List (Str × Rat)) : opens cur [] = cur := rfl

theorem segs_ne_nil (cs : List Call) : ∀ cur, segments cur cs ≠ [] := by
  induction cs with
  | nil => intro cur; simp [segments]
  | cons c cs ih => intro cur; cases c <;> simp [segments, ih]

theorem opens_cons_txn (cur : List (Str × Rat)) (d : Int) (p n : Str) (cs : List Call) :
    opens cur (.newTransaction d p n :: cs) = opens [] cs := by
  simp only [opens, segments]
  obtain ⟨x, xs, h⟩ := List.exists_cons_of_ne_nil (segs_ne_nil cs [])
  rw [h, List.getLast?_cons_cons]

theorem opens_append (cur : List (Str × Rat)) (xs ys : List Call) : opens cur (xs ++ ys) = opens (opens cur xs) ys := by
  induction xs generalizing cur with
  | nil => rfl
  | cons c xs ih =>
    cases c with
    | newTransaction d p n => rw [List.cons_append, opens_cons_txn, opens_cons_txn]; exact ih _
    | addPosting a c v n => exact ih _
    | addPrice d u c v => exact ih _

theorem segments_append (cur : List (Str × Rat)) (xs ys : List Call) :
    segments cur (xs ++ ys) = (segments cur xs).dropLast ++ segments (opens cur xs) ys := by
  induction xs generalizing cur with
  | nil => rfl
  | cons c xs ih =>
    cases c with
    | newTransaction d p n =>
      rw [opens_cons_txn]
      simp only [List.cons_append, segments]
      rw [ih, List.dropLast_cons_of_ne_nil (segs_ne_nil _ _)]
      rfl
    | addPosting a c v n => exact ih _
    | addPrice d u c v => exact ih _

theorem segments_adds (cur : List (Str × Rat)) (a n : Str) (adds : List (Str × Rat)) (cs : List Call) :
    segments cur ((adds.map fun cv => Call.addPosting a cv.1 cv.2 n) ++ cs) = segments (cur ++ adds) cs := by
  induction adds generalizing cur with
  | nil => simp
  | cons cv adds ih =>
    obtain ⟨c, v⟩ := cv
    simp only [List.map_cons, List.cons_append, segments]
    rw [ih]
    simp

theorem net_perm {l r : List (Str × Rat)} (h : l.Perm r) (c : Str) : net c l = net c r := by
  unfold net
  exact ((h.filter _).map _).sum_eq

theorem forall₂_dropLast {R : α → β → Prop} {l : List α} {r : List β} (h : List.Forall₂ R l r) : List.Forall₂ R l.dropLast r.dropLast := by
  rw [List.dropLast_eq_take, List.dropLast_eq_take, h.length_eq]
  exact List.forall₂_take _ h

theorem forall₂_append {R : α → β → Prop} {l l' : List α} {r r' : List β} (h : List.Forall₂ R l r) (h' : List.Forall₂ R l' r') :
    List.Forall₂ R (l ++ l') (r ++ r') := by
  induction h with
  | nil => exact h'
  | cons h _ ih => exact .cons h ih

theorem opens_forall₂ {cur cur' : List (Str × Rat)} {cs cs' : List Call} (h : List.Forall₂ List.Perm (segments cur cs) (segments cur' cs')) :
    (opens cur cs).Perm (opens cur' cs') := by
  unfold opens
  generalize segments cur cs = l at h
  generalize segments cur' cs' = r at h
  induction h with
  | nil => rfl
  | @cons x y l r hxy h ih =>
    cases h with
    | nil => simpa using hxy
    | cons h1 h2 => rw [List.getLast?_cons_cons, List.getLast?_cons_cons]; exact ih

theorem readings_agree {fs : Str → Option (List FileLine)} {join : Str → Str → Str} {fn : Str} {als : List (Str × Str)} {pre : List Call}
    {ls : List FileLine} {cs : List Call} (h : FileSays fs join fn als pre ls cs) : ∀ pre' cs', (openAmounts pre).Perm (openAmounts pre') →
    FileSays fs join fn als pre' ls cs' →
    cs.Perm cs' ∧ List.Forall₂ List.Perm (segments (openAmounts pre) cs) (segments (openAmounts pre') cs') := by
  have ho : ∀ pre cs, openAmounts (pre ++ cs) = opens (openAmounts pre) cs := fun pre cs => opens_append [] pre cs
  induction h with
  | nil => intro pre' cs' hp h'; cases h'; exact ⟨.refl _, .cons hp .nil⟩
  | blank fn als pre sp ls cs _ ih => intro pre' cs' hp h'; cases h' with | blank _ _ _ _ _ _ h' => exact ih _ _ hp h'
  | comment fn als pre sp s ls cs _ ih => intro pre' cs' hp h'; cases h' with | comment _ _ _ _ _ _ _ h' => exact ih _ _ hp h'
  | unused fn als pre c s ls cs _ ih => intro pre' cs' hp h'; cases h' with | unused _ _ _ _ _ _ _ h' => exact ih _ _ hp h'
  | txn fn als pre t ls cs _ ih =>
    intro pre' cs' hp h'
    cases h' with
    | txn _ _ _ _ _ cs' h' =>
      have hn : ∀ p : List Call, openAmounts (p ++ [.newTransaction t.date.code t.payee (t.note.note.getD [])]) = [] := by
        intro p; rw [ho, opens_cons_txn]; rfl
      obtain ⟨h1, h2⟩ := ih _ _ (by rw [hn, hn]) h'
      rw [hn, hn] at h2
      exact ⟨h1.cons _, .cons hp h2⟩
  | posting fn als pre l ls cs _ ih =>
    intro pre' cs' hp h'
    cases h' with
    | posting _ _ _ _ _ cs' h' =>
      have hn : ∀ p : List Call, openAmounts (p ++ [.addPosting (standsFor als l.acct) l.ccy l.amount (l.note.getD [])]) =
          openAmounts p ++ [(l.ccy, l.amount)] := by
        intro p; rw [ho]; rfl
      obtain ⟨h1, h2⟩ := ih _ _ (by rw [hn, hn]; exact hp.append_right _) h'
      rw [hn, hn] at h2
      exact ⟨h1.cons _, h2⟩
  | rest fn als pre r adds ls cs hnd hm _ ih =>
    intro pre' cs' hp h'
    cases h' with
    | rest _ _ _ _ adds' _ cs' hnd' hm' h' =>
      have hn : ∀ (p : List Call) (adds : List (Str × Rat)),
          openAmounts (p ++ adds.map fun cv => .addPosting (standsFor als r.acct) cv.1 cv.2 (r.note.note.getD [])) = openAmounts p ++ adds := by
        intro p adds
        rw [ho]
        have := segments_adds (openAmounts p) (standsFor als r.acct) (r.note.note.getD []) adds []
        rw [List.append_nil] at this
        unfold opens
        rw [this]
        rfl
      have ha : adds.Perm adds' := by
        rw [List.perm_ext_iff_of_nodup (List.Nodup.of_map _ hnd) (List.Nodup.of_map _ hnd')]
        rintro ⟨c, v⟩
        rw [hm, hm', net_perm hp]
      obtain ⟨h1, h2⟩ := ih _ _ (by rw [hn, hn]; exact hp.append ha) h'
      rw [hn, hn] at h2
      rw [segments_adds, segments_adds]
      exact ⟨(ha.map _).append h1, h2⟩
  | price fn als pre p ls cs _ ih =>
    intro pre' cs' hp h'
    cases h' with
    | price _ _ _ _ _ cs' h' =>
      have hn : ∀ q : List Call, openAmounts (q ++ [.addPrice p.date.code p.unit p.ccy p.num.value]) = openAmounts q := by
        intro q; rw [ho]; rfl
      obtain ⟨h1, h2⟩ := ih _ _ (by rw [hn, hn]; exact hp) h'
      rw [hn, hn] at h2
      exact ⟨h1.cons _, h2⟩
  | short fn als pre sp1 s sp2 sp3 l sp4 ls cs _ ih =>
    intro pre' cs' hp h'; cases h' with | short _ _ _ _ _ _ _ _ _ _ _ h' => exact ih _ _ hp h'
  | incl fn als pre sp q f ls' cs1 ls cs hf _ _ ih1 ih2 =>
    intro pre' cs' hp h'
    cases h' with
    | incl _ _ _ _ _ _ ls'' cs1' _ cs' hf' h1' h2' =>
      rw [hf] at hf'
      cases hf'
      obtain ⟨h1, h2⟩ := ih1 _ _ hp h1'
      obtain ⟨h3, h4⟩ := ih2 _ _ (by rw [ho, ho]; exact opens_forall₂ h2) h2'
      rw [ho, ho] at h4
      rw [segments_append, segments_append]
      exact ⟨h1.append h3, forall₂_append (forall₂_dropLast h2) h4⟩

/-! ## C96 -/

/-- C96 (a): what was loaded is what the lines say.  If `ParseFile` reads a file, then its lines stand for bookings, and the builder has
done exactly these. -/
theorem c96_parsed {e : Env} (he : e.Ok) (hl : PlainLetters e) {fs : Str → Option (List FileLine)} (hd : OnDisk e fs) {f : Str}
    {ls : List FileLine} (hf : fs f = some ls) {depth : Nat} {b : Builder} {als : Aliases} (h : parseFile e depth Builder.new f = .ok b als) :
    ∃ cs, FileSays fs e.join f [] [] ls cs ∧ Builder.new.calls cs = some b := by
  unfold parseFile at h
  cases depth with
  | zero => cases h
  | succ depth =>
    rw [readFile hd hf] at h
    exact read_sound he hl hd depth ls f [] Builder.new [] b als (hd f ls hf).2 rfl h

/-- C96 (b): a loaded book is the one built from the bookings that the lines of the file stand for, and these balance transaction by
transaction. -/
theorem c96_loaded_book {e : Env} (he : e.Ok) (hl : PlainLetters e) {fs : Str → Option (List FileLine)} (hd : OnDisk e fs) {f : Str}
    {ls : List FileLine} (hf : fs f = some ls) {srt : List Posting → List Posting} {depth : Nat} {bk : Book}
    (h : loadBook srt e depth f = .ok bk) :
    ∃ cs, FileSays fs e.join f [] [] ls cs ∧ Built srt cs bk ∧ ∀ s ∈ segments [] cs, SegBalanced s := by
  unfold loadBook at h
  split at h <;> try cases h
  rename_i b als hb
  cases hbk : b.build srt with
  | none => rw [hbk] at h; cases h
  | some bk' =>
    rw [hbk] at h
    injection h with h
    subst h
    obtain ⟨cs, h1, h2⟩ := c96_parsed he hl hd hf hb
    refine ⟨cs, h1, ⟨b, h2, hbk⟩, (c01_build_iff_balanced srt cs).1 ⟨bk', ?_⟩⟩
    rw [h2]
    exact hbk

/-- C96 (c): a file whose lines stand for balanced transactions is loaded. -/
theorem c96_balanced_loads {e : Env} (he : e.Ok) (hl : PlainLetters e) {fs : Str → Option (List FileLine)} (hd : OnDisk e fs) {f : Str}
    {ls : List FileLine} (hf : fs f = some ls) {cs : List Call} (hsay : FileSays fs e.join f [] [] ls cs)
    (hbal : ∀ s ∈ segments [] cs, SegBalanced s) (srt : List Posting → List Posting) :
    ∃ n, ∀ depth, n ≤ depth → ∃ bk, loadBook srt e depth f = .ok bk := by
  obtain ⟨n, hn⟩ := read_complete he hl hd hsay (hd f ls hf).2
  refine ⟨n + 1, fun depth hdep => ?_⟩
  obtain ⟨d, rfl⟩ : ∃ d, depth = d + 1 := ⟨depth - 1, by omega⟩
  obtain ⟨cs', als', h1, h2⟩ := hn d (by omega) [] Builder.new rfl
  obtain ⟨_, h3⟩ := readings_agree hsay [] cs' (.refl _) h1
  have hbal' : ∀ s ∈ segments [] cs', SegBalanced s := by
    have h3 : List.Forall₂ List.Perm (segments [] cs) (segments [] cs') := h3
    generalize segments [] cs = l at h3 hbal
    generalize segments [] cs' = r at h3
    clear h2 h1 hn hsay
    induction h3 with
    | nil => simp
    | @cons x y l r hxy _ ih =>
      intro s hs
      rcases List.mem_cons.1 hs with rfl | hs
      · intro c; rw [← net_perm hxy]; exact hbal x (by simp) c
      · exact ih (fun s hs => hbal s (by simp [hs])) s hs
  obtain ⟨bk, hbk⟩ := (c01_build_iff_balanced srt cs').2 hbal'
  refine ⟨bk, ?_⟩
  unfold loadBook parseFile
  rw [readFile hd hf, show ([] : Aliases) = ([] : List (Str × Str)).reverse from rfl, h2]
  cases hc : Builder.new.calls cs' with
  | none => rw [hc] at hbk; cases hbk
  | some b =>
    rw [hc] at hbk
    have hbk : b.build srt = some bk := hbk
    simp only [outcomeOf, hbk]

/-- C96 (d): a file that stands for a transaction that does not balance is refused. -/
theorem c96_unbalanced_refused {e : Env} (he : e.Ok) (hl : PlainLetters e) {fs : Str → Option (List FileLine)} (hd : OnDisk e fs) {f : Str}
    {ls : List FileLine} (hf : fs f = some ls) {cs : List Call} (hsay : FileSays fs e.join f [] [] ls cs)
    (hbal : ∃ s ∈ segments [] cs, ¬ SegBalanced s) (srt : List Posting → List Posting) (depth : Nat) (bk : Book) :
    loadBook srt e depth f ≠ .ok bk := by
  intro h
  obtain ⟨cs', h1, _, h2⟩ := c96_loaded_book he hl hd hf h
  obtain ⟨_, h3⟩ := readings_agree h1 [] cs (.refl _) hsay
  have h3 : List.Forall₂ List.Perm (segments [] cs') (segments [] cs) := h3
  obtain ⟨s, hs, hun⟩ := hbal
  apply hun
  clear h1 hsay h hun
  generalize segments [] cs = r at h3 hs
  generalize segments [] cs' = l at h3 h2
  induction h3 with
  | nil => simp at hs
  | @cons x y l r hxy _ ih =>
    rcases List.mem_cons.1 hs with rfl | hs
    · intro c; rw [← net_perm hxy]; exact h2 x (by simp) c
    · exact ih hs (fun s hs => h2 s (by simp [hs]))

/-- C96 (e): two readings of a file differ only in the order of the postings that stand for one line without an amount. -/
theorem c96_one_reading {fs : Str → Option (List FileLine)} {join : Str → Str → Str} {f : Str} {ls : List FileLine} {cs cs' : List Call}
    (h : FileSays fs join f [] [] ls cs) (h' : FileSays fs join f [] [] ls cs') :
    cs.Perm cs' ∧ List.Forall₂ List.Perm (segments [] cs) (segments [] cs') :=
  readings_agree h [] cs' (.refl _) h'

/-! A file with a comment, an alias, a price and a posting without an amount that includes another file. -/

def demoTxn (day : DayText) (date : YMD) (payee : Str) : TxnLine :=
  { day, date, sp1 := [32], star := true, sp2 := [32], quoted := false, payee, note := ⟨some b!"note", [32], [32]⟩ }

def demoMain : List FileLine := [
  .comment [] b!" my ledger",
  .blank [32],
  .short [32] b!"c" [32] [32] b!"Assets:Cash" [],
  .price {
    sp0 := [32], day := ⟨b!"2020", b!"01", b!"02"⟩, date := ⟨2020, 1, 2⟩, sp1 := [32], hour := b!"00", minute := b!"00", second := b!"00",
    sp2 := [32], unitQuoted := false, unit := b!"X", sp3 := [32], ccyFirst := false, quoted := false, ccy := b!"Y", sp4 := [32],
    num := ⟨false, b!"1", some b!"5"⟩ },
  .txn (demoTxn ⟨b!"2020", b!"1", b!"2"⟩ ⟨2020, 1, 2⟩ b!"shop"),
  .posting {
    sp0 := [32, 32], acct := b!"c", sp1 := [32], minus := false, ccyFirst := true, quoted := false, ccy := b!"$", sp2 := [],
    num := ⟨false, b!"12", some b!"50"⟩, note := none, sp3 := [], sp4 := [] },
  .rest ⟨[32, 32], b!"Equity", ⟨none, [], []⟩⟩,
  .incl [32] true b!"more"]

def demoMore : List FileLine := [
  .txn (demoTxn ⟨b!"2020", b!"01", b!"03"⟩ ⟨2020, 1, 3⟩ b!"bank"),
  .posting {
    sp0 := [9], acct := b!"c", sp1 := [32], minus := true, ccyFirst := false, quoted := true, ccy := b!"a b", sp2 := [32],
    num := ⟨false, b!"1,000", none⟩, note := some b!"n", sp3 := [32], sp4 := [] },
  .rest ⟨[32, 32], b!"Bank", ⟨none, [], []⟩⟩]

def demoDisk (f : Str) : Option (List FileLine) :=
  if f = b!"main" then some demoMain else if f = b!"more" then some demoMore else none

def demoDiskEnv : Env := demoEnv [(b!"main", fileText demoMain), (b!"more", fileText demoMore)]

example : fileText demoMain =
    b!"; my ledger\n \nalias c = Assets:Cash\nP 2020/01/02 00:00:00 X 1.5 Y\n2020/1/2 * shop ; note\n  c $12.50\n  Equity\ninclude \"more\"\n" := by
  decide +kernel
example : fileText demoMore = b!"2020/01/03 * bank ; note\n\tc -1,000 \"a b\" ;n\n  Bank\n" := by decide +kernel

theorem demo_letters (files : List (Str × Str)) : PlainLetters (demoEnv files) where
  letter := by
    intro c hc
    simp [demoEnv, asciiAlnum, hc]
  space := by
    intro c hc
    have : c = 9 ∨ c = 10 ∨ c = 11 ∨ c = 12 ∨ c = 13 ∨ c = 32 ∨ 127 < c := by
      simp [spaceChar] at hc
      omega
    rcases this with rfl | rfl | rfl | rfl | rfl | rfl | h
    · rfl
    · rfl
    · rfl
    · rfl
    · rfl
    · rfl
    · simp [demoEnv, asciiAlnum, isDigit]; omega


theorem demo_disk : OnDisk demoDiskEnv demoDisk := by
  have hnote : ∀ n : NoteText, n = ⟨some b!"note", [32], [32]⟩ ∨ n = ⟨none, [], []⟩ → n.Valid := by
    rintro n (rfl | rfl)
    · refine ⟨by decide, ?_, ?_⟩
      · rintro s ⟨⟩; decide
      · rintro s c r ⟨⟩ h; cases h; decide
    · refine ⟨by decide, ?_, ?_⟩
      · rintro s ⟨⟩
      · rintro s c r ⟨⟩
  have hmain : ∀ l ∈ demoMain, l.Valid := by
    intro l hl
    simp only [demoMain, List.mem_cons, List.not_mem_nil, or_false] at hl
    rcases hl with rfl | rfl | rfl | rfl | rfl | rfl | rfl | rfl
    · exact ⟨by decide, by decide⟩
    · show ∀ c ∈ _, _; decide
    · exact ⟨by decide, by decide, by decide, by decide, by decide, by decide⟩
    · exact ⟨⟨by decide, by decide, by decide⟩, by decide, by decide, by decide, by decide, by decide, by decide,
        ⟨⟨by decide, by rintro f ⟨⟩; decide⟩, by decide, by decide⟩, ⟨49, [], rfl, by decide⟩, by decide, by decide, by decide⟩
    · exact ⟨⟨by decide, by decide, by decide⟩, by decide, by decide, by decide, by decide, by decide, by decide, by decide, hnote _ (.inl rfl)⟩
    · exact ⟨⟨by decide, by decide, by decide, by decide, ⟨⟨by decide, by rintro f ⟨⟩; decide⟩, by decide, by decide⟩, ⟨49, [50], rfl, by decide⟩,
        by decide, by decide, by rintro _ c r ⟨⟩; decide, by decide, by rintro n ⟨⟩⟩, by rintro n ⟨⟩⟩
    · exact ⟨by decide, by decide, by decide, by intro h; exact absurd rfl h, hnote _ (.inr rfl)⟩
    · exact ⟨by decide, by decide, by decide, by decide, by decide⟩
  have hmore : ∀ l ∈ demoMore, l.Valid := by
    intro l hl
    simp only [demoMore, List.mem_cons, List.not_mem_nil, or_false] at hl
    rcases hl with rfl | rfl | rfl
    · exact ⟨⟨by decide, by decide, by decide⟩, by decide, by decide, by decide, by decide, by decide, by decide, by decide, hnote _ (.inl rfl)⟩
    · exact ⟨⟨by decide, by decide, by decide, by decide, ⟨⟨by decide, by rintro f ⟨⟩⟩, by decide, by decide⟩, ⟨49, _, rfl, by decide⟩,
        by decide, by decide, by rintro ⟨⟩, by decide, by rintro n ⟨⟩; exact ⟨by decide, by rintro c r ⟨⟩; decide⟩⟩, by decide⟩
    · exact ⟨by decide, by decide, by decide, by intro h; exact absurd rfl h, hnote _ (.inr rfl)⟩
  intro f ls hf
  unfold demoDisk at hf
  split at hf
  · rename_i h
    cases h; cases hf
    refine ⟨by decide +kernel, fun l hl => ⟨hmain l hl, ?_⟩⟩
    rintro sp q g rfl
    simp only [demoMain, List.mem_cons, List.not_mem_nil, or_false, reduceCtorEq, false_or, FileLine.incl.injEq] at hl
    obtain ⟨_, _, rfl⟩ := hl
    decide
  · split at hf
    · rename_i h
      cases h; cases hf
      refine ⟨by decide +kernel, fun l hl => ⟨hmore l hl, ?_⟩⟩
      rintro sp q g rfl
      simp [demoMore] at hl
    · cases hf

/-- What the demonstration file says. -/
def demoSays : List Call := [
  .addPrice 20200102 b!"X" b!"Y" (3 / 2),
  .newTransaction 20200102 b!"shop" b!"note",
  .addPosting b!"Assets:Cash" b!"$" (25 / 2) [],
  .addPosting b!"Equity" b!"$" (-25 / 2) [],
  .newTransaction 20200103 b!"bank" b!"note",
  .addPosting b!"Assets:Cash" b!"a b" (-1000) b!"n",
  .addPosting b!"Bank" b!"a b" 1000 []]

theorem demo_says : FileSays demoDisk demoDiskEnv.join b!"main" [] [] demoMain demoSays := by
  have h1 : (3 / 2 : Rat) = (⟨false, b!"1", some b!"5"⟩ : Numeral).value := by decide +kernel
  have h2 : (25 / 2 : Rat) = 1 * (⟨false, b!"12", some b!"50"⟩ : Numeral).value := by decide +kernel
  have h3 : (-1000 : Rat) = -1 * (⟨false, b!"1,000", none⟩ : Numeral).value := by decide +kernel
  have hn : ∀ (c v : _) (c' : Str), net c' [(c, v)] = if c = c' then v else 0 := by
    intro c v c'; unfold net; by_cases h : c = c' <;> simp [h]
  unfold demoSays
  rw [h1, h2, h3]
  refine .comment _ _ _ _ _ _ _ (.blank _ _ _ _ _ _ (.short _ _ _ _ _ _ _ _ _ _ _ (.price _ _ _ _ _ _ (.txn _ _ _ _ _ _ (.posting _ _ _ _ _ _ ?_)))))
  refine .rest _ _ _ _ [(b!"$", -25 / 2)] _ _ (by simp) ?_ ?_
  · intro c v
    have : openAmounts ([] ++ [Call.addPrice 20200102 b!"X" b!"Y" (⟨false, b!"1", some b!"5"⟩ : Numeral).value] ++
        [.newTransaction 20200102 b!"shop" b!"note"] ++ [.addPosting b!"Assets:Cash" b!"$" (1 * (⟨false, b!"12", some b!"50"⟩ : Numeral).value) []]) =
        [(b!"$", 25 / 2)] := by rw [h2]; rfl
    erw [this]
    rw [hn]
    by_cases h : b!"$" = c
    · subst h; simp; constructor <;> rintro rfl <;> norm_num
    · simp [h, Ne.symm h]
  refine .incl _ _ _ _ _ _ demoMore [.newTransaction 20200103 b!"bank" b!"note",
    .addPosting b!"Assets:Cash" b!"a b" (-1 * (⟨false, b!"1,000", none⟩ : Numeral).value) b!"n", .addPosting b!"Bank" b!"a b" 1000 []] _ [] rfl ?_ (.nil _ _ _)
  refine .txn _ _ _ _ _ _ (.posting _ _ _ _ _ _ ?_)
  refine .rest _ _ _ _ [(b!"a b", 1000)] _ _ (by simp) ?_ (.nil _ _ _)
  intro c v
  have : ∀ (p : List Call), openAmounts (p ++ [.newTransaction 20200103 b!"bank" b!"note"] ++
      [.addPosting b!"Assets:Cash" b!"a b" (-1 * (⟨false, b!"1,000", none⟩ : Numeral).value) b!"n"]) = [(b!"a b", -1000)] := by
    intro p
    rw [h3]
    rw [show ∀ x y, openAmounts (x ++ y) = opens (openAmounts x) y from fun x y => opens_append [] x y,
      show ∀ x y, openAmounts (x ++ y) = opens (openAmounts x) y from fun x y => opens_append [] x y, opens_cons_txn]
    rfl
  erw [this]
  rw [hn]
  by_cases h : b!"a b" = c
  · subst h; simp
  · simp [h, Ne.symm h]

theorem demo_balanced : ∀ s ∈ segments [] demoSays, SegBalanced s := by
  intro s hs
  simp only [demoSays, segments, List.mem_cons, List.not_mem_nil, or_false, List.nil_append, List.cons_append] at hs
  rcases hs with rfl | rfl | rfl <;> intro c <;> simp [net, List.filter_cons] <;> split <;> norm_num

/-- The hypotheses of C96 hold of the demonstration files, which are therefore loaded. -/
example : ∃ n, ∀ depth, n ≤ depth → ∃ bk, loadBook insSort demoDiskEnv depth b!"main" = .ok bk :=
  c96_balanced_loads (demoEnv_ok _) (demo_letters _) demo_disk rfl demo_says demo_balanced insSort

example : (match loadBook insSort demoDiskEnv 2 b!"main" with | .ok bk => bk.post.length | _ => 0) = 4 := by decide +kernel

end Verif
