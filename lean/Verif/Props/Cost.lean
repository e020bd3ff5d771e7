import Verif.Spec.Cost
import Verif.Props.File

/-! # C121: costs of postings -/

namespace Verif
open Spec

/-! ## Reading a cost -/

/-- A posting line with the currency and the amount of the cost. -/
def costAsLine (l : PostLine) (c : Cost) : PostLine :=
  { l with ccyFirst := c.ccyFirst, quoted := c.quoted, ccy := c.ccy, sp2 := c.sp3, num := c.num }

theorem costAsLine_valid {l : PostLine} (hv : l.Valid) {c : Cost} (hc : c.Valid) : (costAsLine l c).Valid where
  acct := hv.acct
  indent := hv.indent
  gap := hv.gap
  blanks := by
    intro x hx
    simp only [costAsLine, List.mem_append] at hx
    rcases hx with (((h | h) | h) | h) | h
    · exact hv.blanks x (by simp [h])
    · exact hv.blanks x (by simp [h])
    · exact hc.blanks x (by simp [h])
    · exact hv.blanks x (by simp [h])
    · exact hv.blanks x (by simp [h])
  num := hc.num
  digit := hc.digit
  ccy := hc.ccy
  plain := fun h => (hc.plain h).2.2
  start := by
    intro h x r hx
    have h1 := hc.plain h
    have hx : c.ccy = x :: r := hx
    rw [hx] at h1
    exact ⟨fun e => h1.1 (by rw [e]; rfl), fun h2 h3 e => h1.2.1 h2 h3 (by rw [e]; rfl)⟩
  quote := hc.quote
  note := hv.note

theorem price_head {c : Cost} (hc : c.Valid) (r : List Nat) : ∀ x, (c.price ++ r).head? = some x → isBlank x = false := by
  intro x hx
  unfold Cost.price at hx
  cases hf : c.ccyFirst with
  | false =>
    rw [hf] at hx
    obtain ⟨y, h1, h2, _⟩ := numeral_head hc.digit (c.sp3 ++ quoteIf c.quoted c.ccy ++ r)
    have : c.num.text ++ c.sp3 ++ quoteIf c.quoted c.ccy ++ r = c.num.text ++ (c.sp3 ++ quoteIf c.quoted c.ccy ++ r) := by simp
    simp only [Bool.false_eq_true, if_false] at hx
    rw [this, h1] at hx
    cases hx; exact h2
  | true =>
    rw [hf] at hx
    unfold quoteIf at hx
    cases hq : c.quoted with
    | true =>
      rw [hq] at hx
      simp at hx
      subst hx; decide
    | false =>
      obtain ⟨y, ys, hy⟩ := List.exists_cons_of_ne_nil hc.ccy
      rw [hq, hy] at hx
      simp at hx
      subst hx
      exact (ccyRune_facts ((hc.plain hq).2.2 y (by rw [hy]; simp))).2.2.2.2.1

/-- A cost is read and dropped. -/
theorem skip_cost {l : PostLine} (hv : l.Valid) {c : Cost} (hc : c.Valid) {r : List Nat}
    (hr : ∀ x, r.head? = some x → isBlank x = true ∨ x = 10) : skipAtPrice (consumeWS (c.text ++ r)) = some r := by
  have h1 : ∀ x ∈ c.sp1, isBlank x = true := fun x hx => hc.blanks x (by simp [hx])
  have h2 : ∀ x ∈ c.sp2, isBlank x = true := fun x hx => hc.blanks x (by simp [hx])
  have e1 : c.text ++ r = c.sp1 ++ (64 :: (c.sp2 ++ (c.price ++ r))) := by simp [Cost.text]
  rw [e1, ws_exact h1 (by intro x hx; simp at hx; rw [← hx]; decide)]
  unfold skipAtPrice
  rw [if_pos (by rfl)]
  simp only [Reader.next, List.tail_cons]
  rw [ws_exact h2 (price_head hc r)]
  have h3 := parseCCYAmt_exact (costAsLine_valid hv hc) c.num ⟨rfl, rfl⟩ hr
  have h4 : (if (costAsLine l c).ccyFirst then (costAsLine l c).ccyText ++ (costAsLine l c).sp2 ++ c.num.text
      else c.num.text ++ (costAsLine l c).sp2 ++ (costAsLine l c).ccyText) = c.price := rfl
  rw [h4] at h3
  rw [h3]
  rfl

/-- One round of the loop at a posting line, whatever follows its amount. -/
theorem step_posting_tail (e : Env) (b : Builder) (als : Aliases) {l : PostLine} (hv : l.Valid) {tail : List Nat}
    (ht : ∀ c, tail.head? = some c → isBlank c = true ∨ c = 10) {s : Reader} (hs : skipAtPrice (consumeWS tail) = some s) :
    parseStep e b als (l.sp0 ++ l.acct ++ l.sp1 ++ (if l.minus then [45] else []) ++ l.amtText ++ tail) =
      .go (b.addPosting (als.resolve l.acct) l.ccy l.amount (parseNote s).1) als (skipEOL (parseNote s).2) := by
  have hb0 : ∀ c ∈ l.sp0, isBlank c = true := fun c hc => hv.blanks c (by simp [hc])
  obtain ⟨x, xs, hx⟩ := List.exists_cons_of_ne_nil hv.acct.1
  have hxf := acct_facts (hv.acct.2 x (by rw [hx]; simp))
  have hline := parsePostingLine_tail als hv ht
  rw [hs, Option.map_some] at hline
  have e1 : l.sp0 ++ l.acct ++ l.sp1 ++ (if l.minus then [45] else []) ++ l.amtText ++ tail =
      l.sp0 ++ (l.acct ++ l.sp1 ++ (if l.minus then [45] else []) ++ l.amtText ++ tail) := by simp
  have hch : Reader.ch (l.acct ++ l.sp1 ++ (if l.minus then [45] else []) ++ l.amtText ++ tail) = x := by
    rw [hx]; rfl
  have hws : consumeWS (l.sp0 ++ (l.acct ++ l.sp1 ++ (if l.minus then [45] else []) ++ l.amtText ++ tail)) =
      l.acct ++ l.sp1 ++ (if l.minus then [45] else []) ++ l.amtText ++ tail :=
    ws_exact hb0 (by intro c hc; rw [hx] at hc; simp at hc; rw [← hc]; exact hxf.1)
  have hlen : ∀ z : List Nat, ¬ (z.length = (l.sp0 ++ z).length) := by
    intro z
    have : l.sp0.length ≠ 0 := by simpa using hv.indent
    simp only [List.length_append]; omega
  rw [e1]
  unfold parseStep
  simp only [hws, hch]
  rw [if_neg (by simp [hxf]), if_neg (hlen _), hline]
  simp only [postingEffect, if_neg hv.ccy]

/-- C121, one line: a posting with a cost is read like the same posting without the cost. -/
theorem c121_line_partial (e : Env) (b : Builder) (als : Aliases) (l : PostLine) (hv : l.Valid)
    (hn : ∀ n, l.note = some n → l.sp3 ≠ []) (c : Cost) (hc : c.Valid) (rest : List Nat) :
    parseStep e b als (l.textWith c.text ++ 10 :: rest) = parseStep e b als (l.text ++ 10 :: rest) := by
  rw [c56_posting_line_exact_partial e b als l hv hn rest]
  have hs := skip_cost hv hc (noteText_head hv rest hn)
  have e1 : l.textWith c.text ++ 10 :: rest =
      l.sp0 ++ l.acct ++ l.sp1 ++ (if l.minus then [45] else []) ++ l.amtText ++ (c.text ++ (l.noteText ++ 10 :: rest)) := by
    simp [PostLine.textWith]
  obtain ⟨y, ys, hy⟩ := List.exists_cons_of_ne_nil hc.gap
  rw [e1, step_posting_tail e b als hv (by
    intro x hx
    unfold Cost.text at hx
    rw [hy] at hx
    simp at hx
    left; rw [← hx]; exact hc.blanks y (by rw [hy]; simp)) hs]
  rw [parseNote_exact hv rest]
  rfl

/-! ## Whole files -/

theorem cost_no0 {c : Cost} (hc : c.Valid) : 0 ∉ c.text := by
  have h1 := no0_of (fun _ => blankChar_no0) hc.blanks
  have h3 := numeral_no0 hc.num.1
  have h4 : 0 ∉ quoteIf c.quoted c.ccy := by
    apply quoteIf_no0
    cases hq : c.quoted with
    | true => exact no0_of (fun _ h => lineChar_no0 h.1) (hc.quote hq)
    | false => exact no0_of (fun _ => ccyChar_no0) (hc.plain hq).2.2
  simp only [List.mem_append, not_or] at h1
  have h5 : 0 ∉ c.price := by unfold Cost.price; cases c.ccyFirst <;> simp [h1, h3, h4]
  simp [Cost.text, h1, h5]

theorem textWith_no0 {l : PostLine} (h : 0 ∉ l.text) {s : Str} (hs : 0 ∉ s) : 0 ∉ l.textWith s := by
  simp only [PostLine.text, PostLine.textWith, List.mem_append, not_or] at *
  tauto

theorem costed_no0 {l : CostedLine} (h : l.Valid) : 0 ∉ l.text ∧ 0 ∉ l.bare := by
  cases l with
  | other s => exact ⟨h, h⟩
  | posting l => exact ⟨fileLine_no0 (l := .posting l) h, fileLine_no0 (l := .posting l) h⟩
  | costed l c =>
    have := fileLine_no0 (l := .posting l) h.1
    exact ⟨textWith_no0 this (cost_no0 h.2), this⟩

/-- Reading depends on the files only through the includes. -/
theorem parseLoop_anyFiles (e : Env) (fs : Str → Option (List Nat)) (fn : Str) {inc inc' : Builder → Aliases → Str → Outcome}
    (h : ∀ b als g, inc b als g = inc' b als g) : ∀ (n : Nat) (b : Builder) (als : Aliases) (s : Reader),
    parseLoop e fn inc n b als s = parseLoop { e with files := fs } fn inc' n b als s := by
  intro n
  induction n with
  | zero => intro b als s; rfl
  | succ n ih =>
    intro b als s
    have hs : parseStep { e with files := fs } b als s = parseStep e b als s := rfl
    unfold parseLoop
    rw [hs]
    split
    · rfl
    · cases parseStep e b als s with
      | stop => rfl
      | go b als s => exact ih b als s
      | incl f s =>
        simp only [h]
        cases inc' b als (e.join fn f) with
        | ok b' _ => exact ih b' als s
        | err => rfl
        | fatal => rfl
        | running => rfl

theorem costs_removed (e : Env) (he : e.letter 10 = false) (e' : Env) (h : CostsRemoved e e') : ∀ (depth : Nat) (b : Builder) (als : Aliases) (fn : Str),
    parseFileLocal e depth b als fn = parseFileLocal e' depth b als fn := by
  have hee := h.same
  intro depth
  induction depth with
  | zero => intro b als fn; rfl
  | succ depth ih =>
    intro b als fn
    have hloop : ∀ n b als s, parseLoop e fn (parseFileLocal e depth) n b als s = parseLoop e' fn (parseFileLocal e' depth) n b als s := by
      intro n b als s
      have := parseLoop_anyFiles e e'.files fn ih n b als s
      rw [← hee] at this
      exact this
    rcases h.files fn with hf | ⟨ls, hv, h1, h2⟩
    · unfold parseFileLocal
      rw [hf]
      cases e.files fn with
      | none => rfl
      | some content => exact hloop _ _ _ _
    · have he' : e'.letter 10 = false := by rw [hee]; exact he
      have key : ∀ (ls : List CostedLine), (∀ l ∈ ls, l.Valid) → ∀ b als,
          readText e depth fn b als (costText ls) = readText e' depth fn b als (bareText ls) := by
        intro ls
        induction ls with
        | nil => intro _ b als; exact hloop _ _ _ _
        | cons l ls ihl =>
          intro hv b als
          have hl := hv l (by simp)
          have h0 := costed_no0 hl
          have c1 : costText (l :: ls) = (l.text ++ [10]) ++ costText ls := rfl
          have c2 : bareText (l :: ls) = (l.bare ++ [10]) ++ bareText ls := rfl
          rw [c1, c2, c60_reads_on_partial e he depth fn b als (l.text ++ [10]) _ (by simp [h0.1]) (Or.inr ⟨_, rfl⟩),
            c60_reads_on_partial e' he' depth fn b als (l.bare ++ [10]) _ (by simp [h0.2]) (Or.inr ⟨_, rfl⟩)]
          have hone : readText e depth fn b als (l.text ++ [10]) = readText e' depth fn b als (l.bare ++ [10]) := by
            have hb : readText e depth fn b als (l.bare ++ [10]) = readText e' depth fn b als (l.bare ++ [10]) := hloop _ _ _ _
            rw [← hb]
            cases l with
            | other s => rfl
            | posting l => rfl
            | costed l c =>
              have hs := c121_line_partial e b als l hl.1.1 hl.1.2 c hl.2 []
              have hs2 := c56_posting_line_exact_partial e b als l hl.1.1 hl.1.2 []
              rw [hs2] at hs
              exact (readText_go (ch_of_no0 h0.1) hs).trans (readText_go (s := l.text ++ [10]) (ch_of_no0 h0.2) hs2).symm
          rw [hone]
          congr 1
          funext b als
          exact ihl (fun l' hl' => hv l' (by simp [hl'])) b als
      unfold parseFileLocal
      rw [h1, h2]
      exact key ls hv b als

/-- C121, the part that holds: costs change nothing.  Files in which postings have costs are loaded exactly as if the costs were not
there - the same book, the same refusal.  Missing: the costs. -/
theorem c121_costs_dropped_partial (e : Env) (he : e.letter 10 = false) (e' : Env) (h : CostsRemoved e e')
    (srt : List Posting → List Posting) (depth : Nat) (f : Str) : loadBook srt e depth f = loadBook srt e' depth f := by
  unfold loadBook parseFile
  rw [costs_removed e he e' h]

/-! ## Total costs -/

/-- C121, total costs: a posting with `@@` and anything after it is refused, and with it the whole file. -/
theorem c121_total_refused (e : Env) (he : e.letter 10 = false) (hat : e.letter 64 = false) (fn : Str) (s : Str) (hs : 0 ∉ s)
    (hend : s = [] ∨ s.getLast? = some 10) (l : PostLine) (hv : l.Valid) (sp : List Nat) (hsp : sp ≠ [])
    (hb : ∀ c ∈ sp, blankChar c = true) (rest : Str) (hf : e.files fn = some (s ++ (l.textWith (sp ++ b!"@@") ++ rest)))
    (srt : List Posting → List Posting) (depth : Nat) (bk : Book) : loadBook srt e depth fn ≠ .ok bk := by
  have hlines : Lines s := by
    rcases hend with h | h
    · exact .inl h
    · exact .inr ⟨s.dropLast, by rw [List.getLast?_eq_some_iff] at h; obtain ⟨ys, rfl⟩ := h; simp⟩
  obtain ⟨y, ys, hy⟩ := List.exists_cons_of_ne_nil hsp
  -- the second `@` is left over
  have hstep : ∀ b als, ∃ b', parseStep e b als (l.textWith (sp ++ b!"@@") ++ rest) = .go b' als (64 :: (l.noteText ++ rest)) := by
    intro b als
    have e1 : l.textWith (sp ++ b!"@@") ++ rest =
        l.sp0 ++ l.acct ++ l.sp1 ++ (if l.minus then [45] else []) ++ l.amtText ++ (sp ++ (64 :: 64 :: (l.noteText ++ rest))) := by
      simp [PostLine.textWith]
    have hskip : skipAtPrice (consumeWS (sp ++ (64 :: 64 :: (l.noteText ++ rest)))) = some (64 :: (l.noteText ++ rest)) := by
      rw [ws_exact hb (by intro x hx; simp at hx; rw [← hx]; decide)]
      rfl
    rw [e1, step_posting_tail e b als hv (by
      intro x hx
      rw [hy] at hx
      simp at hx
      left; rw [← hx]; exact hb y (by rw [hy]; simp)) hskip]
    exact ⟨_, rfl⟩
  have hstop : ∀ b als z, parseStep e b als (64 :: z) = .stop := by
    intro b als z
    have hws : consumeWS (64 :: z) = 64 :: z := rfl
    have hid : parseIdentifier e (64 :: z) = ([], 64 :: z) := by
      have : e.isIdent 64 = false := by simp [Env.isIdent, hat]
      simp [parseIdentifier, hws, this]
    unfold parseStep
    simp only [hws, hid]
    rfl
  have hnz : Reader.ch (l.textWith (sp ++ b!"@@") ++ rest) ≠ 0 := by
    obtain ⟨x, xs, hx⟩ := List.exists_cons_of_ne_nil hv.indent
    have : isBlank x = true := hv.blanks x (by rw [hx]; simp)
    simp only [PostLine.textWith, hx, List.cons_append]
    show x ≠ 0
    rintro rfl
    revert this; decide
  have herr : ∀ depth b als, readText e depth fn b als (l.textWith (sp ++ b!"@@") ++ rest) = .err := by
    intro depth b als
    obtain ⟨b', h1⟩ := hstep b als
    obtain ⟨n, hn⟩ : ∃ n, (l.textWith (sp ++ b!"@@") ++ rest).length + 1 = n + 2 := by
      have : 0 < sp.length := List.length_pos_of_ne_nil hsp
      refine ⟨(l.textWith (sp ++ b!"@@") ++ rest).length - 1, ?_⟩
      simp only [PostLine.textWith, List.length_append]
      omega
    unfold readText
    rw [hn]
    simp only [parseLoop, if_neg hnz, h1, hstop]
    rfl
  intro h
  cases depth with
  | zero => cases h
  | succ depth =>
    have h2 : parseFile e (depth + 1) Builder.new fn = (readText e depth fn Builder.new [] s).andThen fun b als => .err := by
      unfold parseFile parseFileLocal
      rw [hf]
      have := c60_reads_on_partial e he depth fn Builder.new [] s (l.textWith (sp ++ b!"@@") ++ rest) hs hlines
      simp only [herr] at this
      exact this
    unfold loadBook at h
    rw [h2] at h
    cases hr : readText e depth fn Builder.new [] s <;> rw [hr] at h <;> cases h

/-! ## What is missing -/

/-- "  Broker  10 ACME @ 5 $". -/
def buyLine : PostLine :=
  { acct := b!"Broker", minus := false, ccyFirst := false, quoted := false, ccy := b!"ACME",
    num := ⟨false, b!"10", none⟩, note := none, sp0 := b!"  ", sp1 := b!"  ", sp2 := b!" ", sp3 := [], sp4 := [] }

def buyCost : Cost := { sp1 := b!" ", sp2 := b!" ", ccyFirst := false, quoted := false, ccy := b!"$", sp3 := b!" ", num := ⟨false, b!"5", none⟩ }

/-- "  Cash  $-50". -/
def payLine : PostLine :=
  { acct := b!"Cash", minus := false, ccyFirst := true, quoted := false, ccy := b!"$",
    num := ⟨true, b!"50", none⟩, note := none, sp0 := b!"  ", sp1 := b!"  ", sp2 := [], sp3 := [], sp4 := [] }

/-- "  Vault  -10 ACME @ 5 $". -/
def sellLine : PostLine := { buyLine with acct := b!"Vault", num := ⟨true, b!"10", none⟩ }

theorem buyLine_valid : buyLine.Valid := by
  exact ⟨by decide, by decide, by decide, by decide, ⟨⟨by decide, by rintro f ⟨⟩⟩, by decide, by decide⟩, ⟨49, [48], rfl, by decide⟩,
        by decide, by decide, by rintro _ c r ⟨⟩; decide, by decide, by rintro n ⟨⟩⟩

theorem sellLine_valid : sellLine.Valid := by
  exact ⟨by decide, by decide, by decide, by decide, ⟨⟨by decide, by rintro f ⟨⟩⟩, by decide, by decide⟩, ⟨49, [48], rfl, by decide⟩,
        by decide, by decide, by rintro _ c r ⟨⟩; decide, by decide, by rintro n ⟨⟩⟩

theorem payLine_valid : payLine.Valid := by
  exact ⟨by decide, by decide, by decide, by decide, ⟨⟨by decide, by rintro f ⟨⟩⟩, by decide, by decide⟩, ⟨53, [48], rfl, by decide⟩,
        by decide, by decide, by rintro _ c r ⟨⟩; decide, by decide, by rintro n ⟨⟩⟩

theorem buyCost_valid : buyCost.Valid := by
  exact ⟨by decide, by decide, ⟨⟨by decide, by rintro f ⟨⟩⟩, by decide, by decide⟩, ⟨53, [], rfl, by decide⟩, by decide, by decide, by decide⟩

example : buyLine.textWith buyCost.text = b!"  Broker  10 ACME @ 5 $" ∧ payLine.text = b!"  Cash  $-50" ∧
    buyLine.textWith (b!" @@" ++ b!" 50 $") = b!"  Broker  10 ACME @@ 50 $" := by decide

/-- Ten pieces move at a price. -/
def transferFile : List CostedLine := [.other b!"2020/01/02 Transfer", .costed buyLine buyCost, .costed sellLine buyCost]

theorem transferFile_valid : ∀ l ∈ transferFile, l.Valid := by
  intro l hl
  simp only [transferFile, List.mem_cons, List.not_mem_nil, or_false] at hl
  rcases hl with rfl | rfl | rfl
  · show 0 ∉ _; decide
  · exact ⟨⟨buyLine_valid, by rintro n ⟨⟩⟩, buyCost_valid⟩
  · exact ⟨⟨sellLine_valid, by rintro n ⟨⟩⟩, buyCost_valid⟩

def transferEnv : Env := demoEnv [(b!"main", costText transferFile)]

/-- The hypotheses of the theorems hold of this file: it is loaded as if it had no costs. -/
example : CostsRemoved transferEnv { transferEnv with files := fun f => if f = b!"main" then some (bareText transferFile) else none } := by
  refine ⟨rfl, fun f => ?_⟩
  by_cases hf : f = b!"main"
  · subst hf
    exact .inr ⟨transferFile, transferFile_valid, by decide +kernel, rfl⟩
  · left
    have : ¬ (b!"main" = f) := fun h => hf h.symm
    simp [transferEnv, demoEnv, hf, this]

example : (match loadBook insSort transferEnv 1 b!"main" with | .ok bk => bk.post.length | _ => 0) = 2 := by decide +kernel

/-- C121 is false of the code: the costs in a file need not leave a single price. -/
theorem c121_price_recorded_fails : ¬ ∀ (e : Env), e.Ok → PlainLetters e → ∀ (ls : List CostedLine), (∀ l ∈ ls, l.Valid) →
    ∀ (f : Str), e.files f = some (costText ls) → ∀ (srt : List Posting → List Posting), IsSort srt → ∀ (depth : Nat) (bk : Book),
    loadBook srt e depth f = .ok bk → ∀ l c, CostedLine.costed l c ∈ ls → bk.prices ≠ [] := by
  intro h
  have h1 : (match loadBook insSort transferEnv 1 b!"main" with | .ok bk => decide (bk.prices = []) | _ => false) = true := by decide +kernel
  cases hl : loadBook insSort transferEnv 1 b!"main" with
  | ok bk =>
    rw [hl] at h1
    exact h transferEnv (demoEnv_ok _) (demo_letters _) transferFile transferFile_valid b!"main" (by decide +kernel) insSort insSort_isSort 1 bk hl
      buyLine buyCost (by simp [transferFile]) (of_decide_eq_true h1)
  | err => rw [hl] at h1; cases h1
  | fatal => rw [hl] at h1; cases h1
  | crash => rw [hl] at h1; cases h1
  | running => rw [hl] at h1; cases h1

/-- C121 is false of the code: a purchase that balances at cost is refused. -/
theorem c121_purchase_fails : ¬ ∀ (e : Env), e.Ok → PlainLetters e → ∀ (t : TxnLine), t.Valid → ∀ (ls : List CostedLine), (∀ l ∈ ls, l.Valid) →
    (∀ l ∈ ls, l.atCost ≠ none) → (∀ c, net c (ls.filterMap CostedLine.atCost) = 0) →
    ∀ (f : Str), e.files f = some (t.text ++ 10 :: costText ls) → ∀ (srt : List Posting → List Posting), IsSort srt →
    ∃ depth bk, loadBook srt e depth f = .ok bk := by
  intro h
  let t : TxnLine := {
    day := ⟨b!"2020", b!"01", b!"02"⟩, date := ⟨2020, 1, 2⟩, sp1 := [32], star := false, sp2 := [], quoted := false, payee := b!"Buy",
    note := ⟨none, [], []⟩ }
  have ht : t.Valid :=
    ⟨⟨by decide, by decide, by decide⟩, by decide, by decide, by decide, by decide, by decide, by decide, by decide,
      ⟨by decide, by rintro s ⟨⟩, by rintro s c r ⟨⟩⟩⟩
  let ls : List CostedLine := [.costed buyLine buyCost, .posting payLine]
  have hls : ∀ l ∈ ls, l.Valid := by
    intro l hl
    simp only [ls, List.mem_cons, List.not_mem_nil, or_false] at hl
    rcases hl with rfl | rfl
    · exact ⟨⟨buyLine_valid, by rintro n ⟨⟩⟩, buyCost_valid⟩
    · exact ⟨payLine_valid, by rintro n ⟨⟩⟩
  have hbal : ∀ c, net c (ls.filterMap CostedLine.atCost) = 0 := by
    intro c
    have : ls.filterMap CostedLine.atCost = [(b!"$", 50), (b!"$", -50)] := by decide +kernel
    rw [this]
    simp only [net, List.filter_cons, List.filter_nil]
    split <;> norm_num
  let e := demoEnv [(b!"main", t.text ++ 10 :: costText ls)]
  obtain ⟨depth, bk, hl⟩ := h e (demoEnv_ok _) (demo_letters _) t ht ls hls (by
    intro l hl
    simp only [ls, List.mem_cons, List.not_mem_nil, or_false] at hl
    rcases hl with rfl | rfl <;> simp [CostedLine.atCost]) hbal b!"main" (by simp [e, demoEnv]) insSort insSort_isSort
  -- without the cost the file does not balance
  let e' : Env := { e with files := fun f => if f = b!"main" then some (bareText (.other t.text :: ls)) else none }
  have hrem : CostsRemoved e e' := by
    refine ⟨rfl, fun f => ?_⟩
    by_cases hf : f = b!"main"
    · subst hf
      refine .inr ⟨.other t.text :: ls, ?_, by decide +kernel, rfl⟩
      intro l hl
      rcases List.mem_cons.1 hl with rfl | hl
      · show 0 ∉ t.text; decide
      · exact hls l hl
    · left
      have : ¬ (b!"main" = f) := fun h => hf h.symm
      simp [e', e, demoEnv, hf, this]
  rw [c121_costs_dropped_partial e rfl e' hrem] at hl
  let fs : Str → Option (List FileLine) := fun f => if f = b!"main" then some [.txn t, .posting buyLine, .posting payLine] else none
  have hd : OnDisk e' fs := by
    intro f l hf
    by_cases hm : f = b!"main"
    · subst hm
      cases hf
      refine ⟨by decide +kernel, fun l hl => ⟨?_, ?_⟩⟩
      · simp only [List.mem_cons, List.not_mem_nil, or_false] at hl
        rcases hl with rfl | rfl | rfl
        · exact ht
        · exact ⟨buyLine_valid, by rintro n ⟨⟩⟩
        · exact ⟨payLine_valid, by rintro n ⟨⟩⟩
      · rintro sp q g rfl
        simp at hl
    · simp [fs, hm] at hf
  refine c96_unbalanced_refused (e := e') (fun _ => List.Perm.refl _) ⟨(demo_letters []).letter, (demo_letters []).space⟩ hd (f := b!"main") rfl
    (.txn _ _ _ _ _ _ (.posting _ _ _ _ _ _ (.posting _ _ _ _ _ _ (.nil _ _ _)))) ?_ insSort depth bk hl
  refine ⟨[(b!"ACME", 10), (b!"$", -50)], ?_, fun hb => ?_⟩
  · simp only [segments]
    decide +kernel
  · have := hb b!"ACME"
    revert this
    decide +kernel

end Verif
