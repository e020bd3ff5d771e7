import Verif.Proofs.Loader3

/-! # C55, C56, C58, C59, C60: loading ledger files -/

namespace Verif
open Spec

/-! ## C55: the elided amount -/

theorem addElided_calls (acct note : Str) (ord : List (Str × Rat)) : ∀ b : Builder,
    b.calls ((ord.filter fun kv => decide (kv.2 ≠ 0)).map fun kv => .addPosting acct kv.1 (-kv.2) note) =
      some (addElided acct note ord b) := by
  induction ord with
  | nil => intro b; rfl
  | cons kv ord ih =>
    intro b
    by_cases h : kv.2 = 0
    · simp only [List.filter_cons, h]
      simpa [addElided, h] using ih b
    · simp only [List.filter_cons, h]
      simpa [addElided, h, Builder.calls, Builder.call] using ih (b.addPosting acct kv.1 (-kv.2) note)

theorem calls_addPostings_inv {acct note : Str} (adds : List (Str × Rat)) : ∀ {b b' : Builder} {cur}, OpenInv b cur →
    b.calls (adds.map fun kv => .addPosting acct kv.1 kv.2 note) = some b' → OpenInv b' (cur ++ adds) := by
  induction adds with
  | nil => intro b b' cur h hb; simp [Builder.calls] at hb; subst hb; simpa using h
  | cons kv adds ih =>
    intro b b' cur h hb
    simp only [List.map_cons, Builder.calls, Builder.call] at hb
    have := ih (addPosting_inv h acct kv.1 kv.2 note) hb
    simpa using this

theorem net_append (c : Str) (l r : List (Str × Rat)) : net c (l ++ r) = net c l + net c r := by
  simp [net]

theorem net_unique {l : List (Str × Rat)} (hn : (l.map (·.1)).Nodup) {c : Str} {v : Rat} (h : (c, v) ∈ l) : net c l = v := by
  induction l with
  | nil => simp at h
  | cons kv l ih =>
    simp only [List.map_cons, List.nodup_cons] at hn
    rcases List.mem_cons.1 h with h | h
    · subst h
      have : net c l = 0 := by
        unfold net
        have : (l.filter fun x => decide (x.1 = c)) = [] := by
          rw [List.filter_eq_nil_iff]
          intro x hx
          simp only [decide_eq_true_eq]
          intro hc
          exact hn.1 (List.mem_map.2 ⟨x, hx, hc⟩)
        rw [this]; rfl
      have e : net c ((c, v) :: l) = v + net c l := by simp [net]
      rw [e, this]; ring
    · have hne : kv.1 ≠ c := by
        rintro rfl
        exact hn.1 (List.mem_map.2 ⟨_, h, rfl⟩)
      have e : net c (kv :: l) = net c l := by simp [net, hne]
      rw [e]; exact ih hn.2 h

theorem net_absent {l : List (Str × Rat)} {c : Str} (h : c ∉ l.map (·.1)) : net c l = 0 := by
  unfold net
  have : (l.filter fun x => decide (x.1 = c)) = [] := by
    rw [List.filter_eq_nil_iff]
    intro x hx
    simp only [decide_eq_true_eq]
    intro hc
    exact h (by rw [← hc]; exact List.mem_map_of_mem hx)
  rw [this]; rfl

theorem amtFind_mem {m : List (Str × Rat)} (hn : (m.map (·.1)).Nodup) {c : Str} {v : Rat} (h : (c, v) ∈ m) : amtAt m c = v := by
  unfold amtAt
  induction m with
  | nil => simp at h
  | cons kv m ih =>
    simp only [List.map_cons, List.nodup_cons] at hn
    rcases List.mem_cons.1 h with h | h
    · subst h; simp [amtFind]
    · have hne : kv.1 ≠ c := by
        rintro rfl
        exact hn.1 (List.mem_map.2 ⟨_, h, rfl⟩)
      simp only [amtFind, hne, if_false]
      exact ih hn.2 h

theorem amtAt_ne_mem {m : List (Str × Rat)} {c : Str} (h : amtAt m c ≠ 0) : (c, amtAt m c) ∈ m := by
  unfold amtAt at h ⊢
  induction m with
  | nil => simp [amtFind] at h
  | cons kv m ih =>
    simp only [amtFind] at h ⊢
    split
    · rename_i hc; subst hc; simp
    · rename_i hc
      rw [if_neg hc] at h
      exact List.mem_cons_of_mem _ (ih h)

theorem addElided_post (acct note : Str) : ∀ (ord : List (Str × Rat)) (b : Builder),
    (addElided acct note ord b).post = b.post ++ (((ord.filter fun kv => decide (kv.2 ≠ 0)).map fun kv => (kv.1, -kv.2)).map
      fun cv => (⟨b.currDate, b.currPayee, b.currNote, acct, cv.1, cv.2, note, 0, 0, [], []⟩ : Posting))
  | [], b => by simp [addElided]
  | kv :: ord, b => by
    by_cases h : kv.2 = 0
    · have := addElided_post acct note ord b
      simp only [addElided, List.foldl_cons, h] at this ⊢
      simpa [h] using this
    · have := addElided_post acct note ord (b.addPosting acct kv.1 (-kv.2) note)
      simp only [addElided, List.foldl_cons] at this ⊢
      rw [if_pos h, this]
      simp [Builder.addPosting, h]

/-- C55: a posting line that consists of an account only adds, to that account, exactly the negation of
every non-zero open balance, one posting per currency (in whatever order the map is iterated), and
nothing else; the transaction then balances in every currency.  `cur` are the amounts added so far
to the open transaction. -/
theorem c55_elided_amount_balances (e : Env) (he : e.Ok) (als : Aliases) (cs : List Call) (b : Builder)
    (hb : Builder.new.calls cs = some b) (cur : List (Str × Rat)) (hcur : (segments [] cs).getLast? = some cur)
    (sp0 a sp1 rest : List Nat) (h0 : sp0 ≠ []) (hsp : ∀ c ∈ sp0 ++ sp1, blankChar c = true)
    (ha : a ≠ []) (har : ∀ c ∈ a, acctChar c = true) :
    ∃ (b' : Builder) (adds : List (Str × Rat)),
      parseStep e b als (sp0 ++ a ++ sp1 ++ 10 :: rest) = .go b' als rest ∧
      b.calls (adds.map fun cv => .addPosting (als.resolve a) cv.1 cv.2 []) = some b' ∧
      b'.post = b.post ++ adds.map (fun cv =>
        { date := b.currDate, payee := b.currPayee, tnote := b.currNote, acct := als.resolve a, ccy := cv.1, val := cv.2,
          note := [], bal := 0, acctlevel := 0, acctterm := [], acctsort := [] }) ∧
      (adds.map (·.1)).Nodup ∧
      (∀ c v, (c, v) ∈ adds ↔ net c cur ≠ 0 ∧ v = -net c cur) ∧
      SegBalanced (cur ++ adds) := by
  have hinv : OpenInv b cur := (calls_iff cs Builder.new [] openInv_new).2 b hb cur hcur
  have hb0 : ∀ c ∈ sp0, isBlank c = true := fun c hc => hsp c (by simp [hc])
  have hb1 : ∀ c ∈ sp1, isBlank c = true := fun c hc => hsp c (by simp [hc])
  obtain ⟨x, xs, hx⟩ := List.exists_cons_of_ne_nil ha
  have hxf := acct_facts (har x (by rw [hx]; simp))
  have hline : parsePostingLine als (a ++ (sp1 ++ 10 :: rest)) = some ((als.resolve a, [], 0, []), rest) := by
    have hend : ∀ c, (sp1 ++ 10 :: rest).head? = some c → isBlank c = true ∨ c = 10 := by
      intro c hc
      cases hs : sp1 with
      | nil => rw [hs] at hc; simp at hc; right; exact hc.symm
      | cons y ys => rw [hs] at hc; simp at hc; left; rw [← hc]; exact hb1 y (by rw [hs]; simp)
    have hws : ∀ z, consumeWS (a ++ z) = a ++ z := by
      intro z
      have := ws_exact (bl := []) (x := a ++ z) (by simp) (by intro c hc; rw [hx] at hc; simp at hc; rw [← hc]; exact hxf.1)
      simpa using this
    have hgap : consumeWS (sp1 ++ 10 :: rest) = 10 :: rest := ws_exact hb1 (by intro c hc; simp at hc; rw [← hc]; decide)
    have hnl : ∀ r, consumeWS (10 :: r) = 10 :: r := fun r => rfl
    unfold parsePostingLine
    simp only [hws, parseAccount_exact ha har hend, hgap]
    simp [optMinus, Reader.ch, parseCCYAmt, isCCYRune, parseAmt, hnl, amtLoop, isDigit, newRat, parseCCY, skipAtPrice, parseNote,
      skipEOL, Reader.next]
  refine ⟨addElided (als.resolve a) [] (e.ord b) b, ((e.ord b).filter fun kv => decide (kv.2 ≠ 0)).map fun kv => (kv.1, -kv.2), ?_, ?_, ?_, ?_, ?_, ?_⟩
  · have hws : consumeWS (sp0 ++ (a ++ (sp1 ++ 10 :: rest))) = a ++ (sp1 ++ 10 :: rest) :=
      ws_exact hb0 (by intro c hc; rw [hx] at hc; simp at hc; rw [← hc]; exact hxf.1)
    have e1 : sp0 ++ a ++ sp1 ++ 10 :: rest = sp0 ++ (a ++ (sp1 ++ 10 :: rest)) := by simp
    have hch : Reader.ch (a ++ (sp1 ++ 10 :: rest)) = x := by rw [hx]; rfl
    have hlen : ¬ ((a ++ (sp1 ++ 10 :: rest)).length = (sp0 ++ (a ++ (sp1 ++ 10 :: rest))).length) := by
      have : sp0.length ≠ 0 := by simpa using h0
      simp; omega
    rw [e1]
    unfold parseStep
    simp only [hws, hch]
    rw [if_neg (by simp [hxf]), if_neg hlen, hline]
    simp only [postingEffect, if_true]
  · have := addElided_calls (als.resolve a) [] (e.ord b) b
    rw [← this, List.map_map]
    rfl
  · exact addElided_post _ _ _ _
  · rw [List.map_map]
    have h1 : (((e.ord b).filter fun kv => decide (kv.2 ≠ 0)).map (·.1)).Nodup := by
      apply List.Nodup.sublist (List.Sublist.map _ List.filter_sublist)
      exact ((he b).map _).nodup_iff.2 hinv.keys
    exact h1
  · intro c v
    simp only [List.mem_map, List.mem_filter, decide_eq_true_eq, Prod.exists, Prod.mk.injEq]
    constructor
    · rintro ⟨c', v', ⟨h1, h2⟩, rfl, rfl⟩
      have := amtFind_mem hinv.keys ((he b).mem_iff.1 h1)
      rw [← hinv.amt, this]
      exact ⟨h2, rfl⟩
    · rintro ⟨h1, rfl⟩
      rw [← hinv.amt] at h1 ⊢
      exact ⟨c, _, ⟨(he b).mem_iff.2 (amtAt_ne_mem h1), h1⟩, rfl, rfl⟩
  · intro c
    rw [net_append]
    have hmem : ∀ v, (c, v) ∈ (((e.ord b).filter fun kv => decide (kv.2 ≠ 0)).map fun kv => (kv.1, -kv.2)) ↔ net c cur ≠ 0 ∧ v = -net c cur := by
      intro v
      simp only [List.mem_map, List.mem_filter, decide_eq_true_eq, Prod.exists, Prod.mk.injEq]
      constructor
      · rintro ⟨c', v', ⟨h1, h2⟩, rfl, rfl⟩
        have := amtFind_mem hinv.keys ((he b).mem_iff.1 h1)
        rw [← hinv.amt, this]
        exact ⟨h2, rfl⟩
      · rintro ⟨h1, rfl⟩
        rw [← hinv.amt] at h1 ⊢
        exact ⟨c, _, ⟨(he b).mem_iff.2 (amtAt_ne_mem h1), h1⟩, rfl, rfl⟩
    by_cases h : net c cur = 0
    · rw [h, net_absent]; · simp
      intro hc
      obtain ⟨⟨c', v⟩, hv, hc⟩ := List.mem_map.1 hc
      simp only at hc
      subst hc
      exact ((hmem v).1 hv).1 h
    · have hnd : ((((e.ord b).filter fun kv => decide (kv.2 ≠ 0)).map fun kv => (kv.1, -kv.2)).map (·.1)).Nodup := by
        rw [List.map_map]
        apply List.Nodup.sublist (List.Sublist.map _ List.filter_sublist)
        exact ((he b).map _).nodup_iff.2 hinv.keys
      rw [net_unique hnd ((hmem _).2 ⟨h, rfl⟩)]
      ring

/-- Non-vacuity: a transaction with two open currencies. -/
def openCalls : List Call :=
  [.newTransaction 20200101 b!"Shop" [], .addPosting b!"A" b!"EUR" 10 [], .addPosting b!"B" b!"USD" (-3) []]

example : (∃ b, Builder.new.calls openCalls = some b) ∧
    (segments [] openCalls).getLast? = some [(b!"EUR", 10), (b!"USD", -3)] ∧
    ((Builder.new.calls openCalls).map fun b =>
      (match (generalizing := false) parseStep (demoEnv []) b [] b!"  Bank\n" with
        | .go b' _ _ => b'.post.map fun p => decide (p.acct = b!"Bank" ∧ (p.val = -10 ∨ p.val = 3))
        | _ => [])) = some [false, false, true, true] := by
  refine ⟨⟨_, rfl⟩, rfl, ?_⟩
  decide +kernel

/-! ## C56 -/

/-- C56, the part that holds: a posting line that names its currency (before or after the amount, quoted
or not) adds exactly one posting, with exactly the amount written.  Missing: lines without
currency. -/
theorem c56_posting_line_exact_partial (e : Env) (b : Builder) (als : Aliases) (l : PostLine) (hv : l.Valid)
    (hn : ∀ n, l.note = some n → l.sp3 ≠ []) (rest : List Nat) :
    parseStep e b als (l.text ++ 10 :: rest) =
      .go (b.addPosting (als.resolve l.acct) l.ccy l.amount (l.note.getD [])) als rest := by
  have hb0 : ∀ c ∈ l.sp0, isBlank c = true := fun c hc => hv.blanks c (by simp [hc])
  obtain ⟨x, xs, hx⟩ := List.exists_cons_of_ne_nil hv.acct.1
  have hxf := acct_facts (hv.acct.2 x (by rw [hx]; simp))
  have hline := parsePostingLine_exact als hv hn rest
  have e1 : l.text ++ 10 :: rest = l.sp0 ++ (l.acct ++ l.sp1 ++ (if l.minus then [45] else []) ++ l.amtText ++ l.noteText ++ 10 :: rest) := by
    simp [PostLine.text]
  have hch : Reader.ch (l.acct ++ l.sp1 ++ (if l.minus then [45] else []) ++ l.amtText ++ l.noteText ++ 10 :: rest) = x := by
    rw [hx]; rfl
  have hws : consumeWS (l.sp0 ++ (l.acct ++ l.sp1 ++ (if l.minus then [45] else []) ++ l.amtText ++ l.noteText ++ 10 :: rest)) =
      l.acct ++ l.sp1 ++ (if l.minus then [45] else []) ++ l.amtText ++ l.noteText ++ 10 :: rest :=
    ws_exact hb0 (by intro c hc; rw [hx] at hc; simp at hc; rw [← hc]; exact hxf.1)
  have hlen : ∀ z : List Nat, ¬ (z.length = (l.sp0 ++ z).length) := by
    intro z
    have : l.sp0.length ≠ 0 := by simpa using hv.indent
    simp only [List.length_append]; omega
  rw [e1]
  unfold parseStep
  simp only [hws, hch]
  rw [if_neg (by simp [hxf]), if_neg (hlen _), hline]
  simp only [postingEffect, if_neg hv.ccy]

/-- C56, in terms of the stored postings: the line adds one posting, dated and named like the open
transaction, with the account, currency, amount and note that are written.  Missing: lines without
currency. -/
theorem c56_posting_stored_partial (e : Env) (b : Builder) (als : Aliases) (l : PostLine) (hv : l.Valid)
    (hn : ∀ n, l.note = some n → l.sp3 ≠ []) (rest : List Nat) :
    ∃ b', parseStep e b als (l.text ++ 10 :: rest) = .go b' als rest ∧
      b'.post = b.post ++ [
        { date := b.currDate, payee := b.currPayee, tnote := b.currNote, acct := als.resolve l.acct,
          ccy := l.ccy, val := l.amount, note := l.note.getD [], bal := 0, acctlevel := 0, acctterm := [], acctsort := [] }] :=
  ⟨_, c56_posting_line_exact_partial e b als l hv hn rest, rfl⟩

/-- A line: "  Assets:Bank  -$1,234.50  ; rent". -/
def demoLine : PostLine :=
  { acct := b!"Assets:Bank", minus := true, ccyFirst := true, quoted := false, ccy := b!"$",
    num := ⟨false, b!"1,234", some b!"50"⟩, note := some b!"rent",
    sp0 := b!"  ", sp1 := b!"  ", sp2 := [], sp3 := b!"  ", sp4 := b!" " }

example : demoLine.Valid ∧ demoLine.text = b!"  Assets:Bank  -$1,234.50  ; rent" ∧ demoLine.amount = -2469 / 2 := by
  refine ⟨?_, by decide, by decide +kernel⟩
  refine ⟨by decide, by decide, by decide, by decide, ⟨⟨by decide, ?_⟩, by decide, by decide⟩, ⟨49, b!",234", rfl, by decide⟩, by decide,
    fun _ => by decide, fun _ c r h => ?_, fun h => by simp [demoLine] at h, fun n h => ?_⟩
  · intro f hf; cases hf; decide
  · cases h; exact ⟨by decide, fun h => by simp [demoLine] at h⟩
  · cases h
    refine ⟨by decide, ?_⟩
    intro c r h; cases h; decide

/-- C56 is false of the code: in "  B 100" the amount is read and dropped, and the open balance is
posted instead. -/
theorem c56_amount_ignored_fails : ¬ ∀ (e : Env), e.Ok → ∀ (b : Builder) (als : Aliases) (a ccy note : Str) (v : Rat) (s rest : Reader),
    parsePostingLine als s = some ((a, ccy, v, note), rest) → v ≠ 0 →
    ∃ p ∈ (postingEffect e.ord (a, ccy, v, note) b).post.drop b.post.length, p.val = v := by
  intro h
  have hp : parsePostingLine [] b!"B 100\n" = some ((b!"B", [], 100, []), []) := by decide +kernel
  obtain ⟨b, hb⟩ : ∃ b, Builder.new.calls openCalls = some b := ⟨_, rfl⟩
  obtain ⟨p, h1, h2⟩ := h (demoEnv []) (demoEnv_ok []) b [] _ _ _ _ _ _ hp (by decide)
  have : ((Builder.new.calls openCalls).map fun b =>
      (((postingEffect (demoEnv []).ord (b!"B", [], 100, []) b).post.drop b.post.length).all fun p => decide (p.val ≠ 100))) = some true := by
    decide +kernel
  rw [hb] at this
  simp only [Option.map_some, Option.some.injEq, List.all_eq_true, decide_eq_true_eq] at this
  exact this p h1 h2

/-! ## C58: termination -/

theorem includeText_of_step {e : Env} {b : Builder} {als : Aliases} {s s' : Reader} {f : Str}
    (h : parseStep e b als s = .incl f s') : IncludeText e s f := by
  simp only [parseStep] at h
  split at h
  · cases h
  split at h
  · split at h
    · cases h
    split at h
    · split at h <;> cases h
    split at h
    · split at h
      · cases h
      · split at h <;> cases h
    split at h
    · rename_i hcmd
      split at h
      · cases h
      · rename_i p hu
        cases h
        -- the text: blanks, word, blanks, blanks, file name, rest
        let s1 := consumeWS (consumeWS s)
        let w := s1.takeWhile e.isIdent
        let s2 := s1.dropWhile e.isIdent
        let s3 := consumeWS s2
        let s4 := consumeWS s3
        have hs1 : ∃ pre, s = pre ++ s1 := by
          obtain ⟨u, hu⟩ := (consumeWS_suf (consumeWS s)).trans (consumeWS_suf s)
          exact ⟨u, hu.symm⟩
        have hs2 : s1 = w ++ s2 := (List.takeWhile_append_dropWhile).symm
        have hs3 : ∃ sp, s2 = sp ++ s4 ∧ ∀ c ∈ sp, isSpace c = true := by
          refine ⟨s2.takeWhile isBlank ++ s3.takeWhile isBlank, ?_, ?_⟩
          · have e1 : s2 = s2.takeWhile isBlank ++ s3 := (List.takeWhile_append_dropWhile).symm
            have e2 : s3 = s3.takeWhile isBlank ++ s4 := (List.takeWhile_append_dropWhile).symm
            rw [List.append_assoc, ← e2, ← e1]
          · intro c hc
            have hbl : ∀ (x : List Nat), ∀ c ∈ x.takeWhile isBlank, isSpace c = true := by
              intro x c hc
              have := List.all_takeWhile (l := x) (p := isBlank)
              rw [List.all_eq_true] at this
              have := this c hc
              simp only [isBlank, Bool.and_eq_true] at this
              exact this.1
            rcases List.mem_append.1 hc with hc | hc
            · exact hbl _ _ hc
            · exact hbl _ _ hc
        obtain ⟨pre, hpre⟩ := hs1
        obtain ⟨sp, hsp, hspb⟩ := hs3
        have hs4 : s4 = s4.takeWhile inLine ++ s4.dropWhile inLine := (List.takeWhile_append_dropWhile).symm
        refine ⟨pre, w, sp, s4.takeWhile inLine, s4.dropWhile inLine, ?_, hcmd, hspb, ?_, ?_, ?_, ?_⟩
        · rw [hpre, hs2, hsp]
          conv_lhs => rw [hs4]
          simp
        · intro c r hc
          have hd : s4.head? = some c := by rw [hs4, hc]; rfl
          have := List.head?_dropWhile_not isBlank s3
          rw [show s3.dropWhile isBlank = s4 from rfl, hd] at this
          simpa [blankChar_eq] using this
        · have := List.all_takeWhile (l := s4) (p := inLine)
          rw [List.all_eq_true] at this
          exact this
        · intro c r hc
          have := List.head?_dropWhile_not inLine s4
          rw [hc] at this
          simpa [lineChar_eq] using this
        · change unquote (s4.takeWhile inLine) = some f at hu
          generalize s4.takeWhile inLine = p at hu
          cases p with
          | nil => simp [unquote] at hu
          | cons c r =>
            simp only [unquote] at hu
            split at hu
            · rename_i hq
              cases r with
              | nil => cases hu
              | cons y ys =>
                simp only [Option.some.injEq] at hu
                right
                rw [← hu, hq.1]
                have hl := hq.2
                rw [List.getLast?_cons_cons] at hl
                rw [List.cons_append, List.dropLast_append_getLast? 34 (by rw [hl]; rfl)]
            · left; cases hu; rfl
    · split at h
      · split at h <;> cases h
      · cases h
  · split at h <;> cases h

/-- C58, the part that holds: if no file includes itself, directly or through others (there is a rank
that decreases along includes), `ParseFile` terminates, on every contents of the files and from
every state.  Missing: cyclic includes. -/
theorem c58_acyclic_terminates_partial (e : Env) (rank : Str → Nat)
    (hrank : ∀ f g, MayInclude e f g → rank g < rank f) :
    ∀ (f : Str) (b : Builder), ∃ depth, parseFile e depth b f ≠ .running := by
  have main : ∀ n f, rank f < n → ∀ b als, parseFileLocal e n b als f ≠ .running := by
    intro n
    induction n with
    | zero => intro f h; omega
    | succ n ih =>
      intro f hf b als
      unfold parseFileLocal
      cases hc : e.files f with
      | none => simp
      | some content =>
        simp only
        have loop : ∀ (fuel : Nat) (s : Reader) (b : Builder) (als : Aliases), s <:+ content → s.length < fuel →
            parseLoop e f (parseFileLocal e n) fuel b als s ≠ .running := by
          intro fuel
          induction fuel with
          | zero => intro s b als _ h; omega
          | succ fuel ihf =>
            intro s b als hsuf hlen
            unfold parseLoop
            split
            · simp
            · rename_i hch
              obtain ⟨l1, l2⟩ := parseStep_lt (e := e) (b := b) (als := als) hch
              have hs := parseStep_suf e b als s
              cases hst : parseStep e b als s with
              | stop => simp
              | go b' als' s' =>
                rw [hst] at hs
                have := l1 _ _ _ hst
                exact ihf s' b' als' (List.IsSuffix.trans hs hsuf) (by omega)
              | incl g s' =>
                rw [hst] at hs
                have hlt := l2 _ _ hst
                have hinc := includeText_of_step hst
                have hr : rank (e.join f g) < rank f := by
                  apply hrank
                  refine ⟨content, g, hc, ?_, rfl⟩
                  obtain ⟨u, hu⟩ := hsuf
                  obtain ⟨pre, w, sp, p, post, h1, h2⟩ := hinc
                  refine ⟨u ++ pre, w, sp, p, post, ?_, h2⟩
                  rw [← hu, h1]; simp
                have hne := ih (e.join f g) (by omega) b als
                simp only
                cases hi : parseFileLocal e n b als (e.join f g) with
                | running => exact absurd hi hne
                | ok b2 a2 => exact ihf s' b2 als (List.IsSuffix.trans hs hsuf) (by omega)
                | err => simp
                | fatal => simp
        exact loop _ content b als (List.suffix_refl _) (by omega)
  intro f b
  exact ⟨rank f + 1, main _ f (by omega) b []⟩

/-- Non-vacuity: two files, the first including the second; the rank is 1 for the first. -/
def twoFiles : Env := demoEnv [(b!"a", b!"include b\n"), (b!"b", b!"2020/01/01 P\n  A 1 X\n  B\n")]

theorem twoFiles_rank : ∀ f g, MayInclude twoFiles f g → (if g = b!"a" then 1 else 0) < (if f = b!"a" then 1 else 0) := by
  rintro f g ⟨content, i, hf, ⟨pre, w, sp, p, post, h1, h2, _, _, _, _, h3⟩, rfl⟩
  have hlen : w.length = 7 := by
    have := congrArg List.length h2
    simpa using this
  have hw : w = (content.drop pre.length).take 7 := by
    rw [h1]; simp [← hlen]
  have hrest : ∀ c ∈ g, c ∈ content.drop (pre.length + 7) := by
    intro c hc
    have : c ∈ p := by
      rcases h3 with h | h
      · rw [← h]; exact hc
      · rw [← h]; simp [hc]
    rw [h1]
    simp [List.drop_append, ← hlen, this]
  by_cases ha : f = b!"a"
  · subst ha
    have hc : content = b!"include b\n" := by
      have : twoFiles.files b!"a" = some b!"include b\n" := by decide
      rw [this] at hf; cases hf; rfl
    rw [if_pos rfl, if_neg]
    · omega
    · rintro rfl
      have := hrest 97 (by simp)
      rw [hc] at this
      have h97 : 97 ∉ b!"include b\n".drop 7 := by decide
      apply h97
      have hd : ∀ k, (b!"include b\n").drop (k + 7) <:+ (b!"include b\n").drop 7 := by
        intro k; rw [Nat.add_comm, ← List.drop_drop]; exact List.drop_suffix _ _
      exact (hd pre.length).subset this
  · exfalso
    by_cases hb : f = b!"b"
    · subst hb
      have hc : content = b!"2020/01/01 P\n  A 1 X\n  B\n" := by
        have : twoFiles.files b!"b" = some b!"2020/01/01 P\n  A 1 X\n  B\n" := by decide
        rw [this] at hf; cases hf; rfl
      have hL : (73 : Nat) ∈ w.map twoFiles.upper := by rw [h2]; decide
      obtain ⟨x, hx, hx2⟩ := List.mem_map.1 hL
      have hxc : x ∈ content := by rw [h1]; simp [hx]
      rw [hc] at hxc
      revert hx2
      have : ∀ x ∈ b!"2020/01/01 P\n  A 1 X\n  B\n", twoFiles.upper x ≠ 73 := by decide
      exact this x hxc
    · have : twoFiles.files f = none := by
        simp only [twoFiles, demoEnv]
        simp [List.find?, Ne.symm ha, Ne.symm hb]
      rw [this] at hf; cases hf

example : (match parseFile twoFiles 2 Builder.new b!"a" with | .ok b _ => b.post.length | _ => 0) = 2 := by decide +kernel

/-- C58 is false of the code: a file that includes itself is never read to the end, however deep the
nesting goes. -/
theorem c58_cyclic_include_fails : ¬ ∀ (e : Env) (f : Str) (b : Builder), ∃ depth, parseFile e depth b f ≠ .running := by
  intro h
  obtain ⟨depth, hd⟩ := h (demoEnv [(b!"a", b!"include a\n")]) b!"a" Builder.new
  have main : ∀ depth b, parseFileLocal (demoEnv [(b!"a", b!"include a\n")]) depth b [] b!"a" = .running := by
    intro depth
    induction depth with
    | zero => intro b; rfl
    | succ n ih =>
      intro b
      have hf : (demoEnv [(b!"a", b!"include a\n")]).files b!"a" = some b!"include a\n" := by decide
      have hst : parseStep (demoEnv [(b!"a", b!"include a\n")]) b [] b!"include a\n" = .incl b!"a" [10] := rfl
      unfold parseFileLocal
      rw [hf]
      simp only
      unfold parseLoop
      rw [hst]
      have hj : (demoEnv [(b!"a", b!"include a\n")]).join b!"a" b!"a" = b!"a" := rfl
      simp only [hj, ih]
      rfl
  exact hd (main depth Builder.new)

/-! ## C59: unbalanced transactions -/

theorem postingEffect_calls (ord : Builder → List (Str × Rat)) (l : Str × Str × Rat × Str) (b : Builder) :
    ∃ cs, b.calls cs = some (postingEffect ord l b) := by
  unfold postingEffect
  split
  · exact ⟨_, addElided_calls _ _ _ b⟩
  · exact ⟨[.addPosting l.1 l.2.1 l.2.2.1 l.2.2.2], rfl⟩

theorem parseStep_calls {e : Env} {b b' : Builder} {als als' : Aliases} {s s' : Reader}
    (h : parseStep e b als s = .go b' als' s') : ∃ cs, b.calls cs = some b' := by
  simp only [parseStep] at h
  split at h
  · cases h; exact ⟨[], rfl⟩
  split at h
  · split at h
    · cases h; exact ⟨[], rfl⟩
    split at h
    · split at h
      · cases h
      · cases h; exact ⟨[.addPrice _ _ _ _], rfl⟩
    split at h
    · split at h
      · cases h
      · split at h
        · cases h
        · rename_i d p n _ _ _ _ h1
          cases h
          exact ⟨[.newTransaction d p n], by simp only [Builder.calls, Builder.call, h1]⟩
    split at h
    · split at h <;> cases h
    · split at h
      · split at h
        · cases h
        · cases h; exact ⟨[], rfl⟩
      · cases h
  · split at h
    · cases h
    · cases h; exact postingEffect_calls _ _ _

theorem calls_trans {b b1 b2 : Builder} {cs1 cs2 : List Call} (h1 : b.calls cs1 = some b1) (h2 : b1.calls cs2 = some b2) :
    b.calls (cs1 ++ cs2) = some b2 := by
  induction cs1 generalizing b with
  | nil => simp [Builder.calls] at h1; subst h1; exact h2
  | cons c cs ih =>
    simp only [Builder.calls, List.cons_append] at h1 ⊢
    cases hc : b.call c with
    | none => rw [hc] at h1; cases h1
    | some b' => rw [hc] at h1; exact ih h1

theorem parseLoop_calls {e : Env} {fn : Str} {inc : Builder → Aliases → Str → Outcome}
    (hinc : ∀ b als f b' als', inc b als f = .ok b' als' → ∃ cs, b.calls cs = some b') :
    ∀ (n : Nat) (b : Builder) (als : Aliases) (s : Reader) (b' : Builder) (als' : Aliases),
      parseLoop e fn inc n b als s = .ok b' als' → ∃ cs, b.calls cs = some b' := by
  intro n
  induction n with
  | zero => intro b als s b' als' h; cases h
  | succ n ih =>
    intro b als s b' als' h
    unfold parseLoop at h
    split at h
    · cases h; exact ⟨[], rfl⟩
    · cases hst : parseStep e b als s with
      | stop => rw [hst] at h; cases h
      | go b1 als1 s1 =>
        rw [hst] at h
        obtain ⟨c1, h1⟩ := parseStep_calls hst
        obtain ⟨c2, h2⟩ := ih _ _ _ _ _ h
        exact ⟨c1 ++ c2, calls_trans h1 h2⟩
      | incl f s1 =>
        rw [hst] at h
        simp only at h
        cases hi : inc b als (e.join fn f) with
        | ok b1 als1 =>
          rw [hi] at h
          obtain ⟨c1, h1⟩ := hinc _ _ _ _ _ hi
          obtain ⟨c2, h2⟩ := ih _ _ _ _ _ h
          exact ⟨c1 ++ c2, calls_trans h1 h2⟩
        | err => rw [hi] at h; cases h
        | fatal => rw [hi] at h; cases h
        | running => rw [hi] at h; cases h

/-- Whatever a file does to the builder, it does by calling it. -/
theorem parseFileLocal_calls (e : Env) : ∀ (depth : Nat) (b : Builder) (als : Aliases) (f : Str) (b' : Builder) (als' : Aliases),
    parseFileLocal e depth b als f = .ok b' als' → ∃ cs, b.calls cs = some b' := by
  intro depth
  induction depth with
  | zero => intro b als f b' als' h; cases h
  | succ n ih =>
    intro b als f b' als' h
    unfold parseFileLocal at h
    split at h
    · cases h
    · exact parseLoop_calls ih _ _ _ _ _ _ h

/-- C59 (a), holds: a book is only returned if the loader's calls were balanced, transaction by
transaction; so no unbalanced ledger is ever accepted. -/
theorem c59_loaded_book_balanced_partial (srt : List Posting → List Posting) (hs : IsSort srt) (e : Env) (depth : Nat) (f : Str)
    (bk : Book) (h : loadBook srt e depth f = .ok bk) :
    (∃ cs b, Builder.new.calls cs = some b ∧ b.build srt = some bk ∧ ∀ s ∈ segments [] cs, SegBalanced s) ∧
    Balanced bk.post := by
  unfold loadBook at h
  split at h <;> try cases h
  rename_i b als hb
  split at h <;> try cases h
  rename_i hbk
  obtain ⟨cs, hcs⟩ := parseFileLocal_calls e depth _ _ _ _ _ hb
  refine ⟨⟨cs, b, hcs, hbk, (c01_build_iff_balanced srt cs).1 ⟨bk, by rw [hcs]; exact hbk⟩⟩, (built_balanced hs hcs hbk).2⟩

/-- C59 (b), holds: when the transaction open at the end of the complete lines `s` does not balance
and another transaction follows (`t` begins with a digit), reading ends with an error. -/
theorem c59_unbalanced_before_another_partial (e : Env) (he : e.letter 10 = false) (depth : Nat) (fn : Str)
    (s t : List Nat) (h0 : 0 ∉ s) (hl : Lines s) (b : Builder) (als : Aliases)
    (hs : readText e depth fn Builder.new [] s = .ok b als)
    (cs : List Call) (hcs : Builder.new.calls cs = some b) (cur : List (Str × Rat))
    (hcur : (segments [] cs).getLast? = some cur) (hun : ¬ SegBalanced cur)
    (ht : ∃ c r, t = c :: r ∧ isDigit c = true) :
    readText e depth fn Builder.new [] (s ++ t) = .err := by
  have hinv : OpenInv b cur := (calls_iff cs Builder.new [] openInv_new).2 b hcs cur hcur
  unfold readText at hs ⊢
  rw [parseLoop_append e he fn _ t s.length s rfl h0 hl, hs]
  simp only [Outcome.andThen]
  obtain ⟨c, r, rfl, hc⟩ := ht
  have hcd : 48 ≤ c ∧ c ≤ 57 := by simpa [isDigit] using hc
  have hcf := digit_facts hc
  unfold parseLoop
  rw [if_neg (by simp [Reader.ch]; omega)]
  have hws : consumeWS (c :: r) = c :: r := by
    have := ws_exact (bl := []) (x := c :: r) (by simp) (by intro c' hc'; simp at hc'; rw [← hc']; exact hcf.1)
    simpa using this
  have hch : Reader.ch (c :: r) = c := rfl
  have hst : parseStep e b als (c :: r) = .stop := by
    unfold parseStep
    simp only [hws, hch]
    rw [if_neg (by omega), if_pos trivial, if_neg (by omega), if_neg (by omega), if_pos hc]
    split
    · rfl
    · rename_i d p n _ _
      cases hn : b.newTransaction d p n with
      | none => rfl
      | some b' => exact absurd ((newTransaction_iff hinv d p n).1 ⟨b', hn⟩) hun
  rw [hst]

/-- C59 (c), holds: `LoadBook` crashes only if the last transaction does not balance while all the
others do; every other unbalanced ledger is an error. -/
theorem c59_crash_only_last_partial (srt : List Posting → List Posting) (e : Env) (depth : Nat) (f : Str) :
    loadBook srt e depth f = .crash ↔
      ∃ cs b als cur, parseFile e depth Builder.new f = .ok b als ∧ Builder.new.calls cs = some b ∧
        (segments [] cs).getLast? = some cur ∧ (∀ s ∈ (segments [] cs).dropLast, SegBalanced s) ∧ ¬ SegBalanced cur := by
  constructor
  · intro h
    unfold loadBook at h
    split at h <;> try cases h
    rename_i b als hb
    split at h <;> try cases h
    rename_i hbk
    obtain ⟨cs, hcs⟩ := parseFileLocal_calls e depth _ _ _ _ _ hb
    obtain ⟨h1, h2⟩ := calls_iff cs Builder.new [] openInv_new
    have hall := h1.1 ⟨b, hcs⟩
    cases hcur : (segments [] cs).getLast? with
    | none =>
      rw [List.getLast?_eq_none_iff] at hcur
      have := (c01_build_iff_balanced srt cs).2 (by rw [hcur]; simp)
      rw [hcs] at this
      obtain ⟨bk, hbk'⟩ := this
      simp only [Option.bind_some] at hbk'
      rw [hbk] at hbk'; cases hbk'
    | some cur =>
      refine ⟨cs, b, als, cur, hb, hcs, hcur, hall, ?_⟩
      intro hb'
      obtain ⟨b1, hb1⟩ := (checkAndClear_iff (h2 b hcs cur hcur)).2 hb'
      unfold Builder.build at hbk
      rw [hb1] at hbk
      cases hbk
  · rintro ⟨cs, b, als, cur, hb, hcs, hcur, hall, hun⟩
    have hinv := (calls_iff cs Builder.new [] openInv_new).2 b hcs cur hcur
    unfold loadBook
    rw [hb]
    have : b.build srt = none := by
      unfold Builder.build
      cases hc : b.checkAndClear with
      | none => rfl
      | some b1 => exact absurd ((checkAndClear_iff hinv).1 ⟨b1, hc⟩) hun
    simp only [this]

/-- A ledger whose last transaction does not balance. -/
def unbalancedEnd : Env := demoEnv [(b!"a", b!"2020/01/01 P\n  A 1 X\n  B -1 X\n2020/01/02 Q\n  A 1 X\n")]

/-- C59 is false of the code: if the last transaction does not balance, `LoadBook` crashes (Build
panics outside the recovery of ParseFile) instead of returning an error. -/
theorem c59_last_unbalanced_fails : ¬ ∀ (srt : List Posting → List Posting) (e : Env) (depth : Nat) (f : Str),
    loadBook srt e depth f ≠ .crash := by
  intro h
  have hm : (match loadBook id unbalancedEnd 1 b!"a" with | .crash => true | _ => false) = true := by decide +kernel
  apply h id unbalancedEnd 1 b!"a"
  revert hm
  cases loadBook id unbalancedEnd 1 b!"a" <;> simp

/-- Non-vacuity of (a) and (b): a balanced file is loaded, and with the unbalanced transaction in
the middle it is an error. -/
example : (match loadBook id twoFiles 2 b!"a" with | .ok bk => bk.post.length | _ => 0) = 2 ∧
    (match loadBook id (demoEnv [(b!"a", b!"2020/01/01 P\n  A 1 X\n2020/01/02 Q\n")]) 1 b!"a" with | .err => true | _ => false) = true := by
  decide +kernel

/-! ## C60: the whole file -/

/-- C60, the part that holds: reading complete lines without NUL followed by more text is reading the
lines, and then the rest in the state they left: nothing is skipped, whatever the split.  Missing:
files that contain a NUL. -/
theorem c60_reads_on_partial (e : Env) (he : e.letter 10 = false) (depth : Nat) (fn : Str) (b : Builder) (als : Aliases)
    (s t : List Nat) (h0 : 0 ∉ s) (hl : Lines s) :
    readText e depth fn b als (s ++ t) =
      (readText e depth fn b als s).andThen fun b als => readText e depth fn b als t :=
  parseLoop_append e he fn _ t s.length s rfl h0 hl b als

/-- C60, line by line: a file of complete lines without NUL is read line after line, in order, each in
the state left by the previous one, up to the first that fails. -/
theorem c60_line_by_line_partial (e : Env) (he : e.letter 10 = false) (depth : Nat) (fn : Str) (lines : List (List Nat))
    (h : ∀ l ∈ lines, 0 ∉ l) : ∀ (b : Builder) (als : Aliases),
    readText e depth fn b als (lines.flatMap fun l => l ++ [10]) = readAll e depth fn b als (lines.map fun l => l ++ [10]) := by
  induction lines with
  | nil => intro b als; rfl
  | cons l ls ih =>
    intro b als
    simp only [List.flatMap_cons, List.map_cons, readAll]
    rw [c60_reads_on_partial e he depth fn b als (l ++ [10]) _ (by simpa using h l (by simp)) (Or.inr ⟨l, rfl⟩)]
    cases readText e depth fn b als (l ++ [10]) with
    | ok b' als' => exact ih (fun x hx => h x (by simp [hx])) b' als'
    | err => rfl
    | fatal => rfl
    | running => rfl

/-- and this is what `ParseFile` does with a file. -/
theorem c60_file_partial (e : Env) (he : e.letter 10 = false) (depth : Nat) (fn : Str) (lines : List (List Nat))
    (h : ∀ l ∈ lines, 0 ∉ l) (hf : e.files fn = some (lines.flatMap fun l => l ++ [10])) (b : Builder) :
    parseFile e (depth + 1) b fn = readAll e depth fn b [] (lines.map fun l => l ++ [10]) := by
  rw [← c60_line_by_line_partial e he depth fn lines h]
  unfold parseFile parseFileLocal readText
  rw [hf]

/-- C60 is false of the code: text after a NUL is silently ignored. -/
theorem c60_nul_fails : ¬ ∀ (e : Env), e.letter 10 = false → ∀ (depth : Nat) (fn : Str) (s t : List Nat), Lines s →
    readText e depth fn Builder.new [] (s ++ t) =
      (readText e depth fn Builder.new [] s).andThen fun b als => readText e depth fn b als t := by
  intro h
  have := h (demoEnv []) (by decide) 0 [] (0 :: [10]) b!"garbage\n" (Or.inr ⟨[0], rfl⟩)
  have e1 : readText (demoEnv []) 0 [] Builder.new [] ((0 :: [10]) ++ b!"garbage\n") = .ok Builder.new [] := rfl
  have e2 : readText (demoEnv []) 0 [] Builder.new [] (0 :: [10]) = .ok Builder.new [] := rfl
  have e3 : readText (demoEnv []) 0 [] Builder.new [] b!"garbage\n" = .err := rfl
  rw [e1, e2] at this
  simp only [Outcome.andThen, e3] at this
  cases this

/-- Non-vacuity: two lines, the second one wrong. -/
example : (∀ l ∈ [b!"2020/01/01 P", b!"garbage"], 0 ∉ l) ∧
    (match readText (demoEnv []) 0 [] Builder.new [] b!"2020/01/01 P\ngarbage\n" with | .err => true | _ => false) = true := by
  decide +kernel

end Verif
