import Verif.Proofs.Builder

/-! # C01–C03: the builder (C03 continues in Props/Compact) -/

namespace Verif
open Spec

/-! ## Invariants of the call sequence -/

/-- The open balances are those of the open transaction. -/
structure OpenInv (b : Builder) (cur : List (Str × Rat)) : Prop where
  keys : (b.currAmts.map (·.1)).Nodup
  amt : ∀ c, amtAt b.currAmts c = net c cur

theorem checkAndClear_iff {b : Builder} {cur} (h : OpenInv b cur) :
    (∃ b', b.checkAndClear = some b') ↔ SegBalanced cur := by
  unfold Builder.checkAndClear SegBalanced
  have := all_zero_iff b.currAmts h.keys
  split
  · rename_i hz
    simp only [Option.some.injEq, exists_eq', true_iff]
    intro c; rw [← h.amt]; exact this.1 hz c
  · rename_i hz
    simp only [reduceCtorEq, exists_false, false_iff]
    intro hb
    exact hz (this.2 fun c => by rw [h.amt]; exact hb c)

theorem newTransaction_iff {b : Builder} {cur} (h : OpenInv b cur) (d p n) :
    (∃ b', b.newTransaction d p n = some b') ↔ SegBalanced cur := by
  rw [← checkAndClear_iff h]
  unfold Builder.newTransaction
  constructor
  · rintro ⟨b', hb⟩
    cases hc : b.checkAndClear with
    | none => rw [hc] at hb; cases hb
    | some b1 => exact ⟨b1, rfl⟩
  · rintro ⟨b1, hb⟩
    rw [hb]
    simp only
    cases hr : renameLoop b1.prevTrans d p (b1.prevTrans.length + 1) 1 p with
    | none => exact absurd hr (renameLoop_ne_none _ _ _)
    | some py => exact ⟨_, rfl⟩

theorem newTransaction_inv {b b' : Builder} {cur} (h : OpenInv b cur) {d p n}
    (hb : b.newTransaction d p n = some b') : OpenInv b' [] := by
  unfold Builder.newTransaction at hb
  cases hc : b.checkAndClear with
  | none => rw [hc] at hb; cases hb
  | some b1 =>
    rw [hc] at hb
    simp only at hb
    cases hr : renameLoop b1.prevTrans d p (b1.prevTrans.length + 1) 1 p with
    | none => rw [hr] at hb; cases hb
    | some py =>
      rw [hr] at hb
      cases hb
      unfold Builder.checkAndClear at hc
      split at hc
      · cases hc
        refine ⟨?_, ?_⟩
        · have := h.keys
          rw [List.map_map]
          exact this
        · intro c; simp only [amtAt_clear]; simp [net]
      · cases hc

theorem addPosting_inv {b : Builder} {cur} (h : OpenInv b cur) (a c v n) :
    OpenInv (b.addPosting a c v n) (cur ++ [(c, v)]) := by
  refine ⟨(amtAdd_keys _ _ _ h.keys).1, ?_⟩
  intro c'
  show amtAt (amtAdd b.currAmts c v) c' = _
  rw [amtAt_add, net_append_one, h.amt]

theorem openInv_new : OpenInv Builder.new [] := ⟨by simp [Builder.new], by simp [Builder.new, amtAt, amtFind, net]⟩

private theorem segments_ne_nil (cur cs) : segments cur cs ≠ [] := by
  induction cs generalizing cur with
  | nil => simp [segments]
  | cons c cs ih => cases c <;> simp [segments, ih]

theorem calls_iff (cs : List Call) : ∀ (b : Builder) (cur), OpenInv b cur →
    ((∃ b', b.calls cs = some b') ↔ ∀ s ∈ (segments cur cs).dropLast, SegBalanced s) ∧
    (∀ b', b.calls cs = some b' → ∀ s, (segments cur cs).getLast? = some s → OpenInv b' s) := by
  induction cs with
  | nil =>
    intro b cur h
    simp only [Builder.calls, segments]
    refine ⟨by simp, ?_⟩
    intro b' hb s hs
    simp at hb hs; subst hb; subst hs; exact h
  | cons c cs ih =>
    intro b cur h
    cases c with
    | newTransaction d p n =>
      have hne := segments_ne_nil [] cs
      obtain ⟨s0, ss, hss⟩ := List.exists_cons_of_ne_nil hne
      simp only [Builder.calls, Builder.call, segments]
      cases hb : b.newTransaction d p n with
      | none =>
        have hn := newTransaction_iff h d p n
        rw [hb] at hn
        simp only [reduceCtorEq, exists_false, false_iff] at hn
        refine ⟨?_, by simp⟩
        simp only [reduceCtorEq, exists_false, false_iff]
        intro hall
        exact hn (hall cur (by rw [hss]; simp))
      | some b1 =>
        have hcur := (newTransaction_iff h d p n).1 ⟨b1, hb⟩
        obtain ⟨i1, i2⟩ := ih b1 [] (newTransaction_inv h hb)
        refine ⟨?_, ?_⟩
        · simp only [i1]
          rw [hss] at *
          simp only [List.dropLast_cons_cons, List.mem_cons]
          constructor
          · rintro h1 s (hs | hs)
            · rw [hs]; exact hcur
            · exact h1 s hs
          · intro h1 s hs; exact h1 s (Or.inr hs)
        · intro b' hb' s hs
          apply i2 b' hb' s
          rw [hss] at hs ⊢
          rwa [List.getLast?_cons_cons] at hs
    | addPosting a cc v n =>
      simp only [Builder.calls, Builder.call, segments]
      exact ih _ _ (addPosting_inv h a cc v n)
    | addPrice d u cc v =>
      simp only [Builder.calls, Builder.call, segments]
      exact ih _ _ ⟨h.keys, h.amt⟩

/-! ## C01 -/

/-- C01 (a): a complete run (calls, then Build) yields a book exactly when every transaction
balances in every currency. -/
theorem c01_build_iff_balanced (srt : List Posting → List Posting) (cs : List Call) :
    (∃ book, (Builder.new.calls cs).bind (Builder.build srt) = some book) ↔
      ∀ s ∈ segments [] cs, SegBalanced s := by
  obtain ⟨h1, h2⟩ := calls_iff cs Builder.new [] openInv_new
  obtain ⟨last, hlast⟩ : ∃ s, (segments [] cs).getLast? = some s := by
    cases h : (segments [] cs).getLast? with
    | none => exact absurd (List.getLast?_eq_none_iff.1 h) (segments_ne_nil _ _)
    | some s => exact ⟨s, rfl⟩
  have hsplit : (segments [] cs) = (segments [] cs).dropLast ++ [last] := by
    rw [List.getLast?_eq_some_iff] at hlast
    obtain ⟨ys, e⟩ := hlast
    rw [e]; simp
  have hall : (∀ s ∈ segments [] cs, SegBalanced s) ↔
      (∀ s ∈ (segments [] cs).dropLast, SegBalanced s) ∧ SegBalanced last := by
    constructor
    · intro h
      exact ⟨fun s hs => h s (by rw [hsplit]; simp [hs]), h last (by rw [hsplit]; simp)⟩
    · rintro ⟨ha, hb⟩ s hs
      rw [hsplit] at hs
      rcases List.mem_append.1 hs with hs | hs
      · exact ha s hs
      · simp at hs; rw [hs]; exact hb
  rw [hall, ← h1]
  constructor
  · rintro ⟨book, hb⟩
    cases hc : Builder.new.calls cs with
    | none => rw [hc] at hb; cases hb
    | some bb =>
      refine ⟨⟨bb, rfl⟩, ?_⟩
      rw [hc] at hb
      have hinv := h2 bb hc last hlast
      rw [← checkAndClear_iff hinv]
      simp only [Option.bind_some, Builder.build] at hb
      cases hcc : bb.checkAndClear with
      | none => rw [hcc] at hb; cases hb
      | some b1 => exact ⟨b1, rfl⟩
  · rintro ⟨⟨bb, hc⟩, hl⟩
    have hinv := h2 bb hc last hlast
    obtain ⟨b1, hb1⟩ := (checkAndClear_iff hinv).2 hl
    rw [hc]
    simp only [Option.bind_some, Builder.build, hb1]
    exact ⟨_, rfl⟩

/-- C01 (b): a run of calls has panicked exactly when some transaction already closed by a
later NewTransaction does not balance; so the panic comes no later than the closing call. -/
theorem c01_panics_at_closing_call (cs : List Call) :
    Builder.new.calls cs = none ↔ ∃ s ∈ (segments [] cs).dropLast, ¬ SegBalanced s := by
  obtain ⟨h1, _⟩ := calls_iff cs Builder.new [] openInv_new
  have h3 : Builder.new.calls cs = none ↔ ¬ ∃ b', Builder.new.calls cs = some b' := by
    cases Builder.new.calls cs <;> simp
  rw [h3, h1]
  simp only [not_forall, exists_prop]

private def exGood : List Call :=
  [.newTransaction 20200101 b!"Shop" [], .addPosting b!"Food" b!"EUR" (5/2) [],
   .addPosting b!"Cash" b!"EUR" (-5/2) [], .newTransaction 20200101 b!"Shop" [],
   .addPosting b!"Food" b!"USD" 1 [], .addPosting b!"Cash" b!"USD" (-1) []]

example : (segments [] exGood).length = 3 ∧ (∀ s ∈ segments [] exGood, SegBalanced s) := by
  refine ⟨by decide, ?_⟩
  intro s hs c
  simp [segments, exGood] at hs
  rcases hs with hs | hs | hs <;> subst hs
  · simp [net]
  · by_cases h : b!"EUR" = c
    · subst h; decide +kernel
    · simp [net, h]
  · by_cases h : b!"USD" = c
    · subst h; decide +kernel
    · simp [net, h]

example : Builder.new.calls [.newTransaction 1 b!"P" [], .addPosting b!"A" b!"EUR" 1 [],
    .newTransaction 2 b!"Q" []] = none := by decide +kernel

/-! ## C02 -/

/-- The keys in use are those of the issued names. -/
def SeenInv (b : Builder) (names : List (Int × Str)) : Prop :=
  ∀ k, k ∈ b.prevTrans ↔ ∃ dp ∈ names, k = txnKey dp.1 dp.2

theorem seen_iff {b : Builder} {names} (h : SeenInv b names) (d : Int) (p : Str) :
    txnKey d p ∈ b.prevTrans ↔ (d, p) ∈ names := by
  rw [h]
  constructor
  · rintro ⟨⟨d', p'⟩, hm, e⟩
    obtain ⟨rfl, rfl⟩ := txnKey_injective e
    exact hm
  · intro hm; exact ⟨_, hm, rfl⟩

theorem newTransaction_step {b b' : Builder} {names} (h : SeenInv b names) {d p n}
    (hb : b.newTransaction d p n = some b') :
    b'.currDate = d ∧ (d, b'.currPayee) ∉ names ∧ SeenInv b' ((d, b'.currPayee) :: names) ∧
    ∃ k, 1 ≤ k ∧ b'.currPayee = cand p k ∧ ∀ j, 1 ≤ j → j < k → (d, cand p j) ∈ names := by
  unfold Builder.newTransaction at hb
  cases hc : b.checkAndClear with
  | none => rw [hc] at hb; cases hb
  | some b1 =>
    have hp : b1.prevTrans = b.prevTrans := by
      unfold Builder.checkAndClear at hc
      split at hc
      · cases hc; rfl
      · cases hc
    rw [hc] at hb
    simp only at hb
    rw [hp] at hb
    cases hr : renameLoop b.prevTrans d p (b.prevTrans.length + 1) 1 p with
    | none => rw [hr] at hb; cases hb
    | some py =>
      rw [hr] at hb
      cases hb
      obtain ⟨k, hk, hq, hn, hj⟩ := renameLoop_some (p := p) (i := 1) (le_refl 1) (by simpa [cand] using hr)
      refine ⟨rfl, fun hm => hn ((seen_iff h d py).2 hm), ?_, k, hk, hq, fun j h1 h2 => (seen_iff h d _).1 (hj j h1 h2)⟩
      intro key
      simp only [List.mem_cons, h key]
      constructor
      · rintro (e | ⟨dp, hm, e⟩)
        · exact ⟨_, Or.inl rfl, e⟩
        · exact ⟨dp, Or.inr hm, e⟩
      · rintro ⟨dp, hm | hm, e⟩
        · left; rw [e, hm]
        · right; exact ⟨dp, hm, e⟩

theorem seenInv_new : SeenInv Builder.new [] := by intro k; simp [Builder.new]

private theorem issued_append (b : Builder) (cs1 cs2 : List Call) (b1 : Builder) (h : b.calls cs1 = some b1) :
    issued b (cs1 ++ cs2) = issued b cs1 ++ issued b1 cs2 := by
  induction cs1 generalizing b with
  | nil => simp [Builder.calls] at h; subst h; rfl
  | cons c cs1 ih =>
    simp only [Builder.calls] at h
    simp only [List.cons_append, issued]
    cases hc : b.call c with
    | none => rw [hc] at h; cases h
    | some b2 =>
      rw [hc] at h
      cases c <;> simp [ih b2 h]

theorem issued_nodup_aux (cs : List Call) : ∀ (b : Builder) (names : List (Int × Str)),
    SeenInv b names → (issued b cs).Nodup ∧ (∀ x ∈ issued b cs, x ∉ names) ∧
    (∀ b', b.calls cs = some b' → SeenInv b' ((issued b cs).reverse ++ names)) := by
  induction cs with
  | nil => intro b names h; refine ⟨by simp [issued], by simp [issued], ?_⟩
           intro b' hb; simp [Builder.calls] at hb; subst hb; simpa [issued] using h
  | cons c cs ih =>
    intro b names h
    simp only [issued, Builder.calls]
    cases hc : b.call c with
    | none => simp
    | some b1 =>
      cases c with
      | newTransaction d p n =>
        obtain ⟨e1, e2, e3, _⟩ := newTransaction_step h (by simpa [Builder.call] using hc)
        simp only [e1]
        obtain ⟨i1, i2, i3⟩ := ih b1 _ e3
        refine ⟨?_, ?_, ?_⟩
        · rw [List.nodup_cons]
          exact ⟨fun hm => i2 _ hm (by simp), i1⟩
        · intro x hx
          rcases List.mem_cons.1 hx with hx | hx
          · rw [hx]; exact e2
          · intro hm; exact i2 x hx (by simp [hm])
        · intro b' hb
          have := i3 b' hb
          simpa using this
      | addPosting a cc v n =>
        simp [Builder.call] at hc; subst hc
        exact ih _ names h
      | addPrice d u cc v =>
        simp [Builder.call] at hc; subst hc
        exact ih _ names h

/-- C02 (a): no two NewTransaction calls are filed under the same (date, payee). -/
theorem c02_names_distinct (cs : List Call) : (issued Builder.new cs).Nodup :=
  (issued_nodup_aux cs Builder.new [] seenInv_new).1

/-- C02 (b): whatever happened before, a NewTransaction call that does not panic is filed under
the given date and: the given payee if that is still free on the date, else the payee with
" (k)" appended for the least free k ≥ 2. -/
theorem c02_name_chosen (pre : List Call) (b b' : Builder) (h : Builder.new.calls pre = some b)
    (d : Int) (p n : Str) (hb : b.newTransaction d p n = some b') :
    b'.currDate = d ∧
    (((d, p) ∉ issued Builder.new pre ∧ b'.currPayee = p) ∨
     ((d, p) ∈ issued Builder.new pre ∧ ∃ k, 2 ≤ k ∧ b'.currPayee = withNumber p k ∧
        (d, withNumber p k) ∉ issued Builder.new pre ∧
        ∀ j, 2 ≤ j → j < k → (d, withNumber p j) ∈ issued Builder.new pre)) := by
  have hs := (issued_nodup_aux pre Builder.new [] seenInv_new).2.2 b h
  obtain ⟨e1, e2, _, k, hk, hq, hj⟩ := newTransaction_step hs hb
  simp only [List.append_nil, List.mem_reverse] at e2 hj
  refine ⟨e1, ?_⟩
  by_cases h1 : k = 1
  · left
    subst h1
    simp only [cand, if_true] at hq
    rw [hq] at e2
    exact ⟨e2, hq⟩
  · right
    have hc : ∀ j, 2 ≤ j → cand p j = withNumber p j := by
      intro j hj; unfold cand; rw [if_neg (by omega)]; rfl
    have h0 := hj 1 (le_refl 1) (by omega)
    simp only [cand, if_true] at h0
    refine ⟨h0, k, by omega, by rw [hq, hc k (by omega)], ?_, ?_⟩
    · rw [hq, hc k (by omega)] at e2; exact e2
    · intro j h2 h3
      rw [← hc j h2]; exact hj j (by omega) h3

/-- The names found by the builder are those of the specification. -/
theorem filedAs_aux (cs : List Call) : ∀ (b b' : Builder) (names : List (Int × Str)), SeenInv b names → b.calls cs = some b' →
    FiledAs names cs (issued b cs) := by
  induction cs with
  | nil => intro b b' names _ _; exact .nil _
  | cons c cs ih =>
    intro b b' names h hb
    simp only [issued, Builder.calls] at hb ⊢
    cases hc : b.call c with
    | none => rw [hc] at hb; cases hb
    | some b1 =>
      rw [hc] at hb
      cases c with
      | newTransaction d p n =>
        obtain ⟨e1, e2, e3, k, hk, hq, hj⟩ := newTransaction_step h (by simpa [Builder.call] using hc)
        simp only [e1]
        have hrec := ih b1 b' _ e3 hb
        by_cases h1 : k = 1
        · subst h1
          simp only [cand, if_true] at hq
          rw [hq] at e2 hrec ⊢
          exact .fresh _ _ _ _ _ _ e2 hrec
        · have hcd : ∀ j, 2 ≤ j → cand p j = withNumber p j := by
            intro j hj; unfold cand; rw [if_neg (by omega)]; rfl
          have h0 := hj 1 (le_refl 1) (by omega)
          simp only [cand, if_true] at h0
          rw [hq, hcd k (by omega)] at e2 hrec ⊢
          exact .again _ _ _ _ _ _ k h0 (by omega) e2 (fun j h2 h3 => by rw [← hcd j h2]; exact hj j (by omega) h3) hrec
      | addPosting a cc v n =>
        simp [Builder.call] at hc; subst hc
        exact .addPosting _ _ _ _ _ _ _ (ih _ b' names h hb)
      | addPrice d u cc v =>
        simp [Builder.call] at hc; subst hc
        exact .addPrice _ _ _ _ _ _ _ (ih _ b' names h hb)

/-- There is only one way to file the transactions of a call sequence. -/
theorem c02_one_filing {taken : List (Int × Str)} {cs : List Call} {ns ns' : List (Int × Str)} (h : FiledAs taken cs ns)
    (h' : FiledAs taken cs ns') : ns = ns' := by
  induction h generalizing ns' with
  | nil => cases h'; rfl
  | addPosting taken a c v n cs ns _ ih => cases h' with | addPosting _ _ _ _ _ _ _ h' => exact ih h'
  | addPrice taken d u c v cs ns _ ih => cases h' with | addPrice _ _ _ _ _ _ _ h' => exact ih h'
  | fresh taken d p n cs ns hn _ ih =>
    cases h' with
    | fresh _ _ _ _ _ _ _ h' => rw [ih h']
    | again _ _ _ _ _ _ _ hm => exact absurd hm hn
  | again taken d p n cs ns k hm hk hn hj _ ih =>
    cases h' with
    | fresh _ _ _ _ _ _ hn' => exact absurd hm hn'
    | again _ _ _ _ _ _ k' _ hk' hn' hj' h' =>
      have : k = k' := by
        rcases Nat.lt_trichotomy k k' with hlt | heq | hlt
        · exact absurd (hj' k hk hlt) hn
        · exact heq
        · exact absurd (hj k' hk' hlt) hn'
      subst this
      rw [ih h']

/-- C02 (c): the search for a free payee always ends: NewTransaction panics only because of an
unbalanced transaction. -/
theorem c02_search_terminates (pre : List Call) (b : Builder) (h : Builder.new.calls pre = some b)
    (d : Int) (p n : Str) (s : List (Str × Rat)) (hs : (segments [] pre).getLast? = some s)
    (hbal : SegBalanced s) : ∃ b', b.newTransaction d p n = some b' :=
  (newTransaction_iff ((calls_iff pre Builder.new [] openInv_new).2 b h s hs) d p n).2 hbal

example : issued Builder.new [.newTransaction 5 b!"P" [], .newTransaction 5 b!"P" [],
    .newTransaction 5 b!"P (2)" [], .newTransaction 5 b!"P" []] =
    [(5, b!"P"), (5, b!"P (2)"), (5, b!"P (2) (2)"), (5, b!"P (3)")] := by decide +kernel

/-! ## C03, builder part -/

private theorem post_entries_aux (cs : List Call) : ∀ (b b' : Builder), b.calls cs = some b' →
    ∃ extra, b'.post = b.post ++ extra ∧
      extra.map (fun p => (⟨p.date, p.payee, p.acct, p.ccy, p.val⟩ : Entry)) =
        entries (b.currDate, b.currPayee) (issued b cs) cs ∧ (∀ p ∈ extra, Plain p) := by
  induction cs with
  | nil =>
    intro b b' h; simp [Builder.calls] at h; subst h
    exact ⟨[], by simp, by simp [entries], by simp⟩
  | cons c cs ih =>
    intro b b' h
    simp only [Builder.calls] at h
    cases hc : b.call c with
    | none => rw [hc] at h; cases h
    | some b1 =>
      rw [hc] at h
      obtain ⟨extra, e1, e2, e3⟩ := ih b1 b' h
      cases c with
      | newTransaction d p n =>
        simp only [issued, hc, entries]
        refine ⟨extra, ?_, e2, e3⟩
        rw [e1]
        congr 1
        simp only [Builder.call, Builder.newTransaction] at hc
        cases hcc : b.checkAndClear with
        | none => rw [hcc] at hc; cases hc
        | some b2 =>
          rw [hcc] at hc
          simp only at hc
          have : b2.post = b.post := by
            unfold Builder.checkAndClear at hcc
            split at hcc
            · cases hcc; rfl
            · cases hcc
          split at hc
          · cases hc
          · cases hc; exact this
      | addPosting a cc v n =>
        simp only [issued, hc, entries]
        simp [Builder.call] at hc
        subst hc
        refine ⟨⟨b.currDate, b.currPayee, b.currNote, a, cc, v, n, 0, 0, [], []⟩ :: extra,
          by rw [e1]; simp [Builder.addPosting], ?_, ?_⟩
        · simp only [List.map_cons]
          rw [e2]
          simp [Builder.addPosting]
        · intro q hq
          rcases List.mem_cons.1 hq with hq | hq
          · rw [hq]; exact ⟨rfl, rfl⟩
          · exact e3 q hq
      | addPrice d u cc v =>
        simp only [issued, hc, entries]
        simp [Builder.call] at hc
        subst hc
        exact ⟨extra, by rw [e1]; simp [Builder.addPrice], e2, e3⟩

theorem builder_post (cs : List Call) (b : Builder) (h : Builder.new.calls cs = some b) :
    b.post.map (fun p => (⟨p.date, p.payee, p.acct, p.ccy, p.val⟩ : Entry)) =
        entries (-1, []) (issued Builder.new cs) cs ∧ (∀ p ∈ b.post, Plain p) := by
  obtain ⟨extra, e1, e2, e3⟩ := post_entries_aux cs _ _ h
  have : b.post = extra := by rw [e1]; simp [Builder.new]
  rw [this]
  exact ⟨e2, e3⟩

/-- C03 (a): in the book built from any call sequence, the amount reported under any (date,
payee, account, currency) is the sum of the amounts added under it. -/
theorem c03_built_amounts (srt : List Posting → List Posting) (hs : IsSort srt) (cs : List Call)
    (bb : Builder) (book : Book) (h : Builder.new.calls cs = some bb) (hb : bb.build srt = some book)
    (d : Int) (py a c : Str) :
    entryTotal d py a c (book.transactions srt).flatten =
      entrySum d py a c (entries (-1, []) (issued Builder.new cs) cs) := by
  obtain ⟨e1, e2⟩ := builder_post cs bb h
  have hk : KeyFun (fun p : Posting => decide (p.date = d ∧ p.payee = py ∧ p.acct = a ∧ p.ccy = c)) := by
    intro p q hpq
    obtain ⟨h1, h2, h3, h4⟩ := key_eq_iff.1 hpq
    simp [h1, h2, h3, h4]
  have hpost : entryTotal d py a c bb.post =
      entrySum d py a c (entries (-1, []) (issued Builder.new cs) cs) := by
    rw [← e1]
    unfold entryTotal total entrySum
    rw [List.filter_map, List.map_map]
    rfl
  rw [← hpost]
  unfold Builder.build at hb
  cases hcc : bb.checkAndClear with
  | none => rw [hcc] at hb; cases hb
  | some b2 =>
    rw [hcc] at hb
    simp only [Option.some.injEq] at hb
    have hp2 : b2.post = bb.post := by
      unfold Builder.checkAndClear at hcc
      split at hcc
      · cases hcc; rfl
      · cases hcc
    rw [hp2] at hb
    subst hb
    unfold Book.transactions Book.compact
    by_cases h0 : bb.post = []
    · simp [h0]
    · simp only [h0, if_false]
      by_cases h1 : compactPost srt bb.post = []
      · have := total_compactPost hs hk bb.post
        rw [h1] at this
        simp only [h1, groupTxns, if_true, List.flatten_nil]
        exact this
      · simp only [h1, if_false, groupTxns_flatten]
        unfold entryTotal
        rw [total_compactPost hs hk, total_compactPost hs hk]

/-- C02 (d), C03: in terms of the calls alone.  The transactions of a built book are filed under distinct (date, payee) pairs, chosen by the
documented rule, and the amount reported under any (date, payee, account, currency) is the sum of the amounts added to the transaction
filed there. -/
theorem c02_book_entries (srt : List Posting → List Posting) (hs : IsSort srt) (cs : List Call)
    (bb : Builder) (book : Book) (h : Builder.new.calls cs = some bb) (hb : bb.build srt = some book) :
    ∃ names, FiledAs [] cs names ∧ names.Nodup ∧ ∀ d py a c,
      entryTotal d py a c (book.transactions srt).flatten = entrySum d py a c (entries (-1, []) names cs) :=
  ⟨issued Builder.new cs, filedAs_aux cs _ bb [] seenInv_new h, c02_names_distinct cs, fun d py a c => c03_built_amounts srt hs cs bb book h hb d py a c⟩

/-- A second "shop" on the same day is "shop (2)", a third "shop (3)", and "shop (2)" itself may have been taken. -/
example : FiledAs [] [.newTransaction 20200101 b!"shop (2)" [], .newTransaction 20200101 b!"shop" [], .newTransaction 20200101 b!"shop" []]
    [(20200101, b!"shop (2)"), (20200101, b!"shop"), (20200101, b!"shop (3)")] := by
  refine .fresh _ _ _ _ _ _ (by decide) (.fresh _ _ _ _ _ _ (by decide) ?_)
  refine .again _ _ _ _ _ _ 3 (by decide) (by decide) (by decide) ?_ (.nil _)
  intro j h1 h2
  obtain rfl : j = 2 := by omega
  decide

end Verif
