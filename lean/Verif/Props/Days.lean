import Verif.Props.Later
import Mathlib.Algebra.BigOperators.Group.Finset.Piecewise

/-! # C145: combined reports depend on the amounts of each day only -/

namespace Verif
open Spec

/-- Books with the same prices and the same totals of each day, account and currency. -/
structure SameSums (b b' : Book) : Prop where
  good : b.Good
  good' : b'.Good
  prices : b.prices = b'.prices
  totals : ∀ u : Weight, NoPayee u → wsum (wt u) b.post = wsum (wt u) b'.post

theorem prim_sums {e : OpEnv} (hs : IsSort e.srt) (p : Prim) {b b' : Book} (h : SameSums b b') :
    (p.apply e b = none ∧ p.apply e b' = none) ∨ ∃ c c', p.apply e b = some c ∧ p.apply e b' = some c' ∧ SameSums c c' := by
  cases h1 : p.apply e b with
  | none => exact .inl ⟨rfl, prim_none h1 b'⟩
  | some c =>
    cases h2 : p.apply e b' with
    | none => rw [prim_none h2 b] at h1; cases h1
    | some c' =>
      refine .inr ⟨c, c', rfl, rfl, good_prim hs h.good h1, good_prim hs h.good' h2, ?_, fun u hu => ?_⟩
      · rw [prim_prices h1, prim_prices h2, h.prices]
      · rw [prim_pull hs h.good.1 h1, prim_pull hs h.good'.1 h2, h.totals _ (pull_noPayee e p hu)]

/-- How two lists of operations end. -/
inductive OpsSum : OpEnd → OpEnd → Prop
  | ok {b b'} : SameSums b b' → OpsSum (.ok b) (.ok b')
  | err {b b' t} : OpsSum (.err b t) (.err b' t)
  | panic : OpsSum .panic .panic
  | diverge : OpsSum .diverge .diverge

theorem OpsSum.wrap {x y : OpEnd} (h : OpsSum x y) (op : Str) : OpsSum (x.wrap op) (y.wrap op) := by
  cases h with
  | ok h => exact .ok h
  | err => exact .err
  | panic => exact .panic
  | diverge => exact .diverge

theorem runAll_sums {f : Str → Book → OpEnd} (hf : ∀ o b b', SameSums b b' → OpsSum (f o b) (f o b')) :
    ∀ (os : List Str) (b b' : Book), SameSums b b' → OpsSum (runAll f os b) (runAll f os b') := by
  intro os
  induction os with
  | nil => intro b b' h; exact .ok h
  | cons o os ih =>
    intro b b' h
    have := hf o b b' h
    simp only [runAll]
    generalize f o b = x at this
    generalize f o b' = y at this
    cases this with
    | ok h => exact ih _ _ h
    | err => exact .err
    | panic => exact .panic
    | diverge => exact .diverge

theorem bookOp_sums {e : OpEnv} (hs : IsSort e.srt) (mac : Str → Option (List Str)) :
    ∀ (n : Nat) (op : Str) (b b' : Book), SameSums b b' → OpsSum (bookOp e mac n op b) (bookOp e mac n op b') := by
  intro n
  induction n with
  | zero => intro op b b' _; exact .diverge
  | succ n ih =>
    intro op b b' h
    simp only [bookOp]
    cases mac op with
    | some ms => exact (runAll_sums ih ms b b' h).wrap op
    | none =>
      simp only [primOp]
      cases parsePrim e op with
      | none => exact .err
      | some p =>
        simp only
        rcases prim_sums hs p h with ⟨h1, h2⟩ | ⟨c, c', h1, h2, h3⟩
        · rw [h1, h2]; exact .panic
        · rw [h1, h2]; exact .ok h3

theorem ops_sums {e : OpEnv} (hs : IsSort e.srt) (fuel : Nat) (a : AppConf) (args : List Str) {b b' : Book} (h : SameSums b b') :
    EndsLike SameSums (opsCmd e fuel a args b) (opsCmd e fuel a args b') := by
  have := runAll_sums (fun o b b' h => (bookOp_sums hs a.macros fuel o b b' h).wrap o) args b b' h
  unfold opsCmd bookOps
  generalize runAll (fun op b => (bookOp e a.macros fuel op b).wrap op) args b = x at this
  generalize runAll (fun op b => (bookOp e a.macros fuel op b).wrap op) args b' = y at this
  cases this with
  | ok h => exact h
  | err => trivial
  | panic => trivial
  | diverge => trivial

/-- Combining forgets the payees: after it the totals are the same altogether. -/
theorem combine_sums {e : OpEnv} (hs : IsSort e.srt) (t : Str) {b b' : Book} (h : SameSums b b') : SameTotals (b.splitBy e.srt e.today t) (b'.splitBy e.srt e.today t) := by
  have h1 : (Prim.combine t).apply e b = some (b.splitBy e.srt e.today t) := rfl
  have h2 : (Prim.combine t).apply e b' = some (b'.splitBy e.srt e.today t) := rfl
  refine ⟨good_prim hs h.good h1, good_prim hs h.good' h2, by rw [prim_prices h1, prim_prices h2, h.prices], fun u => ?_⟩
  rw [prim_pull hs h.good.1 h1, prim_pull hs h.good'.1 h2]
  exact h.totals _ fun D P P' A C => rfl

theorem report_sums {e : OpEnv} (hs : IsSort e.srt) {a : AppConf} (hd : a.divider ≠ []) (r : ReportConf) (ht : r.typ ≠ b!"Beancount") (hc : r.combineby ≠ b!"skip")
    {o o' : Int → Str → List Str → List Str} (ho : ∀ d py l, (o d py l).Perm l) (ho' : ∀ d py l, (o' d py l).Perm l) {b b' : Book} (h : SameSums b b') :
    EndsLike (SameReport r) (reportTxns e a r o b) (reportTxns e a r o' b') := by
  unfold reportTxns
  rw [if_neg ht, if_neg ht, if_pos hc, if_pos hc]
  have h1 : GoodPair (b.splitBy e.srt e.today r.combineby) (b'.splitBy e.srt e.today r.combineby) := by
    have := compact_alike hs hs (combine_sums hs r.combineby h)
    have hpl : ∀ (b : Book), b.Good → ∀ p ∈ b.post.map (fun p => { p with date := floorBy e.today p.date r.combineby, payee := [] } : Posting → Posting), Plain p := by
      intro b hb p hp
      obtain ⟨q, hq, rfl⟩ := List.mem_map.1 hp
      exact hb.1.plain q hq
    have ht : ∀ b : Book, b.Good → (b.splitBy e.srt e.today r.combineby).compact e.srt = b.splitBy e.srt e.today r.combineby := fun b hb =>
      c07_read_twice e.srt e.srt hs hs _ (hpl b hb)
    rw [ht b h.good, ht b' h.good'] at this
    exact this
  exact EndsLike.bind (convert_like (a := a) (cv := r.convert) h1) fun c c' hcc => sumCmd_like (srt' := e.srt) hs hs hd r ht ho ho' hcc

/-! ## The loaded books -/

/-- The day, account and currency of an entry. -/
def dayKey (x : Entry) : Int × Str × Str := (x.date, x.acct, x.ccy)

/-- The total of the entries of one day, account and currency. -/
def dayEntries (k : Int × Str × Str) (l : List Entry) : Rat := (l.map fun x => if dayKey x = k then x.amt else 0).sum

theorem esum_keys {u : Weight} (hu : NoPayee u) (K : Finset (Int × Str × Str)) : ∀ l : List Entry, (∀ x ∈ l, dayKey x ∈ K) →
    esum u l = ∑ k ∈ K, u k.1 [] k.2.1 k.2.2 * dayEntries k l := by
  intro l
  induction l with
  | nil => intro _; simp [esum, dayEntries]
  | cons x l ih =>
    intro h
    have h0 := h x List.mem_cons_self
    have e1 : esum u (x :: l) = u x.date x.payee x.acct x.ccy * x.amt + esum u l := by simp [esum]
    have e2 : ∀ k, dayEntries k (x :: l) = (if dayKey x = k then x.amt else 0) + dayEntries k l := by intro k; simp [dayEntries]
    rw [e1, ih fun y hy => h y (List.mem_cons_of_mem _ hy)]
    simp only [e2, mul_add, Finset.sum_add_distrib, mul_ite, mul_zero]
    rw [Finset.sum_ite_eq, if_pos h0, hu x.date x.payee []]
    rfl

theorem esum_days {u : Weight} (hu : NoPayee u) {l l' : List Entry} (h : ∀ k, dayEntries k l = dayEntries k l') : esum u l = esum u l' := by
  classical
  have hK : ∀ x ∈ l ++ l', dayKey x ∈ ((l ++ l').map dayKey).toFinset := fun x hx => by
    rw [List.mem_toFinset]; exact List.mem_map_of_mem hx
  rw [esum_keys hu _ l fun x hx => hK x (List.mem_append_left _ hx), esum_keys hu _ l' fun x hx => hK x (List.mem_append_right _ hx)]
  exact Finset.sum_congr rfl fun k _ => by rw [h]

theorem bookedOn_entries (D : Int) (A C : Str) : ∀ (cs : List Call) (cur : Int × Str),
    bookedOn D A C cur.1 cs = dayEntries (D, A, C) (entries cur (headers cs) cs) := by
  intro cs
  induction cs with
  | nil => intro cur; rfl
  | cons x cs ih =>
    intro cur
    cases x with
    | addPosting a c v n =>
      have e1 : ∀ ns, entries cur ns (.addPosting a c v n :: cs) = ⟨cur.1, cur.2, a, c, v⟩ :: entries cur ns cs := by
        intro ns; cases ns <;> rfl
      rw [bookedOn, ih cur, e1]
      show _ = dayEntries (D, A, C) (_ :: entries cur (headers cs) cs)
      simp only [dayEntries, List.map_cons, List.sum_cons, dayKey, Prod.mk.injEq]
    | addPrice d q c v =>
      have e1 : ∀ ns, entries cur ns (.addPrice d q c v :: cs) = entries cur ns cs := by
        intro ns; cases ns <;> rfl
      rw [bookedOn, ih cur, e1]
      rfl
    | newTransaction d p n =>
      rw [bookedOn]
      exact ih (d, p)

/-- Two ledgers with the same amounts for each day, account and currency. -/
theorem loaded_days {le le' : Env} (he : le.Ok) (he' : le'.Ok) (hl : PlainLetters le) (hl' : PlainLetters le') {fs fs' : Str → Option (List FileLine)}
    (hdisk : OnDisk le fs) (hdisk' : OnDisk le' fs') {f f' : Str} {ls ls' : List FileLine} (hf : fs f = some ls) (hf' : fs' f' = some ls')
    {cs cs' : List Call} (hsay : FileSays fs le.join f [] [] ls cs) (hsay' : FileSays fs' le'.join f' [] [] ls' cs') (h : SameDays cs cs')
    {srt : List Posting → List Posting} (hs : IsSort srt) {depth depth' : Nat} {b b' : Book} (hb : loadBook srt le depth f = .ok b)
    (hb' : loadBook srt le' depth' f' = .ok b') : SameSums b b' := by
  obtain ⟨ds, s1, b1, _⟩ := c96_loaded_book he hl hdisk hf hb
  obtain ⟨ds', s2, b2, _⟩ := c96_loaded_book he' hl' hdisk' hf' hb'
  obtain ⟨k1, k2, k3⟩ := (readings_shuffled hsay [] ds (.refl _) s1).facts
  obtain ⟨j1, j2, j3⟩ := (readings_shuffled hsay' [] ds' (.refl _) s2).facts
  refine ⟨b1.wf hs, b2.wf hs, ?_, fun u hu => ?_⟩
  · rw [built_pricesAfter b1, built_pricesAfter b2, ← k2, ← j2, h.prices]
  · have w1 : wsum (wt u) b.post = esum u (entries (-1, []) (headers cs) cs) := by
      rw [wsum_read hs b1 hu, ← k1]
      exact (((k3 (-1, []) (headers cs)).map _).sum_eq).symm
    have w2 : wsum (wt u) b'.post = esum u (entries (-1, []) (headers cs') cs') := by
      rw [wsum_read hs b2 hu, ← j1]
      exact (((j3 (-1, []) (headers cs')).map _).sum_eq).symm
    rw [w1, w2]
    refine esum_days hu fun k => ?_
    rw [← bookedOn_entries k.1 k.2.1 k.2.2 cs (-1, []), ← bookedOn_entries k.1 k.2.1 k.2.2 cs' (-1, [])]
    exact h.totals _ _ _

/-- **C145**: a report by day or longer periods (`--combineby` other than `skip`; a report of type Beancount is never combined) depends only on the amounts of each
day, account and currency, and on the prices: not on payees, notes, or how the amounts are divided into transactions. -/
theorem c145_report {le le' : Env} (he : le.Ok) (he' : le'.Ok) (hl : PlainLetters le) (hl' : PlainLetters le') {fs fs' : Str → Option (List FileLine)}
    (hdisk : OnDisk le fs) (hdisk' : OnDisk le' fs') (a : AppConf) (f' : Str) {ls ls' : List FileLine} (hf : fs a.ledger = some ls) (hf' : fs' f' = some ls')
    {cs cs' : List Call} (hsay : FileSays fs le.join a.ledger [] [] ls cs) (hsay' : FileSays fs' le'.join f' [] [] ls' cs') (h : SameDays cs cs')
    (e : OpEnv) (hs : IsSort e.srt) (depth depth' : Nat) (b b' : Book) (hb : loadCmd le depth e.srt a = .ok b) (hb' : loadCmd le' depth' e.srt (a.reading f') = .ok b')
    (hd : a.divider ≠ []) (fuel : Nat) (r : ReportConf) (ht : r.typ ≠ b!"Beancount") (hc : r.combineby ≠ b!"skip")
    (o o' : Int → Str → List Str → List Str) (ho : ∀ d py l, (o d py l).Perm l) (ho' : ∀ d py l, (o' d py l).Perm l) (args : List Str) :
    EndsLike (SameReport r) (reportCmd le depth e fuel a r o args) (reportCmd le' depth' e fuel (a.reading f') r o' args) := by
  have hsum := loaded_days he he' hl hl' hdisk hdisk' hf hf' hsay hsay' h hs (loadCmd_book hb) (loadCmd_book hb')
  unfold reportCmd
  rw [hb, hb']
  exact EndsLike.bind (ops_sums hs fuel a args hsum) fun c c' hcc => report_sums hs (a := a) hd r ht hc ho ho' hcc

/-- C145: the same with a `combine` operation among the operations, for every kind of report. -/
theorem c145_operation {le le' : Env} (he : le.Ok) (he' : le'.Ok) (hl : PlainLetters le) (hl' : PlainLetters le') {fs fs' : Str → Option (List FileLine)}
    (hdisk : OnDisk le fs) (hdisk' : OnDisk le' fs') (a : AppConf) (f' : Str) {ls ls' : List FileLine} (hf : fs a.ledger = some ls) (hf' : fs' f' = some ls')
    {cs cs' : List Call} (hsay : FileSays fs le.join a.ledger [] [] ls cs) (hsay' : FileSays fs' le'.join f' [] [] ls' cs') (h : SameDays cs cs')
    (e : OpEnv) (hs : IsSort e.srt) (depth depth' : Nat) (b b' : Book) (hb : loadCmd le depth e.srt a = .ok b) (hb' : loadCmd le' depth' e.srt (a.reading f') = .ok b')
    (hd : a.divider ≠ []) (fuel : Nat) (r : ReportConf) (o o' : Int → Str → List Str → List Str) (ho : ∀ d py l, (o d py l).Perm l)
    (ho' : ∀ d py l, (o' d py l).Perm l) (before : List Str) (op : Str) (t : Str) (hmac : a.macros op = none) (hop : parsePrim e op = some (.combine t))
    (after : List Str) :
    SameShown r (reportCmd le depth e fuel a r o (before ++ op :: after)) (reportCmd le' depth' e fuel (a.reading f') r o' (before ++ op :: after)) := by
  have hsum := loaded_days he he' hl hl' hdisk hdisk' hf hf' hsay hsay' h hs (loadCmd_book hb) (loadCmd_book hb')
  have hops : EndsLike SameTotals (opsCmd e fuel a (before ++ ([op] ++ after)) b) (opsCmd e fuel a (before ++ ([op] ++ after)) b') := by
    rw [opsCmd_append, opsCmd_append]
    refine EndsLike.bind (ops_sums hs fuel a before hsum) fun c c' hcc => ?_
    rw [opsCmd_append, opsCmd_append]
    refine EndsLike.bind (R := SameTotals) ?_ fun d d' hdd => ops_totals hs fuel a after hdd
    cases fuel with
    | zero => trivial
    | succ fuel =>
      rw [opsCmd_one hmac hop, opsCmd_one hmac hop]
      exact combine_sums hs t hcc
  change EndsLike SameTotals (opsCmd e fuel a (before ++ op :: after) b) (opsCmd e fuel (a.reading f') (before ++ op :: after) b') at hops
  unfold reportCmd
  rw [hb, hb']
  show SameShown r ((opsCmd e fuel a (before ++ op :: after) b).bind _) ((opsCmd e fuel (a.reading f') (before ++ op :: after) b').bind _)
  generalize opsCmd e fuel a (before ++ op :: after) b = x at *
  generalize opsCmd e fuel (a.reading f') (before ++ op :: after) b' = y at *
  cases x <;> cases y <;> first
    | exact report_totals hs (a := a) hd r ho ho' hops
    | exact hops.elim
    | exact ⟨(fun ts ts' h => by cases h), fun _ => trivial⟩

/-! ## What may differ -/

theorem bookedOn_append (D : Int) (A C : Str) (d : Int) (py n : Str) (xs : List Call) : ∀ (cs : List Call) (cur : Int),
    bookedOn D A C cur (cs ++ .newTransaction d py n :: xs) = bookedOn D A C cur cs + bookedOn D A C d xs := by
  intro cs
  induction cs with
  | nil => intro cur; simp [bookedOn]
  | cons x cs ih =>
    intro cur
    cases x with
    | addPosting a c v n => rw [List.cons_append, bookedOn, bookedOn, ih]; ring
    | addPrice d q c v => rw [List.cons_append, bookedOn, bookedOn, ih]
    | newTransaction d p n => rw [List.cons_append, bookedOn, bookedOn, ih]

theorem priceLines_app (cs xs : List Call) : priceLines (cs ++ xs) = priceLines cs ++ priceLines xs := by
  induction cs with
  | nil => rfl
  | cons x cs ih => cases x <;> simp only [List.cons_append, priceLines, ih]

/-- C145: payees and notes do not matter. -/
theorem c145_words (payee note : Int → Str → Str → Str) (pnote : Str → Str) (cs : List Call) : SameDays cs (cs.map (reworded payee note pnote)) := by
  constructor
  · intro D A C
    generalize (-1 : Int) = cur
    induction cs generalizing cur with
    | nil => rfl
    | cons x cs ih => cases x <;> simp only [List.map_cons, reworded, bookedOn, ih]
  · induction cs with
    | nil => rfl
    | cons x cs ih => cases x <;> simp only [List.map_cons, reworded, priceLines, ih]

/-- C145: a transaction and its reversal of the same day leave no trace. -/
theorem c145_reversal (cs ps : List Call) (hp : ∀ c ∈ ps, ∃ a q v n, c = Call.addPosting a q v n) (d : Int) (py note py' note' : Str) :
    SameDays cs (cs ++ .newTransaction d py note :: (ps ++ .newTransaction d py' note' :: ps.map turned)) := by
  have h1 : ∀ D A C, bookedOn D A C d ps + bookedOn D A C d (ps.map turned) = 0 := by
    intro D A C
    induction ps with
    | nil => simp [bookedOn]
    | cons x ps ih =>
      obtain ⟨a, q, v, n, rfl⟩ := hp x List.mem_cons_self
      have := ih fun c hc => hp c (List.mem_cons_of_mem _ hc)
      rw [List.map_cons, turned, bookedOn, bookedOn]
      split_ifs <;> linarith
  have h2 : ∀ ps : List Call, (∀ c ∈ ps, ∃ a q v n, c = Call.addPosting a q v n) → priceLines ps = [] := by
    intro ps hp
    induction ps with
    | nil => rfl
    | cons x ps ih =>
      obtain ⟨a, q, v, n, rfl⟩ := hp x List.mem_cons_self
      exact ih fun c hc => hp c (List.mem_cons_of_mem _ hc)
  constructor
  · intro D A C
    rw [bookedOn_append, bookedOn_append, h1, add_zero]
  · have h3 : priceLines (ps.map turned) = [] := h2 _ ?_
    · simp only [priceLines_app, priceLines, h2 ps hp, h3, List.append_nil]
    intro c hc
    obtain ⟨x, hx, rfl⟩ := List.mem_map.1 hc
    obtain ⟨a, q, v, n, rfl⟩ := hp x hx
    exact ⟨a, q, -v, n, rfl⟩

/-! ## Examples -/

/-- One transaction of 5 X, and the same as two, with other words and one more that is turned back the same day. -/
def dayFiles : List (Str × List FileLine) := [
  (b!"one", partOne),
  (b!"two", partTwo ++ [.txn (demoTxn ⟨b!"2020", b!"1", b!"2"⟩ ⟨2020, 1, 2⟩ b!"bank"), partPost b!"C" b!"7" false, partPost b!"A" b!"7" true,
    .txn (demoTxn ⟨b!"2020", b!"1", b!"2"⟩ ⟨2020, 1, 2⟩ b!"bank"), partPost b!"A" b!"5" false, partPost b!"B" b!"5" true])]

def dayDisk (f : Str) : Option (List FileLine) := (dayFiles.find? fun x => decide (x.1 = f)).map (·.2)

def dayEnv : Env := demoEnv (dayFiles.map fun x => (x.1, fileText x.2))

example : fileText (dayFiles[1]).2 = b!"2020/1/2 * bank ; note\n  A 7 X\n  C -7 X\n2020/1/2 * bank ; note\n  C 7 X\n  A -7 X\n2020/1/2 * bank ; note\n  A 5 X\n  B -5 X\n" := by
  decide +kernel

theorem day_line (l : FileLine) (h : l ∈ partOne ∨ l ∈ (dayFiles[1]).2) : l.Valid ∧ (∀ sp q g, l ≠ .incl sp q g) ∧ (onlyCall l).isSome = true := by
  have hnum : ∀ acct num minus, partPost acct num minus ∈ [partPost b!"C" b!"7" false, partPost b!"A" b!"7" true] → (partPost acct num minus).Valid := by
    intro acct num minus h
    rcases List.mem_cons.1 h with h | h
    · rw [h]
      exact ⟨⟨by decide, by decide, by decide, by decide, ⟨⟨by decide, by rintro f ⟨⟩⟩, by decide, by decide⟩, ⟨_, _, rfl, by decide⟩,
        by decide, by decide, by rintro _ c r ⟨⟩; decide, by decide, by rintro n ⟨⟩⟩, by decide⟩
    · rw [List.mem_singleton.1 h]
      exact ⟨⟨by decide, by decide, by decide, by decide, ⟨⟨by decide, by rintro f ⟨⟩⟩, by decide, by decide⟩, ⟨_, _, rfl, by decide⟩,
        by decide, by decide, by rintro _ c r ⟨⟩; decide, by decide, by rintro n ⟨⟩⟩, by decide⟩
  rcases h with h | h
  · exact quote_line l (.inr h)
  · simp only [dayFiles, List.getElem_cons_succ, List.getElem_cons_zero, partTwo, List.cons_append, List.nil_append, List.mem_cons, List.not_mem_nil, or_false] at h
    rcases h with rfl | rfl | rfl | rfl | rfl | rfl | rfl | rfl | rfl
    · exact ⟨part_txn _ (.inr (by simp [partTwo])), by rintro sp q g ⟨⟩, rfl⟩
    · exact ⟨part_txn _ (.inr (by simp [partTwo])), by rintro sp q g ⟨⟩, rfl⟩
    · exact ⟨part_txn _ (.inr (by simp [partTwo])), by rintro sp q g ⟨⟩, rfl⟩
    · exact ⟨part_txn _ (.inr (by simp [partTwo])), by rintro sp q g ⟨⟩, rfl⟩
    · exact ⟨hnum _ _ _ (by simp), by rintro sp q g ⟨⟩, rfl⟩
    · exact ⟨hnum _ _ _ (by simp), by rintro sp q g ⟨⟩, rfl⟩
    · exact ⟨part_txn _ (.inr (by simp [partTwo])), by rintro sp q g ⟨⟩, rfl⟩
    · exact ⟨part_txn _ (.inl (by simp [partOne])), by rintro sp q g ⟨⟩, rfl⟩
    · exact ⟨part_txn _ (.inl (by simp [partOne])), by rintro sp q g ⟨⟩, rfl⟩

theorem day_files {f : Str} {ls : List FileLine} (hf : dayDisk f = some ls) : (f, ls) ∈ dayFiles := by
  unfold dayDisk at hf
  cases h : dayFiles.find? fun x => decide (x.1 = f) with
  | none => rw [h] at hf; cases hf
  | some x =>
    rw [h] at hf
    have h1 := List.find?_some h
    have h2 := List.mem_of_find?_eq_some h
    simp only [decide_eq_true_eq] at h1
    simp only [Option.map_some, Option.some.injEq] at hf
    rw [← h1, ← hf]
    exact h2

theorem day_lines {f : Str} {ls : List FileLine} (hf : (f, ls) ∈ dayFiles) : ∀ l ∈ ls, l ∈ partOne ∨ l ∈ (dayFiles[1]).2 := by
  intro l hl
  simp only [dayFiles, List.mem_cons, Prod.mk.injEq, List.not_mem_nil, or_false] at hf
  rcases hf with ⟨rfl, rfl⟩ | ⟨rfl, rfl⟩
  · exact .inl hl
  · exact .inr hl

theorem day_disk : OnDisk dayEnv dayDisk := by
  intro f ls hf
  have hx := day_files hf
  refine ⟨?_, fun l hl => ⟨(day_line l (day_lines hx l hl)).1, fun sp q g e => absurd e ((day_line l (day_lines hx l hl)).2.1 sp q g)⟩⟩
  have : ∀ x ∈ dayFiles, dayEnv.files x.1 = some (fileText x.2) := by decide +kernel
  exact this _ hx

theorem day_says {f : Str} {ls : List FileLine} (h : dayDisk f = some ls) : FileSays dayDisk dayEnv.join f [] [] ls (ls.filterMap onlyCall) :=
  says_calls _ _ _ _ _ fun l hl => (day_line l (day_lines (day_files h) l hl)).2.2

deriving instance DecidableEq for Call

theorem day_same : SameDays ((dayFiles[0]).2.filterMap onlyCall) ((dayFiles[1]).2.filterMap onlyCall) := by
  constructor
  · intro D A C
    have e1 : (dayFiles[0]).2.filterMap onlyCall = [.newTransaction 20200102 b!"shop" b!"note", .addPosting b!"A" b!"X" 5 [], .addPosting b!"B" b!"X" (-5) []] := by
      decide +kernel
    have e2 : (dayFiles[1]).2.filterMap onlyCall = [.newTransaction 20200102 b!"bank" b!"note", .addPosting b!"A" b!"X" 7 [], .addPosting b!"C" b!"X" (-7) [],
        .newTransaction 20200102 b!"bank" b!"note", .addPosting b!"C" b!"X" 7 [], .addPosting b!"A" b!"X" (-7) [],
        .newTransaction 20200102 b!"bank" b!"note", .addPosting b!"A" b!"X" 5 [], .addPosting b!"B" b!"X" (-5) []] := by
      decide +kernel
    rw [e1, e2]
    simp only [bookedOn]
    split_ifs <;> norm_num
  · decide +kernel

/-- The hypotheses hold: both ledgers load, and their reports by year are the same. -/
example (r : ReportConf) (ht : r.typ ≠ b!"Beancount") (hc : r.combineby ≠ b!"skip") :
    EndsLike (SameReport r) (reportCmd dayEnv 5 againOps 5 (partApp b!"one") r (fun _ _ l => l) [])
      (reportCmd dayEnv 5 againOps 5 (partApp b!"two") r (fun _ _ l => l.reverse) []) := by
  have h1 : (match loadCmd dayEnv 5 insSort (partApp b!"one") with | .ok _ => true | _ => false) = true := by decide +kernel
  have h2 : (match loadCmd dayEnv 5 insSort (partApp b!"two") with | .ok _ => true | _ => false) = true := by decide +kernel
  split at h1 <;> try cases h1
  split at h2 <;> try cases h2
  rename_i b hb _ b' hb'
  exact c145_report (demoEnv_ok _) (demoEnv_ok _) (demo_letters _) (demo_letters _) day_disk day_disk (partApp b!"one") b!"two" rfl rfl
    (day_says rfl) (day_says rfl) day_same againOps insSort_isSort 5 5 b b' hb hb' (by decide) 5 r ht hc _ _ (fun _ _ _ => .refl _) (fun _ _ l => l.reverse_perm) []

end Verif
