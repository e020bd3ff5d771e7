import Verif.Props.Days

/-! # C146: a report of a period depends on the bookings of the period only -/

namespace Verif
open Spec

theorem filed_during {P : Int → Bool} {taken : List (Int × Str)} {cs : List Call} {ns : List (Int × Str)} (h : FiledAs taken cs ns) :
    ∀ kept, FiledAs (taken.filter fun n => P n.1) (during P kept cs) (ns.filter fun n => P n.1) := by
  induction h with
  | nil taken => intro kept; exact .nil _
  | addPosting taken a c v n cs ns _ ih =>
    intro kept
    rw [during]
    split
    · exact .addPosting _ _ _ _ _ _ _ (ih kept)
    · exact ih kept
  | addPrice taken d u c v cs ns _ ih => intro kept; rw [during]; exact ih kept
  | fresh taken d p n cs ns h1 _ ih =>
    intro kept
    rw [during]
    by_cases hP : P d = true
    · rw [if_pos hP, List.filter_cons_of_pos (p := fun n : Int × Str => P n.1) hP]
      have := ih true
      rw [List.filter_cons_of_pos (p := fun n : Int × Str => P n.1) hP] at this
      exact .fresh _ _ _ _ _ _ (fun hm => h1 (List.mem_filter.1 hm).1) this
    · rw [if_neg hP, List.filter_cons_of_neg (p := fun n : Int × Str => P n.1) hP]
      have := ih false
      rw [List.filter_cons_of_neg (p := fun n : Int × Str => P n.1) hP] at this
      exact this
  | again taken d p n cs ns k h1 h2 h3 h4 _ ih =>
    intro kept
    rw [during]
    by_cases hP : P d = true
    · rw [if_pos hP, List.filter_cons_of_pos (p := fun n : Int × Str => P n.1) hP]
      have := ih true
      rw [List.filter_cons_of_pos (p := fun n : Int × Str => P n.1) hP] at this
      exact .again _ _ _ _ _ _ k (List.mem_filter.2 ⟨h1, hP⟩) h2 (fun hm => h3 (List.mem_filter.1 hm).1) (fun j j1 j2 => List.mem_filter.2 ⟨h4 j j1 j2, hP⟩) this
    · rw [if_neg hP, List.filter_cons_of_neg (p := fun n : Int × Str => P n.1) hP]
      have := ih false
      rw [List.filter_cons_of_neg (p := fun n : Int × Str => P n.1) hP] at this
      exact this

theorem entries_during {P : Int → Bool} : ∀ (cs : List Call) (ns : List (Int × Str)) (cur cur' : Int × Str), ns.map (·.1) = (headers cs).map (·.1) →
    (P cur.1 = true → cur' = cur) →
    (entries cur ns cs).filter (fun x => P x.date) = entries cur' (ns.filter fun n => P n.1) (during P (P cur.1) cs) := by
  intro cs
  induction cs with
  | nil => intro ns cur cur' _ _; cases ns <;> simp [entries, during]
  | cons x cs ih =>
    intro ns cur cur' hn hc
    cases x with
    | addPosting a c v n =>
      have e1 : ∀ cur ns cs, entries cur ns (.addPosting a c v n :: cs) = ⟨cur.1, cur.2, a, c, v⟩ :: entries cur ns cs := by
        intro cur ns cs; cases ns <;> rfl
      rw [e1, during]
      by_cases hP : P cur.1 = true
      · rw [if_pos hP, e1, List.filter_cons_of_pos (p := fun x : Entry => P x.date) hP, ih ns cur cur' hn hc, hc hP]
      · rw [if_neg hP, List.filter_cons_of_neg (p := fun x : Entry => P x.date) hP, ih ns cur cur' hn hc]
    | addPrice d q c v =>
      have e1 : ∀ cur ns cs, entries cur ns (.addPrice d q c v :: cs) = entries cur ns cs := by
        intro cur ns cs; cases ns <;> rfl
      rw [e1, during]
      exact ih ns cur cur' hn hc
    | newTransaction d p n =>
      cases ns with
      | nil => cases hn
      | cons m ns =>
        have hn' : m.1 = d ∧ ns.map (·.1) = (headers cs).map (·.1) := by
          have : m.1 :: ns.map (·.1) = d :: (headers cs).map (·.1) := hn
          rwa [List.cons.injEq] at this
        obtain ⟨hm, hr⟩ := hn'
        rw [during]
        show (entries m ns cs).filter _ = _
        by_cases hP : P d = true
        · have hPm : P m.1 = true := by rw [hm]; exact hP
          rw [if_pos hP, List.filter_cons_of_pos (p := fun n : Int × Str => P n.1) hPm]
          show _ = entries m _ (during P true cs)
          rw [ih ns m m hr fun _ => rfl, hPm]
        · have hPm : ¬ P m.1 = true := by rw [hm]; exact hP
          rw [if_neg hP, List.filter_cons_of_neg (p := fun n : Int × Str => P n.1) hPm]
          have := ih ns m cur' hr fun h => absurd h hPm
          rw [this]
          congr 1
          rw [show P m.1 = false by simpa using hPm]

theorem esum_filter {P : Int → Bool} {u : Weight} (hu : ∀ D py A C, P D = false → u D py A C = 0) (l : List Entry) :
    esum u (l.filter fun x => P x.date) = esum u l := by
  induction l with
  | nil => rfl
  | cons x l ih =>
    have e1 : ∀ l, esum u (x :: l) = u x.date x.payee x.acct x.ccy * x.amt + esum u l := by intro l; simp [esum]
    by_cases hP : P x.date = true
    · rw [List.filter_cons_of_pos (p := fun x : Entry => P x.date) hP, e1, e1, ih]
    · rw [List.filter_cons_of_neg (p := fun x : Entry => P x.date) hP, e1, ih, hu _ _ _ _ (by simpa using hP)]; ring

/-- Books with the same totals of the chosen days, and the same prices. -/
structure SameIn (P : Int → Bool) (b b' : Book) : Prop where
  good : b.Good
  good' : b'.Good
  prices : b.prices = b'.prices
  totals : ∀ u : Weight, (∀ D py A C, P D = false → u D py A C = 0) → wsum (wt u) b.post = wsum (wt u) b'.post

/-- What a loaded book has on the chosen days. -/
theorem loaded_in {le : Env} (he : le.Ok) (hl : PlainLetters le) {fs : Str → Option (List FileLine)} (hdisk : OnDisk le fs) {f : Str} {ls : List FileLine}
    (hf : fs f = some ls) {cs : List Call} (hsay : FileSays fs le.join f [] [] ls cs) (P : Int → Bool) {srt : List Posting → List Posting} (hs : IsSort srt)
    {depth : Nat} {b : Book} (hb : loadBook srt le depth f = .ok b) :
    b.Good ∧ b.prices = (pricesAfter Builder.new.prices (priceLines cs)).build ∧ ∃ ns, FiledAs [] (during P (P (-1)) cs) ns ∧
      ∀ u : Weight, (∀ D py A C, P D = false → u D py A C = 0) → wsum (wt u) b.post = esum u (entries (-1, []) ns (during P (P (-1)) cs)) := by
  obtain ⟨ds, s1, b1, _⟩ := c96_loaded_book he hl hdisk hf hb
  have hsh := readings_shuffled hsay [] ds (.refl _) s1
  obtain ⟨k1, k2, k3⟩ := hsh.facts
  obtain ⟨bb, h1, h2⟩ := id b1
  have hfiled := shuffled_filed (shuffled_symm hsh) (filedAs_aux ds _ bb [] seenInv_new h1)
  refine ⟨b1.wf hs, by rw [built_pricesAfter b1, ← k2], _, filed_during hfiled _, fun u hu => ?_⟩
  rw [wsum_built hs b1 u, ← entries_during cs _ (-1, []) (-1, []) (filed_dates hfiled) fun _ => rfl, esum_filter hu]
  exact (((k3 (-1, []) _).map _).sum_eq).symm

theorem loaded_period {le le' : Env} (he : le.Ok) (he' : le'.Ok) (hl : PlainLetters le) (hl' : PlainLetters le') {fs fs' : Str → Option (List FileLine)}
    (hdisk : OnDisk le fs) (hdisk' : OnDisk le' fs') {f f' : Str} {ls ls' : List FileLine} (hf : fs f = some ls) (hf' : fs' f' = some ls')
    {cs cs' : List Call} (hsay : FileSays fs le.join f [] [] ls cs) (hsay' : FileSays fs' le'.join f' [] [] ls' cs') {P : Int → Bool} (h : SamePeriod P cs cs')
    {srt : List Posting → List Posting} (hs : IsSort srt) {depth depth' : Nat} {b b' : Book} (hb : loadBook srt le depth f = .ok b)
    (hb' : loadBook srt le' depth' f' = .ok b') : SameIn P b b' := by
  obtain ⟨g, p, ns, f1, w⟩ := loaded_in he hl hdisk hf hsay P hs hb
  obtain ⟨g', p', ns', f2, w'⟩ := loaded_in he' hl' hdisk' hf' hsay' P hs hb'
  rw [← h.bookings] at f2 w'
  have e := c02_one_filing f1 f2
  subst e
  exact ⟨g, g', by rw [p, p', h.prices], fun u hu => by rw [w u hu, w' u hu]⟩

/-- An operation that looks at the chosen days only. -/
theorem SameIn.prim {P Q : Int → Bool} {e : OpEnv} (hs : IsSort e.srt) {p : Prim} {b b' c c' : Book} (h : SameIn P b b')
    (hp : ∀ u : Weight, (∀ D py A C, Q D = false → u D py A C = 0) → ∀ D py A C, P D = false → pull e p u D py A C = 0)
    (h1 : p.apply e b = some c) (h2 : p.apply e b' = some c') : SameIn Q c c' :=
  ⟨good_prim hs h.good h1, good_prim hs h.good' h2, by rw [prim_prices h1, prim_prices h2, h.prices], fun u hu => by
    rw [prim_pull hs h.good.1 h1, prim_pull hs h.good'.1 h2, h.totals _ (hp u hu)]⟩

theorem SameIn.all {b b' : Book} (h : SameIn (fun _ => true) b b') : SameTotals b b' :=
  ⟨h.good, h.good', h.prices, fun u => h.totals u fun _ _ _ _ h => by cases h⟩

/-- The rest of the report, once the totals are the same. -/
theorem report_rest {le le' : Env} {depth depth' : Nat} {e : OpEnv} (hs : IsSort e.srt) {fuel : Nat} {a : AppConf} (hd : a.divider ≠ []) {f' : Str} {b b' : Book}
    (hb : loadCmd le depth e.srt a = .ok b) (hb' : loadCmd le' depth' e.srt (a.reading f') = .ok b') (r : ReportConf)
    {o o' : Int → Str → List Str → List Str} (ho : ∀ d py l, (o d py l).Perm l) (ho' : ∀ d py l, (o' d py l).Perm l) (xs args : List Str)
    (h : EndsLike SameTotals (opsCmd e fuel a xs b) (opsCmd e fuel a xs b')) :
    SameShown r (reportCmd le depth e fuel a r o (xs ++ args)) (reportCmd le' depth' e fuel (a.reading f') r o' (xs ++ args)) := by
  have hops : EndsLike SameTotals (opsCmd e fuel a (xs ++ args) b) (opsCmd e fuel (a.reading f') (xs ++ args) b') := by
    show EndsLike SameTotals (opsCmd e fuel a (xs ++ args) b) (opsCmd e fuel a (xs ++ args) b')
    rw [opsCmd_append, opsCmd_append]
    exact EndsLike.bind h fun d d' hdd => ops_totals hs fuel a args hdd
  unfold reportCmd
  rw [hb, hb']
  show SameShown r ((opsCmd e fuel a (xs ++ args) b).bind _) ((opsCmd e fuel (a.reading f') (xs ++ args) b').bind _)
  generalize opsCmd e fuel a (xs ++ args) b = x at *
  generalize opsCmd e fuel (a.reading f') (xs ++ args) b' = y at *
  cases x <;> cases y <;> first
    | exact report_totals hs (a := a) hd r ho ho' hops
    | exact hops.elim
    | exact ⟨(fun ts ts' h => by cases h), fun _ => trivial⟩

/-- **C146** (a): a report that begins with `since=` depends only on the transactions from that day on, and the price lines. -/
theorem c146_since {le le' : Env} (he : le.Ok) (he' : le'.Ok) (hl : PlainLetters le) (hl' : PlainLetters le') {fs fs' : Str → Option (List FileLine)}
    (hdisk : OnDisk le fs) (hdisk' : OnDisk le' fs') (a : AppConf) (f' : Str) {ls ls' : List FileLine} (hf : fs a.ledger = some ls) (hf' : fs' f' = some ls')
    {cs cs' : List Call} (hsay : FileSays fs le.join a.ledger [] [] ls cs) (hsay' : FileSays fs' le'.join f' [] [] ls' cs') {s : Int}
    (h : SamePeriod (fromDay s) cs cs')
    (e : OpEnv) (hs : IsSort e.srt) (depth depth' : Nat) (b b' : Book) (hb : loadCmd le depth e.srt a = .ok b) (hb' : loadCmd le' depth' e.srt (a.reading f') = .ok b')
    (hd : a.divider ≠ []) (fuel : Nat) (r : ReportConf) (o o' : Int → Str → List Str → List Str) (ho : ∀ d py l, (o d py l).Perm l)
    (ho' : ∀ d py l, (o' d py l).Perm l) (op : Str) (hmac : a.macros op = none) (hop : parsePrim e op = some (.since s)) (args : List Str) :
    SameShown r (reportCmd le depth e fuel a r o (op :: args)) (reportCmd le' depth' e fuel (a.reading f') r o' (op :: args)) := by
  have hin := loaded_period he he' hl hl' hdisk hdisk' hf hf' hsay hsay' h hs (loadCmd_book hb) (loadCmd_book hb')
  have hs0 := parse_days (.inr hop)
  refine report_rest hs hd hb hb' r ho ho' [op] args ?_
  cases fuel with
  | zero => trivial
  | succ fuel =>
    rw [opsCmd_one hmac hop, opsCmd_one hmac hop]
    refine SameIn.all (hin.prim hs (p := .since s) (fun u _ D py A C hD => ?_) rfl rfl)
    have : ¬ s ≤ D := by simpa [fromDay] using hD
    simp [pull, hs0, this]

/-- **C146** (b): a report that begins with `since=` and `asof=` depends only on the transactions between the two days, and the price lines. -/
theorem c146_period {le le' : Env} (he : le.Ok) (he' : le'.Ok) (hl : PlainLetters le) (hl' : PlainLetters le') {fs fs' : Str → Option (List FileLine)}
    (hdisk : OnDisk le fs) (hdisk' : OnDisk le' fs') (a : AppConf) (f' : Str) {ls ls' : List FileLine} (hf : fs a.ledger = some ls) (hf' : fs' f' = some ls')
    {cs cs' : List Call} (hsay : FileSays fs le.join a.ledger [] [] ls cs) (hsay' : FileSays fs' le'.join f' [] [] ls' cs') {s d : Int}
    (h : SamePeriod (fromTo s d) cs cs')
    (e : OpEnv) (hs : IsSort e.srt) (depth depth' : Nat) (b b' : Book) (hb : loadCmd le depth e.srt a = .ok b) (hb' : loadCmd le' depth' e.srt (a.reading f') = .ok b')
    (hd : a.divider ≠ []) (fuel : Nat) (r : ReportConf) (o o' : Int → Str → List Str → List Str) (ho : ∀ d py l, (o d py l).Perm l)
    (ho' : ∀ d py l, (o' d py l).Perm l) (op op' : Str) (hmac : a.macros op = none) (hop : parsePrim e op = some (.since s)) (hmac' : a.macros op' = none)
    (hop' : parsePrim e op' = some (.asof d)) (args : List Str) :
    SameShown r (reportCmd le depth e fuel a r o (op :: op' :: args)) (reportCmd le' depth' e fuel (a.reading f') r o' (op :: op' :: args)) := by
  have hin := loaded_period he he' hl hl' hdisk hdisk' hf hf' hsay hsay' h hs (loadCmd_book hb) (loadCmd_book hb')
  have hs0 := parse_days (.inr hop)
  have hd0 := parse_days (.inl hop')
  refine report_rest hs hd hb hb' r ho ho' [op, op'] args ?_
  cases fuel with
  | zero => trivial
  | succ fuel =>
    have e1 := opsCmd_append e (fuel + 1) a [op] [op'] b
    have e2 := opsCmd_append e (fuel + 1) a [op] [op'] b'
    rw [List.singleton_append] at e1 e2
    rw [e1, e2, opsCmd_one hmac hop, opsCmd_one hmac hop]
    refine EndsLike.bind (R := SameIn fun D => decide (D < d)) ?_ fun c c' hcc => ?_
    · refine hin.prim hs (p := .since s) (fun u hu D py A C hD => ?_) rfl rfl
      by_cases h1 : s ≤ D
      · have h2 : ¬ D < d := fun h2 => by simp [fromTo, h1, h2] at hD
        simp only [pull, h1, or_true, if_true]
        exact hu _ _ _ _ (by simpa using h2)
      · simp [pull, hs0, h1]
    · rw [opsCmd_one hmac' hop', opsCmd_one hmac' hop']
      refine SameIn.all (hcc.prim hs (p := .asof d) (fun u _ D py A C hD => ?_) rfl rfl)
      have : ¬ D < d := by simpa using hD
      simp [pull, hd0, this]

/-- C146: a transaction of another day, put anywhere between two transactions, is no booking of the period. -/
theorem c146_elsewhere (P : Int → Bool) (cs ps ds : List Call) (hp : ∀ c ∈ ps, ∃ a q v n, c = Call.addPosting a q v n) (d : Int) (hd : P d = false) (py n : Str)
    (hds : Starts ds) : SamePeriod P (cs ++ ds) (cs ++ .newTransaction d py n :: (ps ++ ds)) := by
  have h0 : ∀ ds, Starts ds → ∀ k k', during P k ds = during P k' ds := by
    intro ds
    induction ds with
    | nil => intro _ k k'; rfl
    | cons x ds ih =>
      intro h k k'
      cases x with
      | newTransaction => rfl
      | addPosting => exact h.elim
      | addPrice => exact ih h k k'
  have h1 : during P false (ps ++ ds) = during P false ds := by
    induction ps with
    | nil => rfl
    | cons x ps ih =>
      obtain ⟨a, q, v, m, rfl⟩ := hp x List.mem_cons_self
      rw [List.cons_append, during, if_neg (by decide)]
      exact ih fun c hc => hp c (List.mem_cons_of_mem _ hc)
  constructor
  · generalize P (-1) = k
    induction cs generalizing k with
    | nil => rw [List.nil_append, List.nil_append, during, if_neg (by rw [hd]; decide), h1]; exact h0 ds hds _ _
    | cons x cs ih =>
      cases x with
      | newTransaction d' py' n' => rw [List.cons_append, List.cons_append, during, during, ih, ih]
      | addPosting a c v m => rw [List.cons_append, List.cons_append, during, during, ih]
      | addPrice d' u c v => rw [List.cons_append, List.cons_append, during, during, ih]
  · have h2 : priceLines ps = [] := by
      clear h1
      induction ps with
      | nil => rfl
      | cons x ps ih =>
        obtain ⟨a, q, v, m, rfl⟩ := hp x List.mem_cons_self
        exact ih fun c hc => hp c (List.mem_cons_of_mem _ hc)
    simp only [priceLines_app, priceLines, h2, List.nil_append]

/-! ## The register -/

theorem SameIn.convert {P : Int → Bool} {b b' c c' : Book} (h : SameIn P b b') {a : AppConf} {cv : Bool} (h1 : convertCmd a cv b = .ok c)
    (h2 : convertCmd a cv b' = .ok c') : SameIn P c c' := by
  have g := good_convert insSort_isSort h.good h1
  have g' := good_convert insSort_isSort h.good' h2
  refine ⟨g, g', by rw [convertCmd_prices h1, convertCmd_prices h2, h.prices], fun u hu => ?_⟩
  unfold convertCmd at h1 h2
  split at h1
  · rename_i e
    rw [if_pos e] at h2
    split at h1
    · cases h1
    · rename_i e
      rw [if_neg e] at h2
      unfold convertBook at h1 h2
      split at h1 <;> cases h1
      split at h2 <;> cases h2
      have hw : ∀ (g : Int → Str → Rat × Str) (l : List Posting), wsum (wt u) (l.map (mapAmountPost g)) = wsum (wt fun D P A C => u D P A (g D C).2 * (g D C).1) l := by
        intro g l
        refine wsum_map _ _ _ (fun p => ?_) _
        simp only [wt, mapAmountPost]
        ring
      show wsum (wt u) (b.post.map _) = wsum (wt u) (b'.post.map _)
      rw [hw, hw, h.prices, h.totals]
      intro D py A C hD
      rw [hu _ _ _ _ hD, zero_mul]
  · rename_i e
    rw [if_neg e] at h2
    cases h1; cases h2
    exact h.totals u hu

/-- **C146** (c), partial: a register of several accounts in one (`--combined`) that begins with `since=`. -/
theorem c146_register_partial {le le' : Env} (he : le.Ok) (he' : le'.Ok) (hl : PlainLetters le) (hl' : PlainLetters le') {fs fs' : Str → Option (List FileLine)}
    (hdisk : OnDisk le fs) (hdisk' : OnDisk le' fs') (a : AppConf) (f' : Str) {ls ls' : List FileLine} (hf : fs a.ledger = some ls) (hf' : fs' f' = some ls')
    {cs cs' : List Call} (hsay : FileSays fs le.join a.ledger [] [] ls cs) (hsay' : FileSays fs' le'.join f' [] [] ls' cs') {s : Int}
    (h : SamePeriod (fromDay s) cs cs') (e : OpEnv) (hs : IsSort e.srt) (depth depth' : Nat) (fuel : Nat) (r : RegisterConf) (hcomb : r.combined = true)
    (op : Str) (hmac : a.macros op = none) (hop : parsePrim e op = some (.since s)) (args : List Str) (arg : Str) (x y : List (Str × List (Option RegEntry)))
    (h1 : registerCmd le depth e fuel a r (op :: args) arg = .ok x) (h2 : registerCmd le' depth' e fuel (a.reading f') r (op :: args) arg = .ok y) :
    SameSections x y := by
  unfold registerCmd at h1 h2
  simp only [List.cons_ne_nil, if_false] at h1 h2
  obtain ⟨d1, h1, k1⟩ := bind_ok h1
  obtain ⟨c1, h1, j1⟩ := bind_ok h1
  obtain ⟨b1, h1, i1⟩ := bind_ok h1
  obtain ⟨d2, h2, k2⟩ := bind_ok h2
  obtain ⟨c2, h2, j2⟩ := bind_ok h2
  obtain ⟨b2, h2, i2⟩ := bind_ok h2
  have hin := loaded_period he he' hl hl' hdisk hdisk' hf hf' hsay hsay' h hs (loadCmd_book h1) (loadCmd_book h2)
  have hc := hin.convert i1 i2
  have hs0 := parse_days (.inr hop)
  have ht : SameTotals d1 d2 := by
    change opsCmd e fuel a ([op] ++ args) c1 = .ok d1 at j1
    change opsCmd e fuel a ([op] ++ args) c2 = .ok d2 at j2
    rw [opsCmd_append] at j1 j2
    have hlike : EndsLike SameTotals ((opsCmd e fuel a [op] c1).bind (opsCmd e fuel a args)) ((opsCmd e fuel a [op] c2).bind (opsCmd e fuel a args)) := by
      refine EndsLike.bind (R := SameTotals) ?_ fun d d' hdd => ops_totals hs fuel a args hdd
      cases fuel with
      | zero => trivial
      | succ fuel =>
        rw [opsCmd_one hmac hop, opsCmd_one hmac hop]
        refine SameIn.all (hc.prim hs (p := .since s) (fun u _ D py A C hD => ?_) rfl rfl)
        have : ¬ s ≤ D := by simpa [fromDay] using hD
        simp [pull, hs0, this]
    rw [j1, j2] at hlike
    exact hlike
  have hgp := compact_alike hs hs ht
  simp only [hcomb, if_true] at k1 k2
  split at k1
  · rename_i hv
    rw [if_pos hv] at k2
    have := EndsLike.bind (registerRows_like (e' := e) rfl (a := a) (a' := a.reading f') rfl r (e.mat arg) (b := d1) (b' := d2) hgp.2.2.trans (by rw [ht.prices]))
      (f := fun rows => CmdEnd.ok [(([] : Str), rows)]) (g := fun rows => CmdEnd.ok [(([] : Str), rows)]) (Q := SameSections) fun rows rows' hr => by
        show SameSections _ _
        unfold SameSections
        simp only [List.map_cons, List.map_nil, hr]
    rw [k1, k2] at this
    exact this
  · cases k1

/-! ## Examples -/

/-- 7 X from C to A on 2 January, and back on 3 January; and the second day alone. -/
def backTxn : List FileLine := [.txn (demoTxn ⟨b!"2020", b!"1", b!"3"⟩ ⟨2020, 1, 3⟩ b!"bank"), partPost b!"C" b!"7" false, partPost b!"A" b!"7" true]

def backFiles : List (Str × List FileLine) := [(b!"both", partTwo ++ backTxn), (b!"back", backTxn)]

def backDisk (f : Str) : Option (List FileLine) := (backFiles.find? fun x => decide (x.1 = f)).map (·.2)

def backEnv : Env := demoEnv (backFiles.map fun x => (x.1, fileText x.2))

example : fileText (backFiles[0]).2 = b!"2020/1/2 * bank ; note\n  A 7 X\n  C -7 X\n2020/1/3 * bank ; note\n  C 7 X\n  A -7 X\n" := by decide +kernel

theorem back_line (l : FileLine) (h : l ∈ partTwo ++ backTxn) : l.Valid ∧ (∀ sp q g, l ≠ .incl sp q g) ∧ (onlyCall l).isSome = true := by
  simp only [partTwo, backTxn, List.cons_append, List.nil_append, List.mem_cons, List.not_mem_nil, or_false] at h
  rcases h with rfl | rfl | rfl | rfl | rfl | rfl
  · exact ⟨part_txn _ (.inr (by simp [partTwo])), by rintro sp q g ⟨⟩, rfl⟩
  · exact ⟨part_txn _ (.inr (by simp [partTwo])), by rintro sp q g ⟨⟩, rfl⟩
  · exact ⟨part_txn _ (.inr (by simp [partTwo])), by rintro sp q g ⟨⟩, rfl⟩
  · exact later_line _ (by simp [laterTxn])
  · exact day_line _ (.inr (by simp [dayFiles]))
  · exact day_line _ (.inr (by simp [dayFiles]))

theorem back_files {f : Str} {ls : List FileLine} (hf : backDisk f = some ls) : (f, ls) ∈ backFiles ∧ ∀ l ∈ ls, l ∈ partTwo ++ backTxn := by
  have hx : (f, ls) ∈ backFiles := by
    unfold backDisk at hf
    cases h : backFiles.find? fun x => decide (x.1 = f) with
    | none => rw [h] at hf; cases hf
    | some x =>
      rw [h] at hf
      have h1 := List.find?_some h
      have h2 := List.mem_of_find?_eq_some h
      simp only [decide_eq_true_eq] at h1
      simp only [Option.map_some, Option.some.injEq] at hf
      rw [← h1, ← hf]
      exact h2
  refine ⟨hx, fun l hl => ?_⟩
  simp only [backFiles, List.mem_cons, Prod.mk.injEq, List.not_mem_nil, or_false] at hx
  rcases hx with ⟨rfl, rfl⟩ | ⟨rfl, rfl⟩
  · exact hl
  · exact List.mem_append_right _ hl

theorem back_disk : OnDisk backEnv backDisk := by
  intro f ls hf
  obtain ⟨hx, hm⟩ := back_files hf
  refine ⟨?_, fun l hl => ⟨(back_line l (hm l hl)).1, fun sp q g e => absurd e ((back_line l (hm l hl)).2.1 sp q g)⟩⟩
  have : ∀ x ∈ backFiles, backEnv.files x.1 = some (fileText x.2) := by decide +kernel
  exact this _ hx

theorem back_says {f : Str} {ls : List FileLine} (h : backDisk f = some ls) : FileSays backDisk backEnv.join f [] [] ls (ls.filterMap onlyCall) :=
  says_calls _ _ _ _ _ fun l hl => (back_line l ((back_files h).2 l hl)).2.2

theorem back_op : parsePrim againOps b!"since=2020-01-03" = some (.since 20200103) := rfl

theorem back_same : SamePeriod (fromDay 20200103) ((backFiles[0]).2.filterMap onlyCall) ((backFiles[1]).2.filterMap onlyCall) :=
  ⟨by decide +kernel, by decide +kernel⟩

def backRegister (combined : Bool) : RegisterConf := ⟨[], [], 0, true, combined, false, false⟩

/-- The sections of the register of account A from 3 January on. -/
def backShown (f : Str) : Option (List Str) :=
  match registerCmd backEnv 5 againOps 5 (partApp f) (backRegister false) [b!"since=2020-01-03"] b!"A" with
  | .ok x => some (x.map (·.1))
  | _ => none

theorem back_shown : backShown b!"both" = some [] ∧ backShown b!"back" = some [b!"A"] := by decide +kernel

/-- **C146** is false of a register with a section for each account: which accounts have one depends on the balance of all days, although the
amounts and balances in it are of the chosen days. -/
theorem c146_register_fails : ¬ ∀ (le : Env) (_ : le.Ok) (_ : PlainLetters le) (fs : Str → Option (List FileLine)) (_ : OnDisk le fs) (a : AppConf) (f' : Str)
    (ls ls' : List FileLine) (_ : fs a.ledger = some ls) (_ : fs f' = some ls') (cs cs' : List Call) (_ : FileSays fs le.join a.ledger [] [] ls cs)
    (_ : FileSays fs le.join f' [] [] ls' cs') (s : Int) (_ : SamePeriod (fromDay s) cs cs') (e : OpEnv) (_ : e.Ok) (depth fuel : Nat) (r : RegisterConf)
    (op : Str) (_ : a.macros op = none) (_ : parsePrim e op = some (.since s)) (arg : Str) (x y : List (Str × List (Option RegEntry))),
    registerCmd le depth e fuel a r [op] arg = .ok x → registerCmd le depth e fuel (a.reading f') r [op] arg = .ok y → SameSections x y := by
  intro h
  have hk := h backEnv (demoEnv_ok _) (demo_letters _) backDisk back_disk (partApp b!"both") b!"back" _ _ rfl rfl _ _ (back_says rfl) (back_says rfl) 20200103
    back_same againOps againOps_ok 5 5 (backRegister false) b!"since=2020-01-03" rfl back_op b!"A"
  obtain ⟨h1, h2⟩ := back_shown
  unfold backShown at h1 h2
  rw [show (partApp b!"both").reading b!"back" = partApp b!"back" from rfl] at hk
  generalize registerCmd backEnv 5 againOps 5 (partApp b!"both") (backRegister false) [b!"since=2020-01-03"] b!"A" = x at *
  generalize registerCmd backEnv 5 againOps 5 (partApp b!"back") (backRegister false) [b!"since=2020-01-03"] b!"A" = y at *
  cases x <;> simp only [Option.some.injEq, reduceCtorEq] at h1
  cases y <;> simp only [Option.some.injEq, reduceCtorEq] at h2
  rename_i x y
  have := hk x y rfl rfl
  have hlen := congrArg List.length this
  simp only [List.length_map] at hlen
  have l1 := congrArg List.length h1
  have l2 := congrArg List.length h2
  simp only [List.length_map] at l1 l2
  rw [l1, l2] at hlen
  cases hlen

/-- The hypotheses hold: the reports of both ledgers from 3 January on, and the combined register. -/
example (r : ReportConf) : SameShown r (reportCmd backEnv 5 againOps 5 (partApp b!"both") r (fun _ _ l => l) [b!"since=2020-01-03"])
      (reportCmd backEnv 5 againOps 5 (partApp b!"back") r (fun _ _ l => l.reverse) [b!"since=2020-01-03"]) := by
  have h1 : (match loadCmd backEnv 5 insSort (partApp b!"both") with | .ok _ => true | _ => false) = true := by decide +kernel
  have h2 : (match loadCmd backEnv 5 insSort (partApp b!"back") with | .ok _ => true | _ => false) = true := by decide +kernel
  split at h1 <;> try cases h1
  split at h2 <;> try cases h2
  rename_i b hb _ b' hb'
  exact c146_since (demoEnv_ok _) (demoEnv_ok _) (demo_letters _) (demo_letters _) back_disk back_disk (partApp b!"both") b!"back" rfl rfl
    (back_says rfl) (back_says rfl) back_same againOps insSort_isSort 5 5 b b' hb hb' (by decide) 5 r _ _ (fun _ _ _ => .refl _) (fun _ _ l => l.reverse_perm)
    b!"since=2020-01-03" rfl back_op []

def backRows (f : Str) : Option (List (List (Option (Int × Rat)))) :=
  match registerCmd backEnv 5 againOps 5 (partApp f) (backRegister true) [b!"since=2020-01-03"] b!"A" with
  | .ok x => some (x.map fun s => s.2.map fun r => r.map fun r => (r.date, r.amount))
  | _ => none

example : backRows b!"both" = some [[some (20200103, -7)]] ∧ backRows b!"back" = some [[some (20200103, -7)]] := by decide +kernel

end Verif
