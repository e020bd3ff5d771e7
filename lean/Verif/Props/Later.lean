import Verif.Props.Included
import Verif.Props.Laws
import Verif.Spec.Later

/-! # C144: later bookings do not change earlier reports -/

namespace Verif
open Spec

/-! ## The postings before a day -/

theorem filter_setBals (d : Int) : ∀ (l : List Posting) (amts : Str × Str → Rat), l.Pairwise (fun p q => p.date ≤ q.date) →
    (setBals amts l).filter (fun p => decide (p.date < d)) = setBals amts (l.filter fun p => decide (p.date < d)) := by
  intro l
  induction l with
  | nil => intro amts _; rfl
  | cons p l ih =>
    intro amts h
    obtain ⟨h1, h2⟩ := List.pairwise_cons.1 h
    by_cases hp : p.date < d
    · rw [List.filter_cons_of_pos (by simpa using hp)]
      simp only [setBals]
      rw [List.filter_cons_of_pos (by simpa using hp), ih _ h2]
    · have e1 : (p :: l).filter (fun p => decide (p.date < d)) = [] := by
        rw [List.filter_eq_nil_iff]
        intro q hq
        rcases List.mem_cons.1 hq with rfl | hq
        · simpa using hp
        · have := h1 q hq; simp only [decide_eq_true_eq]; omega
      rw [e1]
      simp only [setBals]
      rw [List.filter_eq_nil_iff]
      intro q hq
      rcases List.mem_cons.1 hq with rfl | hq
      · simpa using hp
      · obtain ⟨x, hx, b, rfl⟩ := setBals_mem hq
        have := h1 x hx; simp only [decide_eq_true_eq]; omega

theorem inner_strict {srt} (hs : IsSort srt) {l : List Posting} (hl : ∀ p ∈ l, Plain p) :
    (dropZero (mergeAdj (srt l))).Pairwise (fun a b => key a < key b) ∧ ∀ p ∈ dropZero (mergeAdj (srt l)), p.val ≠ 0 := by
  have h1 := compactPost_strict hs hl
  have h2 := compactPost_nonzero (srt := srt) l
  unfold compactPost at h1 h2
  constructor
  · have e : (dropZero (mergeAdj (srt l))).map key = (setBals (fun _ => 0) (dropZero (mergeAdj (srt l)))).map key :=
      (setBals_map key (fun p b => rfl) _ _).symm
    rw [← List.pairwise_map (f := key) (R := (· < ·))] at h1 ⊢
    rw [e]; exact h1
  · intro p hp
    have e := setBals_map (fun p => p.val) (fun p b => rfl) (fun _ => 0) (dropZero (mergeAdj (srt l)))
    have hm : p.val ∈ (dropZero (mergeAdj (srt l))).map (fun p => p.val) := List.mem_map_of_mem hp
    rw [← e] at hm
    obtain ⟨q, hq, hv⟩ := List.mem_map.1 hm
    rw [← hv]; exact h2 q hq

theorem key_date {p q : Posting} (h : key p < key q) : p.date ≤ q.date := by
  rcases key_lt_iff.1 h with h | h
  · exact le_of_lt h
  · exact le_of_eq h.1

theorem compactPost_cut {srt srt'} (hs : IsSort srt) (hs' : IsSort srt') (d : Int) {l m : List Posting} (hl : ∀ p ∈ l, Plain p) (hm : ∀ p ∈ m, Plain p)
    (h : ∀ k : Key, (ofLex k).1 < d → total (fun p => decide (key p = k)) l = total (fun p => decide (key p = k)) m) :
    ((compactPost srt l).filter fun p => decide (p.date < d)).map obs = ((compactPost srt' m).filter fun p => decide (p.date < d)).map obs := by
  obtain ⟨s1, z1⟩ := inner_strict hs hl
  obtain ⟨s2, z2⟩ := inner_strict hs' hm
  unfold compactPost
  rw [filter_setBals d _ _ (s1.imp key_date), filter_setBals d _ _ (s2.imp key_date)]
  apply setBals_obs
  apply canonical_unique (s1.sublist List.filter_sublist) (s2.sublist List.filter_sublist) (fun p hp => z1 p (List.mem_filter.1 hp).1) (fun p hp => z2 p (List.mem_filter.1 hp).1)
  intro k
  have hk : ∀ l : List Posting, total (fun p => decide (key p = k)) (l.filter fun p => decide (p.date < d)) =
      if (ofLex k).1 < d then total (fun p => decide (key p = k)) l else 0 := by
    intro l
    split
    · rename_i hlt
      unfold total
      rw [List.filter_filter]
      congr 2
      refine List.filter_congr fun p _ => ?_
      by_cases e : key p = k
      · have : p.date < d := by rw [← e] at hlt; exact hlt
        simp [e, this]
      · simp [e]
    · rename_i hlt
      refine total_key_absent fun p hp e => hlt ?_
      rw [← e]
      show p.date < d
      simpa using (List.mem_filter.1 hp).2
  rw [hk, hk]
  split
  · rename_i hlt
    have e : ∀ (srt : List Posting → List Posting), IsSort srt → ∀ l : List Posting, total (fun p => decide (key p = k)) (dropZero (mergeAdj (srt l))) =
        total (fun p => decide (key p = k)) l := by
      intro srt hs l
      rw [← total_compactPost hs (keyFun_key k) l, total_eq_wsum, total_eq_wsum]
      unfold compactPost
      rw [wsum_setBals]
      intro p q hpq; simp only [hpq]
    rw [e srt hs, e srt' hs']
    exact h k hlt
  · rfl

/-! ## Books with the same postings before a day -/

/-- Two books with the same postings before day `d`, and the same prices. -/
structure SameUpTo (d : Int) (b b' : Book) : Prop where
  good : b.Good
  good' : b'.Good
  post : List.Forall₂ Alike (b.post.filter fun p => decide (p.date < d)) (b'.post.filter fun p => decide (p.date < d))
  prices : b.prices = b'.prices

theorem SameUpTo.asof {d : Int} (hd : d ≠ 0) {b b' : Book} (h : SameUpTo d b b') : GoodPair (b.filterByDateAsof d) (b'.filterByDateAsof d) := by
  have g := good_op insSort_isSort h.good (o := .asof d) (today := 0) (b' := b.filterByDateAsof d) rfl
  have g' := good_op insSort_isSort h.good' (o := .asof d) (today := 0) (b' := b'.filterByDateAsof d) rfl
  have hp : List.Forall₂ Alike (b.filterByDateAsof d).post (b'.filterByDateAsof d).post := by
    unfold Book.filterByDateAsof
    rw [if_neg hd, if_neg hd, filterTransaction_dates h.good.1 (fun x => decide (x < d)), filterTransaction_dates h.good'.1 (fun x => decide (x < d))]
    exact h.post
  refine ⟨g, g', hp, ?_, ?_⟩
  · rw [g.1.trans_eq, g'.1.trans_eq]
    exact groupTxns_alike hp
  · unfold Book.filterByDateAsof
    rw [if_neg hd, if_neg hd]
    exact h.prices

theorem newTransaction_fields {b b' : Builder} {d : Int} {py n : Str} (h : b.newTransaction d py n = some b') : b'.post = b.post ∧ b'.currDate = d := by
  unfold Builder.newTransaction at h
  cases hcc : b.checkAndClear with
  | none => rw [hcc] at h; cases h
  | some b2 =>
    rw [hcc] at h
    simp only at h
    split at h <;> cases h
    exact ⟨(checkAndClear_fields hcc).1, rfl⟩

theorem notBefore_posts {d : Int} : ∀ (cs : List Call), (∀ c ∈ cs, NotBefore d c) → ∀ (b b' : Builder), d ≤ b.currDate → b.calls cs = some b' →
    ∃ extra, b'.post = b.post ++ extra ∧ ∀ p ∈ extra, d ≤ p.date := by
  intro cs
  induction cs with
  | nil => intro _ b b' _ h; cases h; exact ⟨[], by simp, by simp⟩
  | cons c cs ih =>
    intro hc b b' hd h
    have hr : ∀ c ∈ cs, NotBefore d c := fun c hm => hc c (List.mem_cons_of_mem _ hm)
    have h0 := hc c List.mem_cons_self
    cases c with
    | addPrice => exact h0.elim
    | addPosting a c v n =>
      obtain ⟨ex, e1, e2⟩ := ih hr (b.addPosting a c v n) b' hd h
      refine ⟨⟨b.currDate, b.currPayee, b.currNote, a, c, v, n, 0, 0, [], []⟩ :: ex, by rw [e1]; simp [Builder.addPosting], ?_⟩
      intro p hp
      rcases List.mem_cons.1 hp with rfl | hp
      · exact hd
      · exact e2 p hp
    | newTransaction d' py n =>
      simp only [Builder.calls, Builder.call] at h
      cases hn : b.newTransaction d' py n with
      | none => rw [hn] at h; cases h
      | some b1 =>
        rw [hn] at h
        obtain ⟨f1, f2⟩ := newTransaction_fields hn
        obtain ⟨ex, e1, e2⟩ := ih hr b1 b' (by rw [f2]; exact h0) h
        exact ⟨ex, by rw [e1, f1], e2⟩

theorem later_posts {d : Int} {cs : List Call} (hc : LaterCalls d cs) {b b' : Builder} (h : b.calls cs = some b') :
    ∃ extra, b'.post = b.post ++ extra ∧ ∀ p ∈ extra, d ≤ p.date := by
  cases hc with
  | none => cases h; exact ⟨[], by simp, by simp⟩
  | @some d' py n cs h0 hr =>
    simp only [Builder.calls, Builder.call] at h
    cases hn : b.newTransaction d' py n with
    | none => rw [hn] at h; cases h
    | some b1 =>
      rw [hn] at h
      obtain ⟨f1, f2⟩ := newTransaction_fields hn
      obtain ⟨ex, e1, e2⟩ := notBefore_posts cs hr b1 b' (by rw [f2]; exact h0) h
      exact ⟨ex, by rw [e1, f1], e2⟩

theorem later_prices {d : Int} {cs xs : List Call} (hc : LaterCalls d xs) : priceLines (cs ++ xs) = priceLines cs := by
  have h1 : ∀ xs : List Call, (∀ c ∈ xs, NotBefore d c) → priceLines xs = [] := by
    intro xs
    induction xs with
    | nil => intro _; rfl
    | cons x xs ih =>
      intro h
      have h0 := h x List.mem_cons_self
      cases x with
      | addPrice => exact h0.elim
      | _ => exact ih fun c hm => h c (List.mem_cons_of_mem _ hm)
  have h2 : priceLines xs = [] := by
    cases hc with
    | none => rfl
    | some _ hr => simp only [priceLines]; exact h1 _ hr
  induction cs with
  | nil => exact h2
  | cons c cs ih => cases c <;> simp only [List.cons_append, priceLines, ih]

theorem build_fields {bb : Builder} {srt : List Posting → List Posting} {b : Book} (h : bb.build srt = some b) :
    b.prices = bb.prices.build ∧ (bb.post = [] ∧ b.post = [] ∨ b.post = compactPost srt bb.post) := by
  unfold Builder.build at h
  cases hc : bb.checkAndClear with
  | none => rw [hc] at h; cases h
  | some c =>
    rw [hc] at h
    simp only [Option.some.injEq] at h
    obtain ⟨f1, f2⟩ := checkAndClear_fields hc
    subst h
    rw [f1, f2]
    unfold Book.compact
    by_cases h0 : bb.post = []
    · rw [if_pos h0]; exact ⟨rfl, .inl ⟨h0, h0⟩⟩
    · rw [if_neg h0]; exact ⟨rfl, .inr rfl⟩

theorem calls_split : ∀ (cs xs : List Call) (b b' : Builder), b.calls (cs ++ xs) = some b' → ∃ c, b.calls cs = some c ∧ c.calls xs = some b' := by
  intro cs
  induction cs with
  | nil => intro xs b b' h; exact ⟨b, rfl, h⟩
  | cons c cs ih =>
    intro xs b b' h
    simp only [List.cons_append, Builder.calls] at h ⊢
    cases hc : b.call c with
    | none => rw [hc] at h; cases h
    | some b1 => rw [hc] at h; exact ih xs b1 b' h

theorem compactPost_nil {srt : List Posting → List Posting} (hs : IsSort srt) : compactPost srt [] = [] := by
  unfold compactPost; rw [srt_nil hs]; rfl

/-- Later bookings leave the postings before the day as they are. -/
theorem built_later {srt srt' : List Posting → List Posting} (hs : IsSort srt) (hs' : IsSort srt') {d : Int} {cs xs : List Call} (hx : LaterCalls d xs) {b b' : Book}
    (hb : Built srt cs b) (hb' : Built srt' (cs ++ xs) b') : SameUpTo d b b' := by
  have g := hb.wf hs
  have g' := hb'.wf hs'
  obtain ⟨bb, h1, h2⟩ := hb
  obtain ⟨bb', h1', h2'⟩ := hb'
  obtain ⟨p1, q1⟩ := build_fields h2
  obtain ⟨p2, q2⟩ := build_fields h2'
  obtain ⟨bc, c1, c2⟩ := calls_split cs xs _ _ h1'
  rw [h1] at c1
  cases c1
  obtain ⟨ex, e1, e2⟩ := later_posts hx c2
  have q1 : b.post = compactPost srt bb.post := by
    rcases q1 with ⟨a1, a2⟩ | a
    · rw [a1, a2, compactPost_nil hs]
    · exact a
  have q2 : b'.post = compactPost srt' bb'.post := by
    rcases q2 with ⟨a1, a2⟩ | a
    · rw [a1, a2, compactPost_nil hs']
    · exact a
  refine ⟨g, g', ?_, by rw [p1, p2, prices_lines cs _ _ h1, prices_lines _ _ _ h1', later_prices hx]⟩
  rw [forall₂_alike, q1, q2]
  refine compactPost_cut hs hs' d (builder_post _ _ h1).2 (builder_post _ _ h1').2 fun k hk => ?_
  rw [e1, total_append, total_key_absent (l := ex), add_zero]
  intro p hp e
  have := e2 p hp
  rw [← e] at hk
  exact absurd (show p.date < d from hk) (by omega)

theorem alike_trans {l m n : List Posting} (h : List.Forall₂ Alike l m) (k : List.Forall₂ Alike m n) : List.Forall₂ Alike l n := by
  rw [forall₂_alike] at *; rw [h, k]

theorem alike_filter {d : Int} {l m : List Posting} (h : List.Forall₂ Alike l m) :
    List.Forall₂ Alike (l.filter fun p => decide (p.date < d)) (m.filter fun p => decide (p.date < d)) := by
  induction h with
  | nil => exact .nil
  | cons h _ ih =>
    rw [List.filter_cons, List.filter_cons, h.fields.1]
    split
    · exact .cons h ih
    · exact ih

theorem SameUpTo.through {d : Int} {b b1 b2 b' : Book} (h1 : GoodPair b b1) (h : SameUpTo d b1 b2) (h2 : GoodPair b2 b') : SameUpTo d b b' :=
  ⟨h1.1, h2.2.1, alike_trans (alike_filter h1.2.2.post) (alike_trans h.post (alike_filter h2.2.2.post)), by rw [h1.2.2.prices, h.prices, h2.2.2.prices]⟩

/-- A ledger and one that says more, of later days. -/
theorem loaded_later {le le' : Env} (he : le.Ok) (he' : le'.Ok) (hl : PlainLetters le) (hl' : PlainLetters le') {fs fs' : Str → Option (List FileLine)}
    (hdisk : OnDisk le fs) (hdisk' : OnDisk le' fs') {f f' : Str} {ls ls' : List FileLine} (hf : fs f = some ls) (hf' : fs' f' = some ls')
    {cs xs : List Call} (hsay : FileSays fs le.join f [] [] ls cs) (hsay' : FileSays fs' le'.join f' [] [] ls' (cs ++ xs)) {d : Int} (hx : LaterCalls d xs)
    {srt srt' : List Posting → List Posting} (hs : IsSort srt) (hs' : IsSort srt') {depth depth' : Nat} {b b' : Book} (hb : loadBook srt le depth f = .ok b)
    (hb' : loadBook srt' le' depth' f' = .ok b') : SameUpTo d b b' := by
  obtain ⟨ds, s1, b1, l1⟩ := c96_loaded_book he hl hdisk hf hb
  obtain ⟨ds', s2, b2, l2⟩ := c96_loaded_book he' hl' hdisk' hf' hb'
  obtain ⟨m1, hm1⟩ := (c01_build_iff_balanced srt cs).2 (readings_balance s1 hsay l1)
  obtain ⟨m2, hm2⟩ := (c01_build_iff_balanced srt' (cs ++ xs)).2 (readings_balance s2 hsay' l2)
  have k1 : Built srt cs m1 := Option.bind_eq_some_iff.1 hm1
  have k2 : Built srt' (cs ++ xs) m2 := Option.bind_eq_some_iff.1 hm2
  have j1 : GoodPair b m1 := ⟨b1.wf hs, k1.wf hs, built_shuffled hs hs (readings_shuffled s1 [] cs (.refl _) hsay) b1 k1⟩
  have j2 : GoodPair m2 b' := ⟨k2.wf hs', b2.wf hs', built_shuffled hs' hs' (readings_shuffled hsay' [] ds' (.refl _) s2) k2 b2⟩
  exact SameUpTo.through j1 (built_later hs hs' hx k1 k2) j2

/-- Converting keeps what there is before the day. -/
theorem SameUpTo.convert {d : Int} {b b' c c' : Book} (h : SameUpTo d b b') {a : AppConf} {cv : Bool} (h1 : convertCmd a cv b = .ok c) (h2 : convertCmd a cv b' = .ok c') :
    SameUpTo d c c' := by
  have g := good_convert insSort_isSort h.good h1
  have g' := good_convert insSort_isSort h.good' h2
  refine ⟨g, g', ?_, by rw [convertCmd_prices h1, convertCmd_prices h2, h.prices]⟩
  have hp := h.post
  unfold convertCmd at h1 h2
  split at h1
  · rename_i e
    rw [if_pos e] at h2
    split at h1
    · cases h1
    · rename_i e
      rw [if_neg e] at h2
      unfold convertBook at h1 h2
      split at h1 <;> cases h1
      split at h2 <;> cases h2
      have hf : ∀ (g : Int → Str → Rat × Str) (l : List Posting), (l.map (mapAmountPost g)).filter (fun p => decide (p.date < d)) =
          (l.filter fun p => decide (p.date < d)).map (mapAmountPost g) := by
        intro g l; rw [List.filter_map]; rfl
      show List.Forall₂ Alike ((b.post.map _).filter _) ((b'.post.map _).filter _)
      rw [hf, hf, h.prices, List.forall₂_map_left_iff, List.forall₂_map_right_iff]
      refine hp.imp fun p q hpq => ?_
      obtain ⟨f1, f2, f3, f4, f5, f6⟩ := hpq.fields
      rw [alike_iff]
      simp only [mapAmountPost, f1, f2, f3, f4, f5, f6, and_self]
  · rename_i e
    rw [if_neg e] at h2
    cases h1; cases h2
    exact hp

/-- **C144** (partial: the price lines stay the same): a report of the days before `d` (its first operation is `asof=` with that day) does not change if
transactions of that day and later are added to the ledger. -/
theorem c144_report_partial {le le' : Env} (he : le.Ok) (he' : le'.Ok) (hl : PlainLetters le) (hl' : PlainLetters le') {fs fs' : Str → Option (List FileLine)}
    (hdisk : OnDisk le fs) (hdisk' : OnDisk le' fs') (a : AppConf) (f' : Str) {ls ls' : List FileLine} (hf : fs a.ledger = some ls) (hf' : fs' f' = some ls')
    {cs xs : List Call} (hsay : FileSays fs le.join a.ledger [] [] ls cs) (hsay' : FileSays fs' le'.join f' [] [] ls' (cs ++ xs)) {d : Int}
    (hx : LaterCalls d xs) (e : OpEnv) (hs : IsSort e.srt) (srt' : List Posting → List Posting) (hs' : IsSort srt')
    (depth depth' : Nat) (b b' : Book) (hb : loadCmd le depth e.srt a = .ok b) (hb' : loadCmd le' depth' srt' (a.reading f') = .ok b')
    (op : Str) (hmac : a.macros op = none) (hop : parsePrim e op = some (.asof d))
    (hd : a.divider ≠ []) (fuel : Nat) (r : ReportConf) (o o' : Int → Str → List Str → List Str) (ho : ∀ d py l, (o d py l).Perm l)
    (ho' : ∀ d py l, (o' d py l).Perm l) (args : List Str) :
    EndsLike (SameReport r) (reportCmd le depth e fuel a r o (op :: args)) (reportCmd le' depth' (e.sorting srt') fuel (a.reading f') r o' (op :: args)) := by
  have hup := loaded_later he he' hl hl' hdisk hdisk' hf hf' hsay hsay' hx hs hs' (loadCmd_book hb) (loadCmd_book hb')
  unfold reportCmd
  rw [hb, show (e.sorting srt').srt = srt' from rfl, hb']
  refine EndsLike.bind (R := GoodPair) ?_ fun b b' hb => reportTxns_like hs hs' (a := a) hd r ho ho' hb
  show EndsLike GoodPair (opsCmd e fuel a ([op] ++ args) b) (opsCmd (e.sorting srt') fuel a ([op] ++ args) b')
  rw [opsCmd_append, opsCmd_append]
  refine EndsLike.bind (R := GoodPair) ?_ fun b b' hb => ops_like hs hs' fuel a args hb
  cases fuel with
  | zero => trivial
  | succ fuel =>
    rw [opsCmd_one hmac hop, opsCmd_one (e := e.sorting srt') hmac hop]
    exact hup.asof (parse_days (.inl hop))

/-- **C144** (partial: the price lines stay the same): the same of a register; if it converts, a posting of a later day may make the conversion crash
(a register converts before the operations), otherwise both end alike. -/
theorem c144_register_partial {le le' : Env} (he : le.Ok) (he' : le'.Ok) (hl : PlainLetters le) (hl' : PlainLetters le') {fs fs' : Str → Option (List FileLine)}
    (hdisk : OnDisk le fs) (hdisk' : OnDisk le' fs') (a : AppConf) (f' : Str) {ls ls' : List FileLine} (hf : fs a.ledger = some ls) (hf' : fs' f' = some ls')
    {cs xs : List Call} (hsay : FileSays fs le.join a.ledger [] [] ls cs) (hsay' : FileSays fs' le'.join f' [] [] ls' (cs ++ xs)) {d : Int}
    (hx : LaterCalls d xs) (e : OpEnv) (hs : IsSort e.srt) (srt' : List Posting → List Posting) (hs' : IsSort srt')
    (depth depth' : Nat) (b b' : Book) (hb : loadCmd le depth e.srt a = .ok b) (hb' : loadCmd le' depth' srt' (a.reading f') = .ok b')
    (op : Str) (hmac : a.macros op = none) (hop : parsePrim e op = some (.asof d)) (fuel : Nat) (r : RegisterConf) (args : List Str) (arg : Str) :
    (r.convert = false → EndsLike SameSections (registerCmd le depth e fuel a r (op :: args) arg)
      (registerCmd le' depth' (e.sorting srt') fuel (a.reading f') r (op :: args) arg)) ∧
    ∀ s s', registerCmd le depth e fuel a r (op :: args) arg = .ok s → registerCmd le' depth' (e.sorting srt') fuel (a.reading f') r (op :: args) arg = .ok s' →
      SameSections s s' := by
  have hup := loaded_later he he' hl hl' hdisk hdisk' hf hf' hsay hsay' hx hs hs' (loadCmd_book hb) (loadCmd_book hb')
  have key : ∀ c c' : Book, SameUpTo d c c' →
      EndsLike SameSections ((opsCmd e fuel a (op :: args) c).bind fun b => registerShow e a r arg b)
        ((opsCmd (e.sorting srt') fuel (a.reading f') (op :: args) c').bind fun b => registerShow (e.sorting srt') (a.reading f') r arg b) := by
    intro c c' hc
    refine EndsLike.bind (R := GoodPair) ?_ fun b b' hb => registerShow_like (e := e) (e' := e.sorting srt') (a := a) (a' := a.reading f') rfl rfl rfl rfl rfl r arg
      hb.2.2.post (transactions_same hs hs' hb.1 hb.2.1 hb.2.2) (by rw [hb.2.2.prices])
    show EndsLike GoodPair (opsCmd e fuel a ([op] ++ args) c) (opsCmd (e.sorting srt') fuel a ([op] ++ args) c')
    rw [opsCmd_append, opsCmd_append]
    refine EndsLike.bind (R := GoodPair) ?_ fun b b' hb => ops_like hs hs' fuel a args hb
    cases fuel with
    | zero => trivial
    | succ fuel =>
      rw [opsCmd_one hmac hop, opsCmd_one (e := e.sorting srt') hmac hop]
      exact hc.asof (parse_days (.inl hop))
  have run : ∀ c c', convertCmd a r.convert b = .ok c → convertCmd a r.convert b' = .ok c' →
      EndsLike SameSections (registerCmd le depth e fuel a r (op :: args) arg) (registerCmd le' depth' (e.sorting srt') fuel (a.reading f') r (op :: args) arg) := by
    intro c c' h1 h2
    unfold registerCmd
    rw [hb, show (e.sorting srt').srt = srt' from rfl, hb']
    simp only [CmdEnd.bind, List.cons_ne_nil, if_false]
    rw [h1, show convertCmd (a.reading f') r.convert b' = convertCmd a r.convert b' from rfl, h2]
    exact key c c' (hup.convert h1 h2)
  constructor
  · intro hcv
    have hno : ∀ b : Book, convertCmd a r.convert b = .ok b := fun b => by unfold convertCmd; rw [hcv, if_neg (by decide)]
    exact run b b' (hno b) (hno b')
  · intro s s' h1 h2
    have g1 : ∃ c, convertCmd a r.convert b = .ok c := by
      unfold registerCmd at h1
      rw [hb] at h1
      simp only [CmdEnd.bind, List.cons_ne_nil, if_false] at h1
      cases hc : convertCmd a r.convert b with
      | ok c => exact ⟨c, rfl⟩
      | _ => rw [hc] at h1; cases h1
    have g2 : ∃ c, convertCmd a r.convert b' = .ok c := by
      unfold registerCmd at h2
      rw [show (e.sorting srt').srt = srt' from rfl, hb'] at h2
      simp only [CmdEnd.bind, List.cons_ne_nil, if_false] at h2
      rw [show convertCmd (a.reading f') r.convert b' = convertCmd a r.convert b' from rfl] at h2
      cases hc : convertCmd a r.convert b' with
      | ok c => exact ⟨c, rfl⟩
      | _ => rw [hc] at h2; cases h2
    obtain ⟨c, g1⟩ := g1
    obtain ⟨c', g2⟩ := g2
    have := run c c' g1 g2
    rw [h1, h2] at this
    exact this

/-! ## The lines of the added transactions -/

theorem notBefore_says {fs : Str → Option (List FileLine)} {join : Str → Str → Str} {fn : Str} {d : Int} {als : List (Str × Str)} {pre : List Call}
    {ls : List FileLine} {xs : List Call} (h : FileSays fs join fn als pre ls xs) : (∀ l ∈ ls, l.NotBefore d) → ∀ c ∈ xs, NotBefore d c := by
  induction h with
  | nil fn als pre => intro _ c hc; cases hc
  | txn fn als pre t ls cs _ ih =>
    intro hl c hc
    rcases List.mem_cons.1 hc with rfl | hc
    · exact hl _ List.mem_cons_self
    · exact ih (fun l hm => hl l (List.mem_cons_of_mem _ hm)) c hc
  | posting fn als pre l ls cs _ ih =>
    intro hl c hc
    rcases List.mem_cons.1 hc with rfl | hc
    · trivial
    · exact ih (fun l hm => hl l (List.mem_cons_of_mem _ hm)) c hc
  | rest fn als pre r adds ls cs h1 h2 _ ih =>
    intro hl c hc
    rcases List.mem_append.1 hc with hc | hc
    · obtain ⟨x, -, rfl⟩ := List.mem_map.1 hc
      trivial
    · exact ih (fun l hm => hl l (List.mem_cons_of_mem _ hm)) c hc
  | price fn als pre p ls cs _ _ => intro hl; exact (hl _ List.mem_cons_self).elim
  | incl fn als pre sp q f ls' cs' ls cs _ _ _ _ _ => intro hl; exact (hl _ List.mem_cons_self).elim
  | blank fn als pre sp ls cs _ ih => intro hl; exact ih fun l hm => hl l (List.mem_cons_of_mem _ hm)
  | comment fn als pre sp s ls cs _ ih => intro hl; exact ih fun l hm => hl l (List.mem_cons_of_mem _ hm)
  | unused fn als pre c s ls cs _ ih => intro hl; exact ih fun l hm => hl l (List.mem_cons_of_mem _ hm)
  | short fn als pre sp1 s sp2 sp3 l sp4 ls cs _ ih => intro hl; exact ih fun l hm => hl l (List.mem_cons_of_mem _ hm)

/-- C144: lines of transactions of the day and later are what the theorems above ask of the ledger's continuation. -/
theorem c144_lines_partial {fs : Str → Option (List FileLine)} {join : Str → Str → Str} {fn : Str} {ls more : List FileLine} {cs : List Call} {d : Int}
    (hm : LaterLines d more) (h : FileSays fs join fn [] [] (ls ++ more) cs) :
    ∃ c1 xs, cs = c1 ++ xs ∧ FileSays fs join fn [] [] ls c1 ∧ LaterCalls d xs := by
  obtain ⟨c1, xs, rfl, h1, h2⟩ := (says_append ls more).1 h
  refine ⟨c1, xs, rfl, h1, ?_⟩
  clear h h1
  generalize ([] : List (Str × Str)) ++ aliasesOf ls = als at h2
  generalize ([] : List Call) ++ c1 = pre at h2
  induction hm generalizing als pre xs with
  | none => cases h2; exact .none
  | txn ht hr => cases h2 with | txn _ _ _ _ _ _ h => exact .some ht (notBefore_says h hr)
  | silent hq _ ih =>
    cases h2 with
    | blank _ _ _ _ _ _ h => exact ih _ _ _ h
    | comment _ _ _ _ _ _ _ h => exact ih _ _ _ h
    | unused _ _ _ _ _ _ _ h => exact ih _ _ _ h
    | _ => cases hq

/-! ## Examples -/

/-- A price of X on a day of January 2020. -/
def quotedOn (day : Str) (n : Nat) (digits : Str) : FileLine := .price {
  sp0 := [32], day := ⟨b!"2020", b!"01", day⟩, date := ⟨2020, 1, n⟩, sp1 := [32], hour := b!"00", minute := b!"00", second := b!"00",
  sp2 := [32], unitQuoted := false, unit := b!"X", sp3 := [32], ccyFirst := false, quoted := false, ccy := b!"Y", sp4 := [32],
  num := ⟨false, digits, none⟩ }

def laterTxn : List FileLine := [.txn (demoTxn ⟨b!"2020", b!"1", b!"3"⟩ ⟨2020, 1, 3⟩ b!"bank"), partPost b!"A" b!"7" false, partPost b!"B" b!"7" true]

def laterBase : List FileLine := quotedOn b!"01" 1 b!"2" :: partOne

/-- A ledger, the ledger with a transaction of the next day, and the ledger with a price of the next day. -/
def laterFiles : List (Str × List FileLine) := [
  (b!"main", laterBase), (b!"more", laterBase ++ laterTxn), (b!"priced", laterBase ++ [quotedOn b!"03" 3 b!"4"])]

def laterDisk (f : Str) : Option (List FileLine) := (laterFiles.find? fun x => decide (x.1 = f)).map (·.2)

def laterEnv : Env := demoEnv (laterFiles.map fun x => (x.1, fileText x.2))

example : fileText (laterFiles[1]).2 =
    b!"P 2020/01/01 00:00:00 X 2 Y\n2020/1/2 * shop ; note\n  A 5 X\n  B -5 X\n2020/1/3 * bank ; note\n  A 7 X\n  B -7 X\n" := by decide +kernel

theorem later_line (l : FileLine) (h : l ∈ laterBase ++ (laterTxn ++ [quotedOn b!"03" 3 b!"4"])) :
    l.Valid ∧ (∀ sp q g, l ≠ .incl sp q g) ∧ (onlyCall l).isSome = true := by
  have hnote : (⟨some b!"note", [32], [32]⟩ : NoteText).Valid := by
    refine ⟨by decide, ?_, ?_⟩
    · rintro s ⟨⟩; decide
    · rintro s c r ⟨⟩ h; cases h; decide
  have hq : ∀ day n digits, (quotedOn day n digits = quotedOn b!"01" 1 b!"2" ∨ quotedOn day n digits = quotedOn b!"03" 3 b!"4") → (quotedOn day n digits).Valid := by
    intro day n digits h
    rcases h with h | h <;> rw [h] <;>
      exact ⟨⟨by decide, by decide, by decide⟩, by decide, by decide, by decide, by decide, by decide, by decide,
        ⟨⟨by decide, by rintro f ⟨⟩⟩, by decide, by decide⟩, ⟨_, _, rfl, by decide⟩, by decide, by decide, by decide⟩
  simp only [laterBase, laterTxn, List.cons_append, List.mem_cons, List.mem_append, List.not_mem_nil, or_false, false_or] at h
  rcases h with rfl | h | rfl | rfl | rfl | rfl
  · exact ⟨hq _ _ _ (.inl rfl), by rintro sp q g ⟨⟩, rfl⟩
  · exact quote_line l (.inr h)
  · exact ⟨⟨⟨by decide, by decide, by decide⟩, by decide, by decide, by decide, by decide, by decide, by decide, by decide, hnote⟩, by rintro sp q g ⟨⟩, rfl⟩
  · refine ⟨part_txn _ (.inr ?_), by rintro sp q g ⟨⟩, rfl⟩; simp [partTwo]
  · refine ⟨?_, by rintro sp q g ⟨⟩, rfl⟩
    exact ⟨⟨by decide, by decide, by decide, by decide, ⟨⟨by decide, by rintro f ⟨⟩⟩, by decide, by decide⟩, ⟨_, _, rfl, by decide⟩,
        by decide, by decide, by rintro _ c r ⟨⟩; decide, by decide, by rintro n ⟨⟩⟩, by decide⟩
  · exact ⟨hq _ _ _ (.inr rfl), by rintro sp q g ⟨⟩, rfl⟩

theorem later_files {f : Str} {ls : List FileLine} (hf : laterDisk f = some ls) : (f, ls) ∈ laterFiles := by
  unfold laterDisk at hf
  cases h : laterFiles.find? fun x => decide (x.1 = f) with
  | none => rw [h] at hf; cases hf
  | some x =>
    rw [h] at hf
    have h1 := List.find?_some h
    have h2 := List.mem_of_find?_eq_some h
    simp only [decide_eq_true_eq] at h1
    simp only [Option.map_some, Option.some.injEq] at hf
    rw [← h1, ← hf]
    exact h2

theorem later_lines {f : Str} {ls : List FileLine} (hf : (f, ls) ∈ laterFiles) : ∀ l ∈ ls, l ∈ laterBase ++ (laterTxn ++ [quotedOn b!"03" 3 b!"4"]) := by
  intro l hl
  simp only [laterFiles, List.mem_cons, Prod.mk.injEq, List.not_mem_nil, or_false] at hf
  rcases hf with ⟨rfl, rfl⟩ | ⟨rfl, rfl⟩ | ⟨rfl, rfl⟩ <;> simp only [List.mem_append, List.mem_cons, List.not_mem_nil, or_false] at hl ⊢ <;> tauto

theorem later_disk : OnDisk laterEnv laterDisk := by
  intro f ls hf
  have hx := later_files hf
  refine ⟨?_, fun l hl => ⟨(later_line l (later_lines hx l hl)).1, fun sp q g e => absurd e ((later_line l (later_lines hx l hl)).2.1 sp q g)⟩⟩
  have : ∀ x ∈ laterFiles, laterEnv.files x.1 = some (fileText x.2) := by decide +kernel
  exact this _ hx

theorem later_says {f : Str} {ls : List FileLine} (h : laterDisk f = some ls) : FileSays laterDisk laterEnv.join f [] [] ls (ls.filterMap onlyCall) :=
  says_calls _ _ _ _ _ fun l hl => (later_line l (later_lines (later_files h) l hl)).2.2

theorem later_op : parsePrim againOps b!"asof=2020-01-03" = some (.asof 20200103) := rfl

/-- What a converted report of the days before 3 January shows on account A. -/
def laterShown (f : Str) : Option Rat :=
  match reportCmd laterEnv 5 againOps 5 (partApp f) (partConf false) (fun _ _ l => l) [b!"asof=2020-01-03"] with
  | .ok ts => some (chosenTotal (fun _ ac _ => decide (ac = b!"A")) ts.flatten)
  | _ => none

theorem later_shown : laterShown b!"main" = some 10 ∧ laterShown b!"more" = some 10 ∧ laterShown b!"priced" = some 15 := by decide +kernel

/-- **C144** is false for an added price of a later day: rates between two prices are interpolated, so it changes the amounts of the days before. -/
theorem c144_price_fails : ¬ ∀ (le : Env) (_ : le.Ok) (_ : PlainLetters le) (fs : Str → Option (List FileLine)) (_ : OnDisk le fs) (a : AppConf) (f' : Str)
    (ls : List FileLine) (p : PriceLine) (_ : fs a.ledger = some ls) (_ : fs f' = some (ls ++ [.price p])) (d : Int) (_ : d ≤ p.date.code)
    (e : OpEnv) (_ : e.Ok) (op : Str) (_ : a.macros op = none) (_ : parsePrim e op = some (.asof d)) (_ : a.divider ≠ []) (r : ReportConf)
    (o : Int → Str → List Str → List Str) (_ : ∀ d py l, (o d py l).Perm l) (depth fuel : Nat) (ts ts' : List Txn),
    reportCmd le depth e fuel a r o [op] = .ok ts → reportCmd le depth e fuel (a.reading f') r o [op] = .ok ts' → SameReport r ts ts' := by
  intro h
  have hk := h laterEnv (demoEnv_ok _) (demo_letters _) laterDisk later_disk (partApp b!"main") b!"priced" laterBase _ rfl rfl 20200103 (by decide) againOps
    againOps_ok b!"asof=2020-01-03" rfl later_op (by decide) (partConf false) (fun _ _ l => l) (fun _ _ _ => .refl _) 5 5
  obtain ⟨h1, -, h2⟩ := later_shown
  unfold laterShown at h1 h2
  rw [show (partApp b!"main").reading b!"priced" = partApp b!"priced" from rfl] at hk
  generalize reportCmd laterEnv 5 againOps 5 (partApp b!"main") (partConf false) (fun _ _ l => l) [b!"asof=2020-01-03"] = x at *
  generalize reportCmd laterEnv 5 againOps 5 (partApp b!"priced") (partConf false) (fun _ _ l => l) [b!"asof=2020-01-03"] = y at *
  cases x <;> simp only [Option.some.injEq, reduceCtorEq] at h1
  cases y <;> simp only [Option.some.injEq, reduceCtorEq] at h2
  rename_i ts ts'
  have hs : SameTxns ts ts' := by
    have := hk ts ts' rfl rfl
    unfold SameReport at this
    rwa [if_neg (by decide)] at this
  have hflat : ts.flatten.map obs = ts'.flatten.map obs := by rw [List.map_flatten, List.map_flatten, hs]
  have hal := forall₂_alike.2 hflat
  have := total_alike (P := fun p => decide (p.acct = b!"A")) (fun p q hpq => by rw [hpq.fields.2.2.1]) hal
  have h12 : (10 : Rat) = 15 := h1.symm.trans (Eq.trans this h2)
  norm_num at h12

/-- The hypotheses of the theorem hold: a ledger and its continuation. -/
example (r : ReportConf) : EndsLike (SameReport r) (reportCmd laterEnv 5 againOps 5 (partApp b!"main") r (fun _ _ l => l) [b!"asof=2020-01-03"])
    (reportCmd laterEnv 5 (againOps.sorting insSort) 5 (partApp b!"more") r (fun _ _ l => l.reverse) [b!"asof=2020-01-03"]) := by
  have h1 : (match loadCmd laterEnv 5 insSort (partApp b!"main") with | .ok _ => true | _ => false) = true := by decide +kernel
  have h2 : (match loadCmd laterEnv 5 insSort (partApp b!"more") with | .ok _ => true | _ => false) = true := by decide +kernel
  split at h1 <;> try cases h1
  split at h2 <;> try cases h2
  rename_i b hb _ b' hb'
  have hm : LaterLines 20200103 laterTxn := .txn (by decide) (by simp [partPost, FileLine.NotBefore])
  obtain ⟨c1, xs, e, s1, hx⟩ := c144_lines_partial (ls := laterBase) hm (later_says (f := b!"more") rfl)
  exact c144_report_partial (demoEnv_ok _) (demoEnv_ok _) (demo_letters _) (demo_letters _) later_disk later_disk (partApp b!"main") b!"more" rfl rfl
    (says_renamed s1 fun _ _ _ _ => rfl) (e ▸ later_says (f := b!"more") rfl) hx againOps insSort_isSort insSort insSort_isSort 5 5 b b' hb hb' b!"asof=2020-01-03" rfl later_op
    (by decide) 5 r _ _ (fun _ _ _ => .refl _) (fun _ _ l => l.reverse_perm) []

end Verif
