import Verif.Props.OrderReg

/-! # C141: the order of the price lines does not matter -/

namespace Verif
open Spec

theorem recorded_lines (u c : Str) (cs : List Call) :
    recorded u c cs = ((priceLines cs).filter fun x => decide (x.2.1 = u ∧ x.2.2.1 = c)).map fun x => ⟨x.1, x.2.2.2⟩ := by
  induction cs with
  | nil => rfl
  | cons x cs ih =>
    cases x with
    | addPrice d u' c' v =>
      simp only [recorded, priceLines, List.filter_cons, decide_eq_true_eq]
      split
      · rw [List.map_cons, ih]
      · exact ih
    | newTransaction d p n => exact ih
    | addPosting a c v n => exact ih

theorem recorded_once {u c : Str} {cs : List Call} (h : ((priceLines cs).map fun x => (x.1, x.2.1, x.2.2.1)).Nodup) : ((recorded u c cs).map (·.date)).Nodup := by
  rw [recorded_lines, List.map_map]
  have h1 : (((priceLines cs).filter fun x => decide (x.2.1 = u ∧ x.2.2.1 = c)).map fun x => (x.1, x.2.1, x.2.2.1)).Nodup :=
    h.sublist ((List.filter_sublist).map _)
  rw [List.nodup_iff_pairwise_ne, List.pairwise_map] at h1 ⊢
  refine h1.imp_of_mem fun {x y} hx hy hne he => hne ?_
  simp only [List.mem_filter, decide_eq_true_eq] at hx hy
  simp only [Function.comp_apply] at he
  rw [he, hx.2.1, hx.2.2, hy.2.1, hy.2.2]

theorem sameContent_shuffled {cs cs' ds ds' : List Call} (h : SameContent cs cs') (h1 : Shuffled cs ds) (h2 : Shuffled cs' ds') : SameContent ds ds' := by
  obtain ⟨a1, a2, a3⟩ := h1.facts
  obtain ⟨b1, b2, b3⟩ := h2.facts
  refine ⟨by rw [← a1]; exact h.distinct, by rw [← a1]; exact h.dated, by rw [← a1, ← b1]; exact h.headers, ?_, by rw [← a2, ← b2]; exact h.prices,
    by rw [← a2]; exact h.once⟩
  rw [← a1, ← b1]
  exact ((a3 _ _).symm.trans h.booked).trans (b3 _ _)

/-- C141: both balance, or neither. -/
theorem c141_balance {cs cs' : List Call} (h : SameContent cs cs') : (∀ s ∈ segments [] cs, SegBalanced s) ↔ ∀ s ∈ segments [] cs', SegBalanced s := by
  rw [segments_balance cs (-1, []) [] h.distinct h.dated,
    segments_balance cs' (-1, []) [] (h.headers.nodup_iff.1 h.distinct) (fun e => h.dated (h.headers.mem_iff.2 e))]
  have : ∀ n c, underName n c (entries (-1, []) (headers cs) cs) = underName n c (entries (-1, []) (headers cs') cs') := by
    intro n c
    exact ((h.booked.filter _).map _).sum_eq
  simp only [this]

theorem built_content {srt srt' : List Posting → List Posting} (hs : IsSort srt) (hs' : IsSort srt') {cs cs' : List Call} (h : SameContent cs cs') {b b' : Book}
    (hb : Built srt cs b) (hb' : Built srt' cs' b') : AgainBook b b' := by
  have g := hb.wf hs
  have g' := hb'.wf hs'
  obtain ⟨bb, h1, h2⟩ := hb
  obtain ⟨bb', h1', h2'⟩ := hb'
  have n1 : issued Builder.new cs = headers cs :=
    c02_one_filing (filedAs_aux cs _ bb [] seenInv_new h1) (filedAs_headers cs [] h.distinct (by simp))
  have n1' : issued Builder.new cs' = headers cs' :=
    c02_one_filing (filedAs_aux cs' _ bb' [] seenInv_new h1') (filedAs_headers cs' [] (h.headers.nodup_iff.1 h.distinct) (by simp))
  obtain ⟨k1, k2, -, -⟩ := built_posts hs hs' h1 h1' n1 n1' h.booked h2 h2'
  refine ⟨{ b' with prices := b.prices }, ⟨g, ⟨⟨g'.1.1, g'.1.2, g'.1.3, g'.1.4⟩, g'.2⟩, ⟨k1, k2, rfl⟩⟩, ⟨rfl, rfl, ?_⟩⟩
  rintro ⟨u, c⟩
  show b.prices.find (u, c) = b'.prices.find (u, c)
  have p : (recorded u c cs).Perm (recorded u c cs') := by
    rw [recorded_lines, recorded_lines]
    exact (h.prices.filter _).map _
  rw [built_prices h1 h2, built_prices h1' h2', sortPrices_perm_eq p (recorded_once h.once)]
  have : recorded u c cs = [] ↔ recorded u c cs' = [] :=
    ⟨fun e => by rw [e] at p; exact p.symm.eq_nil, fun e => by rw [e] at p; exact p.eq_nil⟩
  simp only [this]

/-- A report of two ledgers that load to books that are alike. -/
theorem report_books {e : OpEnv} (hok : e.Ok) {srt' : List Posting → List Posting} {walk' : (Str → Bool) → (Str → Str) → PriceBook → PriceBook}
    (hok' : (e.again srt' walk').Ok) (a : AppConf) {args flat : List Str} (hx : Expansion a.macros args flat) (hd : a.divider ≠ []) (r : ReportConf)
    {o o' : Int → Str → List Str → List Str} (ho : ∀ d py l, (o d py l).Perm l) (ho' : ∀ d py l, (o' d py l).Perm l) :
    ∃ n, ∀ fuel fuel', n ≤ fuel → n ≤ fuel' → ∀ (le le' : Env) (depth depth' : Nat) (f' : Str) (b0 bk : Book), loadCmd le depth e.srt a = .ok b0 →
      loadCmd le' depth' srt' (a.reading f') = .ok bk → AgainBook b0 bk → ClearOps e flat b0.prices →
      EndsLike (SameReport r) (reportCmd le depth e fuel a r o args) (reportCmd le' depth' (e.again srt' walk') fuel' (a.reading f') r o' args) := by
  obtain ⟨n2, hn2⟩ := again_ops hok hok' hx
  refine ⟨n2, fun fuel fuel' i2 i3 le le' depth depth' f' b0 bk h0 l2 hsame hc => ?_⟩
  unfold reportCmd
  rw [h0, show (e.again srt' walk').srt = srt' from rfl, l2]
  exact EndsLike.bind (hn2 fuel fuel' i2 i3 b0 bk hsame hc) fun b b' hb => again_report (a := a) hok hok' hd r ho ho' hb

/-- A register of two ledgers that load to books that are alike. -/
theorem register_books {e : OpEnv} (hok : e.Ok) {srt' : List Posting → List Posting} {walk' : (Str → Bool) → (Str → Str) → PriceBook → PriceBook}
    (hok' : (e.again srt' walk').Ok) (a : AppConf) {args flat : List Str} (hx : Expansion a.macros args flat) (r : RegisterConf) (arg : Str) :
    ∃ n, ∀ fuel fuel', n ≤ fuel → n ≤ fuel' → ∀ (le le' : Env) (depth depth' : Nat) (f' : Str) (b0 bk : Book), loadCmd le depth e.srt a = .ok b0 →
      loadCmd le' depth' srt' (a.reading f') = .ok bk → AgainBook b0 bk → ClearOps e flat b0.prices →
      EndsLike SameSections (registerCmd le depth e fuel a r args arg) (registerCmd le' depth' (e.again srt' walk') fuel' (a.reading f') r args arg) := by
  obtain ⟨n2, hn2⟩ := again_ops hok hok' hx
  refine ⟨n2, fun fuel fuel' i2 i3 le le' depth depth' f' b0 bk h0 l2 hsame hc => ?_⟩
  obtain ⟨m, g, hm⟩ := hsame
  unfold registerCmd
  rw [h0, show (e.again srt' walk').srt = srt' from rfl, l2]
  refine EndsLike.bind (R := AgainBook) (EndsLike.bind (R := fun b b' => AgainBook b b' ∧ b.prices = b0.prices) ?_ fun b b' hb => ?_) fun b b' hb => ?_
  · have k1 := convert_like (a := a) (cv := r.convert) g
    have k2 := near_convert (a := a) (cv := r.convert) hm
    have k : EndsLike AgainBook (convertCmd a r.convert b0) (convertCmd a r.convert bk) :=
      ends_trans (fun x y z hx hy => ⟨y, hx, hy⟩) k1 k2
    show EndsLike _ (convertCmd a r.convert b0) (convertCmd a r.convert bk)
    cases hx : convertCmd a r.convert b0 with
    | ok b =>
      rw [hx] at k
      cases hy : convertCmd a r.convert bk with
      | ok c => rw [hy] at k; exact ⟨k, convertCmd_prices hx⟩
      | _ => rw [hy] at k; exact k.elim
    | _ =>
      rw [hx] at k
      cases hy : convertCmd a r.convert bk <;> rw [hy] at k <;> first | trivial | exact k.elim
  · by_cases ha : args = []
    · rw [if_pos ha, if_pos ha]; exact hb.1
    · rw [if_neg ha, if_neg ha]
      exact hn2 fuel fuel' i2 i3 b b' hb.1 (by rw [hb.2]; exact hc)
  · obtain ⟨m, g, hm⟩ := hb
    refine registerShow_like (e := e) (e' := e.again srt' walk') (a := a) (a' := a.reading f') (b := b) (b' := b') rfl rfl rfl rfl rfl r arg
      (by rw [← hm.post]; exact g.2.2.post) ?_ (by rw [g.2.2.prices, hm.getPrice])
    have := transactions_same hok.1 hok'.1 g.1 g.2.1 g.2.2
    rw [hm.transactions] at this
    exact this

/-- C141: two ledgers with the same transactions and the same price lines, in whatever order, wherever the price lines stand: a report shows the
same.  (If the currencies are renamed clearly, see C125.) -/
theorem c141_report_partial {le le' : Env} (he : le.Ok) (he' : le'.Ok) (hl : PlainLetters le) (hl' : PlainLetters le') {fs fs' : Str → Option (List FileLine)}
    (hdisk : OnDisk le fs) (hdisk' : OnDisk le' fs') (a : AppConf) (f' : Str) {ls ls' : List FileLine} (hf : fs a.ledger = some ls) (hf' : fs' f' = some ls')
    {cs cs' : List Call} (hsay : FileSays fs le.join a.ledger [] [] ls cs) (hsay' : FileSays fs' le'.join f' [] [] ls' cs') (h : SameContent cs cs')
    (e : OpEnv) (hok : e.Ok) (srt' : List Posting → List Posting) (walk' : (Str → Bool) → (Str → Str) → PriceBook → PriceBook) (hok' : (e.again srt' walk').Ok)
    (hd : a.divider ≠ []) (r : ReportConf) (o o' : Int → Str → List Str → List Str) (ho : ∀ d py l, (o d py l).Perm l) (ho' : ∀ d py l, (o' d py l).Perm l)
    (args flat : List Str) (hx : Expansion a.macros args flat) (depth : Nat) (b0 : Book) (h0 : loadCmd le depth e.srt a = .ok b0)
    (hc : ClearOps e flat b0.prices) :
    ∃ n, ∀ depth' fuel fuel', n ≤ depth' → n ≤ fuel → n ≤ fuel' →
      EndsLike (SameReport r) (reportCmd le depth e fuel a r o args) (reportCmd le' depth' (e.again srt' walk') fuel' (a.reading f') r o' args) := by
  have h0' := loadCmd_book h0
  obtain ⟨ds, s1, b1, hbal⟩ := c96_loaded_book he hl hdisk hf h0'
  have hsd : SameContent ds cs' := sameContent_shuffled h (readings_shuffled hsay [] ds (.refl _) s1) (readings_shuffled hsay' [] cs' (.refl _) hsay')
  obtain ⟨n1, hn1⟩ := c96_balanced_loads he' hl' hdisk' hf' hsay' ((c141_balance hsd).1 hbal) srt'
  obtain ⟨n2, hn2⟩ := report_books hok hok' a hx hd r ho ho'
  refine ⟨max n1 n2, fun depth' fuel fuel' i1 i2 i3 => ?_⟩
  obtain ⟨bk, hbk⟩ := hn1 depth' (le_trans (le_max_left _ _) i1)
  obtain ⟨ds', s1', b1', _⟩ := c96_loaded_book he' hl' hdisk' hf' hbk
  have hsame := built_content hok.1 hok'.1
    (sameContent_shuffled h (readings_shuffled hsay [] ds (.refl _) s1) (readings_shuffled hsay' [] ds' (.refl _) s1')) b1 b1'
  have l2 : loadCmd le' depth' srt' (a.reading f') = .ok bk := by unfold loadCmd; rw [show (a.reading f').ledger = f' from rfl, hbk]
  exact hn2 fuel fuel' (le_trans (le_max_right _ _) i2) (le_trans (le_max_right _ _) i3) le le' depth depth' f' b0 bk h0 l2 hsame hc

/-- C141 for the register. -/
theorem c141_register_partial {le le' : Env} (he : le.Ok) (he' : le'.Ok) (hl : PlainLetters le) (hl' : PlainLetters le') {fs fs' : Str → Option (List FileLine)}
    (hdisk : OnDisk le fs) (hdisk' : OnDisk le' fs') (a : AppConf) (f' : Str) {ls ls' : List FileLine} (hf : fs a.ledger = some ls) (hf' : fs' f' = some ls')
    {cs cs' : List Call} (hsay : FileSays fs le.join a.ledger [] [] ls cs) (hsay' : FileSays fs' le'.join f' [] [] ls' cs') (h : SameContent cs cs')
    (e : OpEnv) (hok : e.Ok) (srt' : List Posting → List Posting) (walk' : (Str → Bool) → (Str → Str) → PriceBook → PriceBook) (hok' : (e.again srt' walk').Ok)
    (r : RegisterConf) (args flat : List Str) (hx : Expansion a.macros args flat) (arg : Str) (depth : Nat) (b0 : Book)
    (h0 : loadCmd le depth e.srt a = .ok b0) (hc : ClearOps e flat b0.prices) :
    ∃ n, ∀ depth' fuel fuel', n ≤ depth' → n ≤ fuel → n ≤ fuel' →
      EndsLike SameSections (registerCmd le depth e fuel a r args arg) (registerCmd le' depth' (e.again srt' walk') fuel' (a.reading f') r args arg) := by
  have h0' := loadCmd_book h0
  obtain ⟨ds, s1, b1, hbal⟩ := c96_loaded_book he hl hdisk hf h0'
  have hsd : SameContent ds cs' := sameContent_shuffled h (readings_shuffled hsay [] ds (.refl _) s1) (readings_shuffled hsay' [] cs' (.refl _) hsay')
  obtain ⟨n1, hn1⟩ := c96_balanced_loads he' hl' hdisk' hf' hsay' ((c141_balance hsd).1 hbal) srt'
  obtain ⟨n2, hn2⟩ := register_books hok hok' a hx r arg
  refine ⟨max n1 n2, fun depth' fuel fuel' i1 i2 i3 => ?_⟩
  obtain ⟨bk, hbk⟩ := hn1 depth' (le_trans (le_max_left _ _) i1)
  obtain ⟨ds', s1', b1', _⟩ := c96_loaded_book he' hl' hdisk' hf' hbk
  have hsame := built_content hok.1 hok'.1
    (sameContent_shuffled h (readings_shuffled hsay [] ds (.refl _) s1) (readings_shuffled hsay' [] ds' (.refl _) s1')) b1 b1'
  have l2 : loadCmd le' depth' srt' (a.reading f') = .ok bk := by unfold loadCmd; rw [show (a.reading f').ledger = f' from rfl, hbk]
  exact hn2 fuel fuel' (le_trans (le_max_right _ _) i2) (le_trans (le_max_right _ _) i3) le le' depth depth' f' b0 bk h0 l2 hsame hc

/-! ## Examples -/

/-- What a line without further ado says. -/
def onlyCall : FileLine → Option Call
  | .txn t => some (.newTransaction t.date.code t.payee (t.note.note.getD []))
  | .posting l => some (.addPosting (standsFor [] l.acct) l.ccy l.amount (l.note.getD []))
  | .price p => some (.addPrice p.date.code p.unit p.ccy p.num.value)
  | _ => none

theorem says_calls (fs : Str → Option (List FileLine)) (join : Str → Str → Str) (fn : Str) : ∀ (ls : List FileLine) (pre : List Call),
    (∀ l ∈ ls, (onlyCall l).isSome = true) → FileSays fs join fn [] pre ls (ls.filterMap onlyCall)
  | [], pre, _ => .nil _ _ _
  | l :: ls, pre, h => by
    have hr : ∀ l ∈ ls, (onlyCall l).isSome = true := fun x hx => h x (List.mem_cons_of_mem _ hx)
    have hl := h l List.mem_cons_self
    cases l with
    | txn t => exact .txn _ _ _ _ _ _ (says_calls fs join fn ls _ hr)
    | posting p => exact .posting _ _ _ _ _ _ (says_calls fs join fn ls _ hr)
    | price p => exact .price _ _ _ _ _ _ (says_calls fs join fn ls _ hr)
    | _ => cases hl

/-- A price of a currency on 2 January 2020. -/
def quotedAt (unit digits : Str) : FileLine := .price {
  sp0 := [32], day := ⟨b!"2020", b!"01", b!"02"⟩, date := ⟨2020, 1, 2⟩, sp1 := [32], hour := b!"00", minute := b!"00", second := b!"00",
  sp2 := [32], unitQuoted := false, unit := unit, sp3 := [32], ccyFirst := false, quoted := false, ccy := b!"Y", sp4 := [32],
  num := ⟨false, digits, none⟩ }

def quotes : List FileLine := [quotedAt b!"X" b!"2", quotedAt b!"W" b!"3", quotedAt b!"X" b!"5"]

/-- Four ledgers: prices first, prices last and turned, two prices of one day, and these turned. -/
def quoteFiles : List (Str × List FileLine) := [
  (b!"first", [quotedAt b!"X" b!"2", quotedAt b!"W" b!"3"] ++ partOne), (b!"last", partOne ++ [quotedAt b!"W" b!"3", quotedAt b!"X" b!"2"]),
  (b!"day", [quotedAt b!"X" b!"2", quotedAt b!"X" b!"5"] ++ partOne), (b!"yad", [quotedAt b!"X" b!"5", quotedAt b!"X" b!"2"] ++ partOne)]

def quoteDisk (f : Str) : Option (List FileLine) := (quoteFiles.find? fun x => decide (x.1 = f)).map (·.2)

def quoteEnv : Env := demoEnv (quoteFiles.map fun x => (x.1, fileText x.2))

example : fileText (quoteFiles[1]).2 =
    b!"2020/1/2 * shop ; note\n  A 5 X\n  B -5 X\nP 2020/01/02 00:00:00 W 3 Y\nP 2020/01/02 00:00:00 X 2 Y\n" := by decide +kernel

theorem quote_line (l : FileLine) (h : l ∈ quotes ∨ l ∈ partOne) : l.Valid ∧ (∀ sp q g, l ≠ .incl sp q g) ∧ (onlyCall l).isSome = true := by
  rcases h with h | h
  · simp only [quotes, List.mem_cons, List.not_mem_nil, or_false] at h
    rcases h with rfl | rfl | rfl <;>
      exact ⟨⟨⟨by decide, by decide, by decide⟩, by decide, by decide, by decide, by decide, by decide, by decide,
        ⟨⟨by decide, by rintro f ⟨⟩⟩, by decide, by decide⟩, ⟨_, _, rfl, by decide⟩, by decide, by decide, by decide⟩, by rintro sp q g ⟨⟩, rfl⟩
  · refine ⟨part_txn l (.inl h), ?_, ?_⟩ <;> simp only [partOne, partPost, List.mem_cons, List.not_mem_nil, or_false] at h
    · rintro sp q g rfl; simp at h
    · rcases h with rfl | rfl | rfl <;> rfl

theorem quote_files {f : Str} {ls : List FileLine} (h : quoteDisk f = some ls) : quoteEnv.files f = some (fileText ls) ∧ ∀ l ∈ ls, l ∈ quotes ∨ l ∈ partOne := by
  unfold quoteDisk at h
  simp only [quoteFiles, List.find?_cons] at h
  split at h
  · rename_i e; simp only [decide_eq_true_eq] at e; subst e
    simp only [Option.map_some, Option.some.injEq] at h; subst h
    refine ⟨by decide +kernel, fun l hl => ?_⟩
    rcases List.mem_append.1 hl with hl | hl
    · left; simp only [quotes, List.mem_cons, List.not_mem_nil, or_false] at hl ⊢; tauto
    · exact .inr hl
  split at h
  · rename_i e; simp only [decide_eq_true_eq] at e; subst e
    simp only [Option.map_some, Option.some.injEq] at h; subst h
    refine ⟨by decide +kernel, fun l hl => ?_⟩
    rcases List.mem_append.1 hl with hl | hl
    · exact .inr hl
    · left; simp only [quotes, List.mem_cons, List.not_mem_nil, or_false] at hl ⊢; tauto
  split at h
  · rename_i e; simp only [decide_eq_true_eq] at e; subst e
    simp only [Option.map_some, Option.some.injEq] at h; subst h
    refine ⟨by decide +kernel, fun l hl => ?_⟩
    rcases List.mem_append.1 hl with hl | hl
    · left; simp only [quotes, List.mem_cons, List.not_mem_nil, or_false] at hl ⊢; tauto
    · exact .inr hl
  split at h
  · rename_i e; simp only [decide_eq_true_eq] at e; subst e
    simp only [Option.map_some, Option.some.injEq] at h; subst h
    refine ⟨by decide +kernel, fun l hl => ?_⟩
    rcases List.mem_append.1 hl with hl | hl
    · left; simp only [quotes, List.mem_cons, List.not_mem_nil, or_false] at hl ⊢; tauto
    · exact .inr hl
  · cases h

theorem quote_disk : OnDisk quoteEnv quoteDisk := by
  intro f ls hf
  obtain ⟨h1, h2⟩ := quote_files hf
  exact ⟨h1, fun l hl => ⟨(quote_line l (h2 l hl)).1, fun sp q g e => absurd e ((quote_line l (h2 l hl)).2.1 sp q g)⟩⟩

theorem quote_says {f : Str} {ls : List FileLine} (h : quoteDisk f = some ls) : FileSays quoteDisk quoteEnv.join f [] [] ls (ls.filterMap onlyCall) :=
  says_calls _ _ _ _ _ fun l hl => (quote_line l ((quote_files h).2 l hl)).2.2

/-- Prices first and prices last: the same content. -/
theorem quote_same : SameContent ((quoteFiles[0]).2.filterMap onlyCall) ((quoteFiles[1]).2.filterMap onlyCall) :=
  ⟨by decide +kernel, by decide +kernel, by decide +kernel, .of_eq rfl, by decide +kernel, by decide +kernel⟩

/-- Two prices of one day, turned: all but the last condition hold. -/
theorem quote_turned : (headers ((quoteFiles[2]).2.filterMap onlyCall)).Nodup ∧ (-1, []) ∉ headers ((quoteFiles[2]).2.filterMap onlyCall) ∧
    (headers ((quoteFiles[2]).2.filterMap onlyCall)).Perm (headers ((quoteFiles[3]).2.filterMap onlyCall)) ∧
    (entries (-1, []) (headers ((quoteFiles[2]).2.filterMap onlyCall)) ((quoteFiles[2]).2.filterMap onlyCall)).Perm
      (entries (-1, []) (headers ((quoteFiles[3]).2.filterMap onlyCall)) ((quoteFiles[3]).2.filterMap onlyCall)) ∧
    (priceLines ((quoteFiles[2]).2.filterMap onlyCall)).Perm (priceLines ((quoteFiles[3]).2.filterMap onlyCall)) :=
  ⟨by decide +kernel, by decide +kernel, by decide +kernel, .of_eq rfl, by decide +kernel⟩

/-- The amount a converted report shows on account A. -/
def quoteShown (f : Str) : Option Rat :=
  match reportCmd quoteEnv 5 againOps 5 (partApp f) (partConf false) (fun _ _ l => l) [] with
  | .ok ts => some (chosenTotal (fun _ ac _ => decide (ac = b!"A")) ts.flatten)
  | _ => none

/-- Prices first and prices last show the same; two prices of one day show what the later line says. -/
theorem quote_shown : quoteShown b!"first" = some 10 ∧ quoteShown b!"last" = some 10 ∧ quoteShown b!"day" = some 25 ∧ quoteShown b!"yad" = some 10 := by
  decide +kernel

/-- **C141** is false when the ledger has two prices of one day for one pair of currencies: their order decides what is shown. -/
theorem c141_same_day_fails : ¬ ∀ (le : Env) (_ : le.Ok) (_ : PlainLetters le) (fs : Str → Option (List FileLine)) (_ : OnDisk le fs) (a : AppConf) (f' : Str)
    (ls ls' : List FileLine) (_ : fs a.ledger = some ls) (_ : fs f' = some ls') (cs cs' : List Call) (_ : FileSays fs le.join a.ledger [] [] ls cs)
    (_ : FileSays fs le.join f' [] [] ls' cs') (_ : (headers cs).Nodup) (_ : (-1, []) ∉ headers cs) (_ : (headers cs).Perm (headers cs'))
    (_ : (entries (-1, []) (headers cs) cs).Perm (entries (-1, []) (headers cs') cs')) (_ : (priceLines cs).Perm (priceLines cs')) (e : OpEnv) (_ : e.Ok)
    (_ : a.divider ≠ []) (r : ReportConf) (o : Int → Str → List Str → List Str) (_ : ∀ d py l, (o d py l).Perm l) (depth fuel : Nat) (ts ts' : List Txn),
    reportCmd le depth e fuel a r o [] = .ok ts → reportCmd le depth e fuel (a.reading f') r o [] = .ok ts' → SameReport r ts ts' := by
  intro h
  obtain ⟨g1, g2, g3, g4, g5⟩ := quote_turned
  have hk := h quoteEnv (demoEnv_ok _) (demo_letters _) quoteDisk quote_disk (partApp b!"day") b!"yad" _ _ rfl rfl _ _ (quote_says rfl) (quote_says rfl)
    g1 g2 g3 g4 g5 againOps againOps_ok (by decide) (partConf false) (fun _ _ l => l) (fun _ _ _ => .refl _) 5 5
  obtain ⟨-, -, h1, h2⟩ := quote_shown
  unfold quoteShown at h1 h2
  rw [show (partApp b!"day").reading b!"yad" = partApp b!"yad" from rfl] at hk
  generalize reportCmd quoteEnv 5 againOps 5 (partApp b!"day") (partConf false) (fun _ _ l => l) [] = x at *
  generalize reportCmd quoteEnv 5 againOps 5 (partApp b!"yad") (partConf false) (fun _ _ l => l) [] = y at *
  cases x <;> simp only [Option.some.injEq, reduceCtorEq] at h1
  cases y <;> simp only [Option.some.injEq, reduceCtorEq] at h2
  rename_i ts ts'
  have hs : SameTxns ts ts' := by
    have := hk ts ts' rfl rfl
    unfold SameReport at this
    rwa [if_neg (by decide)] at this
  have hflat : ts.flatten.map obs = ts'.flatten.map obs := by rw [List.map_flatten, List.map_flatten, hs]
  have hal := forall₂_alike.2 hflat
  have := total_alike (P := fun p => decide (p.acct = b!"A")) (fun p q hpq => by rw [hpq.fields.2.2.1]) hal
  have h12 : (25 : Rat) = 10 := h1.symm.trans (Eq.trans this h2)
  norm_num at h12

/-- The hypotheses of the theorem hold: prices first, prices last and turned. -/
example (srt' : List Posting → List Posting) (walk' : (Str → Bool) → (Str → Str) → PriceBook → PriceBook) (hok' : (againOps.again srt' walk').Ok) (r : ReportConf) :
    ∃ n, ∀ depth' fuel fuel', n ≤ depth' → n ≤ fuel → n ≤ fuel' → EndsLike (SameReport r)
      (reportCmd quoteEnv 5 againOps fuel (partApp b!"first") r (fun _ _ l => l) [])
      (reportCmd quoteEnv depth' (againOps.again srt' walk') fuel' (partApp b!"last") r (fun _ _ l => l.reverse) []) := by
  have hl : (match loadCmd quoteEnv 5 insSort (partApp b!"first") with
      | .ok _ => true
      | _ => false) = true := by decide +kernel
  split at hl <;> try cases hl
  rename_i b0 hb0
  exact c141_report_partial (demoEnv_ok _) (demoEnv_ok _) (demo_letters _) (demo_letters _) quote_disk quote_disk (partApp b!"first") b!"last" rfl rfl
    (quote_says rfl) (quote_says rfl) quote_same againOps againOps_ok srt' walk' hok' (by decide) r _ _ (fun _ _ _ => .refl _) (fun _ _ l => l.reverse_perm)
    [] [] .nil 5 b0 hb0 trivial

end Verif
