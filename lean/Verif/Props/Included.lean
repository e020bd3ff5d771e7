import Verif.Props.PriceOrder
import Verif.Spec.Included

/-! # C142, C143: only what the lines say matters; a part moved to an included file -/

namespace Verif
open Spec

theorem shuffled_symm {cs cs' : List Call} (h : Shuffled cs cs') : Shuffled cs' cs := by
  induction h with
  | nil => exact .nil
  | cons c cs cs' _ ih => exact .cons _ _ _ ih
  | posts ps ps' cs cs' hp hx _ ih => exact .posts _ _ _ _ hp.symm (fun x hm => hx x (hp.mem_iff.2 hm)) ih

/-- Two readings of the same calls make books that are alike. -/
theorem built_calls {srt srt' : List Posting → List Posting} (hs : IsSort srt) (hs' : IsSort srt') {cs ds ds' : List Call} (h : Shuffled cs ds)
    (h' : Shuffled cs ds') {b b' : Book} (hb : Built srt ds b) (hb' : Built srt' ds' b') : SameBook b b' := by
  obtain ⟨bb, h1, h2⟩ := hb
  obtain ⟨bb', h1', h2'⟩ := hb'
  obtain ⟨f1, f2, f3⟩ := h.facts
  obtain ⟨g1, g2, g3⟩ := h'.facts
  have n : issued Builder.new ds = issued Builder.new ds' :=
    c02_one_filing (shuffled_filed h' (shuffled_filed (shuffled_symm h) (filedAs_aux ds _ bb [] seenInv_new h1))) (filedAs_aux ds' _ bb' [] seenInv_new h1')
  exact built_entries hs hs' h1 h1' n rfl ((f3 _ _).symm.trans (g3 _ _)) (f2.symm.trans g2) h2 h2'

/-- One reading of a file balances if another does. -/
theorem readings_balance {fs : Str → Option (List FileLine)} {join : Str → Str → Str} {fn : Str} {ls : List FileLine} {cs ds : List Call}
    (h : FileSays fs join fn [] [] ls cs) (h' : FileSays fs join fn [] [] ls ds) (hb : ∀ s ∈ segments [] cs, SegBalanced s) :
    ∀ s ∈ segments [] ds, SegBalanced s := by
  obtain ⟨_, h3⟩ := readings_agree h [] ds (.refl _) h'
  have h3 : List.Forall₂ List.Perm (segments [] cs) (segments [] ds) := h3
  generalize segments [] cs = l at h3 hb
  generalize segments [] ds = r at h3
  clear h h'
  induction h3 with
  | nil => simp
  | @cons x y l r hxy _ ih =>
    intro s hs
    rcases List.mem_cons.1 hs with rfl | hs
    · intro c; rw [← net_perm hxy]; exact hb x (by simp) c
    · exact ih (fun s hs => hb s (by simp [hs])) s hs

/-- A ledger loads exactly if what it says balances. -/
theorem loads_iff {le : Env} (he : le.Ok) (hl : PlainLetters le) {fs : Str → Option (List FileLine)} (hdisk : OnDisk le fs) {f : Str} {ls : List FileLine}
    (hf : fs f = some ls) {cs : List Call} (hsay : FileSays fs le.join f [] [] ls cs) (srt : List Posting → List Posting) :
    Loads srt le f ↔ ∀ s ∈ segments [] cs, SegBalanced s := by
  constructor
  · rintro ⟨depth, bk, h⟩
    obtain ⟨ds, s1, -, hb⟩ := c96_loaded_book he hl hdisk hf h
    exact readings_balance s1 hsay hb
  · intro hb
    obtain ⟨n, hn⟩ := c96_balanced_loads he hl hdisk hf hsay hb srt
    obtain ⟨bk, h⟩ := hn n (le_refl _)
    exact ⟨n, bk, h⟩

/-- C142: two ledgers that say the same: both load, or neither. -/
theorem c142_loads {le le' : Env} (he : le.Ok) (he' : le'.Ok) (hl : PlainLetters le) (hl' : PlainLetters le') {fs fs' : Str → Option (List FileLine)}
    (hdisk : OnDisk le fs) (hdisk' : OnDisk le' fs') (f f' : Str) {ls ls' : List FileLine} (hf : fs f = some ls) (hf' : fs' f' = some ls')
    {cs : List Call} (hsay : FileSays fs le.join f [] [] ls cs) (hsay' : FileSays fs' le'.join f' [] [] ls' cs) (srt srt' : List Posting → List Posting) :
    Loads srt le f ↔ Loads srt' le' f' := by
  rw [loads_iff he hl hdisk hf hsay, loads_iff he' hl' hdisk' hf' hsay']

/-- Loaded, they are alike. -/
theorem say_same {le le' : Env} (he : le.Ok) (he' : le'.Ok) (hl : PlainLetters le) (hl' : PlainLetters le') {fs fs' : Str → Option (List FileLine)}
    (hdisk : OnDisk le fs) (hdisk' : OnDisk le' fs') (a : AppConf) (f' : Str) {ls ls' : List FileLine} (hf : fs a.ledger = some ls) (hf' : fs' f' = some ls')
    {cs : List Call} (hsay : FileSays fs le.join a.ledger [] [] ls cs) (hsay' : FileSays fs' le'.join f' [] [] ls' cs)
    (srt srt' : List Posting → List Posting) (hs : IsSort srt) (hs' : IsSort srt') (hload : Loads srt le a.ledger) :
    ∃ n, ∀ depth depth', n ≤ depth → n ≤ depth' → ∃ bk bk', loadCmd le depth srt a = .ok bk ∧ loadCmd le' depth' srt' (a.reading f') = .ok bk' ∧ GoodPair bk bk' := by
  have hbal := (loads_iff he hl hdisk hf hsay srt).1 hload
  obtain ⟨n, hn⟩ := c96_balanced_loads he hl hdisk hf hsay hbal srt
  obtain ⟨n', hn'⟩ := c96_balanced_loads he' hl' hdisk' hf' hsay' hbal srt'
  refine ⟨max n n', fun depth depth' hd1 hd2 => ?_⟩
  obtain ⟨bk, hbk⟩ := hn depth (le_trans (le_max_left _ _) hd1)
  obtain ⟨bk', hbk'⟩ := hn' depth' (le_trans (le_max_right _ _) hd2)
  obtain ⟨ds, s1, b1, _⟩ := c96_loaded_book he hl hdisk hf hbk
  obtain ⟨ds', s1', b1', _⟩ := c96_loaded_book he' hl' hdisk' hf' hbk'
  refine ⟨bk, bk', by unfold loadCmd; rw [hbk], by unfold loadCmd; rw [show (a.reading f').ledger = f' from rfl, hbk'], b1.wf hs, b1'.wf hs', ?_⟩
  exact built_calls hs hs' (readings_shuffled hsay [] ds (.refl _) s1) (readings_shuffled hsay' [] ds' (.refl _) s1') b1 b1'

/-- C142: two ledgers that say the same: a report shows the same of them. -/
theorem c142_report {le le' : Env} (he : le.Ok) (he' : le'.Ok) (hl : PlainLetters le) (hl' : PlainLetters le') {fs fs' : Str → Option (List FileLine)}
    (hdisk : OnDisk le fs) (hdisk' : OnDisk le' fs') (a : AppConf) (f' : Str) {ls ls' : List FileLine} (hf : fs a.ledger = some ls) (hf' : fs' f' = some ls')
    {cs : List Call} (hsay : FileSays fs le.join a.ledger [] [] ls cs) (hsay' : FileSays fs' le'.join f' [] [] ls' cs)
    (e : OpEnv) (hs : IsSort e.srt) (srt' : List Posting → List Posting) (hs' : IsSort srt') (hload : Loads e.srt le a.ledger)
    (hd : a.divider ≠ []) (fuel : Nat) (r : ReportConf) (o o' : Int → Str → List Str → List Str) (ho : ∀ d py l, (o d py l).Perm l)
    (ho' : ∀ d py l, (o' d py l).Perm l) (args : List Str) :
    ∃ n, ∀ depth depth', n ≤ depth → n ≤ depth' →
      EndsLike (SameReport r) (reportCmd le depth e fuel a r o args) (reportCmd le' depth' (e.sorting srt') fuel (a.reading f') r o' args) := by
  obtain ⟨n, hn⟩ := say_same he he' hl hl' hdisk hdisk' a f' hf hf' hsay hsay' e.srt srt' hs hs' hload
  refine ⟨n, fun depth depth' hd1 hd2 => ?_⟩
  obtain ⟨bk, bk', l1, l2, hp⟩ := hn depth depth' hd1 hd2
  unfold reportCmd
  rw [l1, show (e.sorting srt').srt = srt' from rfl, l2]
  exact EndsLike.bind (ops_like hs hs' fuel a args hp) fun b b' hb => reportTxns_like hs hs' (a := a) hd r ho ho' hb

/-- C142 for the register. -/
theorem c142_register {le le' : Env} (he : le.Ok) (he' : le'.Ok) (hl : PlainLetters le) (hl' : PlainLetters le') {fs fs' : Str → Option (List FileLine)}
    (hdisk : OnDisk le fs) (hdisk' : OnDisk le' fs') (a : AppConf) (f' : Str) {ls ls' : List FileLine} (hf : fs a.ledger = some ls) (hf' : fs' f' = some ls')
    {cs : List Call} (hsay : FileSays fs le.join a.ledger [] [] ls cs) (hsay' : FileSays fs' le'.join f' [] [] ls' cs)
    (e : OpEnv) (hs : IsSort e.srt) (srt' : List Posting → List Posting) (hs' : IsSort srt') (hload : Loads e.srt le a.ledger)
    (fuel : Nat) (r : RegisterConf) (args : List Str) (arg : Str) :
    ∃ n, ∀ depth depth', n ≤ depth → n ≤ depth' →
      EndsLike SameSections (registerCmd le depth e fuel a r args arg) (registerCmd le' depth' (e.sorting srt') fuel (a.reading f') r args arg) := by
  obtain ⟨n, hn⟩ := say_same he he' hl hl' hdisk hdisk' a f' hf hf' hsay hsay' e.srt srt' hs hs' hload
  refine ⟨n, fun depth depth' hd1 hd2 => ?_⟩
  obtain ⟨bk, bk', l1, l2, hp⟩ := hn depth depth' hd1 hd2
  unfold registerCmd
  rw [l1, show (e.sorting srt').srt = srt' from rfl, l2]
  refine EndsLike.bind (R := GoodPair) (EndsLike.bind (R := GoodPair) (convert_like (a := a) (cv := r.convert) hp) fun b b' hb => ?_) fun b b' hb =>
    registerShow_like (e := e) (e' := e.sorting srt') (a := a) (a' := a.reading f') rfl rfl rfl rfl rfl r arg hb.2.2.post (transactions_same hs hs' hb.1 hb.2.1 hb.2.2) (by rw [hb.2.2.prices])
  by_cases ha : args = []
  · rw [if_pos ha, if_pos ha]; exact hb
  · rw [if_neg ha, if_neg ha]; exact ops_like hs hs' fuel a args hb

/-- C142: empty lines, comments and unused lines say nothing. -/
theorem c142_silent {fs : Str → Option (List FileLine)} {join : Str → Str → Str} {fn : Str} {als : List (Str × Str)} {pre : List Call} {ls : List FileLine}
    {cs : List Call} : FileSays fs join fn als pre ls cs ↔ FileSays fs join fn als pre (ls.filter fun l => !l.silent) cs := by
  constructor
  · intro h
    induction h with
    | nil => exact .nil _ _ _
    | blank fn als pre sp ls cs _ ih => exact ih
    | comment fn als pre sp s ls cs _ ih => exact ih
    | unused fn als pre c s ls cs _ ih => exact ih
    | txn fn als pre t ls cs _ ih => exact .txn _ _ _ _ _ _ ih
    | posting fn als pre l ls cs _ ih => exact .posting _ _ _ _ _ _ ih
    | rest fn als pre r adds ls cs h1 h2 _ ih => exact .rest _ _ _ _ _ _ _ h1 h2 ih
    | price fn als pre p ls cs _ ih => exact .price _ _ _ _ _ _ ih
    | short fn als pre sp1 s sp2 sp3 l sp4 ls cs _ ih => exact .short _ _ _ _ _ _ _ _ _ _ _ ih
    | incl fn als pre sp q f ls' cs' ls cs h1 h2 _ _ ih => exact .incl _ _ _ _ _ _ _ _ _ _ h1 h2 ih
  · intro h
    induction ls generalizing als pre cs with
    | nil => exact h
    | cons l ls ih =>
      cases l with
      | blank sp => exact .blank _ _ _ _ _ _ (ih h)
      | comment sp s => exact .comment _ _ _ _ _ _ _ (ih h)
      | unused c s => exact .unused _ _ _ _ _ _ _ (ih h)
      | txn t => cases h with | txn _ _ _ _ _ _ h => exact .txn _ _ _ _ _ _ (ih h)
      | posting p => cases h with | posting _ _ _ _ _ _ h => exact .posting _ _ _ _ _ _ (ih h)
      | rest r => cases h with | rest _ _ _ _ _ _ _ h1 h2 h => exact .rest _ _ _ _ _ _ _ h1 h2 (ih h)
      | price p => cases h with | price _ _ _ _ _ _ h => exact .price _ _ _ _ _ _ (ih h)
      | short => cases h with | short _ _ _ _ _ _ _ _ _ _ _ h => exact .short _ _ _ _ _ _ _ _ _ _ _ (ih h)
      | incl => cases h with | incl _ _ _ _ _ _ _ _ _ _ h1 h2 h => exact .incl _ _ _ _ _ _ _ _ _ _ h1 h2 (ih h)

/-! ## Included files -/

/-- What two blocks of lines say, one after the other. -/
theorem says_append {fs : Str → Option (List FileLine)} {join : Str → Str → Str} {fn : Str} (xs ys : List FileLine) : ∀ {als : List (Str × Str)}
    {pre cs : List Call}, FileSays fs join fn als pre (xs ++ ys) cs ↔
    ∃ c1 c2, cs = c1 ++ c2 ∧ FileSays fs join fn als pre xs c1 ∧ FileSays fs join fn (als ++ aliasesOf xs) (pre ++ c1) ys c2 := by
  induction xs with
  | nil =>
    intro als pre cs
    constructor
    · intro h; exact ⟨[], cs, rfl, .nil _ _ _, by simpa [aliasesOf] using h⟩
    · rintro ⟨c1, c2, rfl, h1, h2⟩
      cases h1
      simpa [aliasesOf] using h2
  | cons x xs ih =>
    intro als pre cs
    constructor
    · intro h
      cases h with
      | blank _ _ _ _ _ _ h => obtain ⟨c1, c2, e, h1, h2⟩ := ih.1 h; exact ⟨c1, c2, e, .blank _ _ _ _ _ _ h1, h2⟩
      | comment _ _ _ _ _ _ _ h => obtain ⟨c1, c2, e, h1, h2⟩ := ih.1 h; exact ⟨c1, c2, e, .comment _ _ _ _ _ _ _ h1, h2⟩
      | unused _ _ _ _ _ _ _ h => obtain ⟨c1, c2, e, h1, h2⟩ := ih.1 h; exact ⟨c1, c2, e, .unused _ _ _ _ _ _ _ h1, h2⟩
      | txn _ _ _ _ _ _ h =>
        obtain ⟨c1, c2, rfl, h1, h2⟩ := ih.1 h
        exact ⟨_ :: c1, c2, rfl, .txn _ _ _ _ _ _ h1, by rw [List.append_assoc] at h2; exact h2⟩
      | posting _ _ _ _ _ _ h =>
        obtain ⟨c1, c2, rfl, h1, h2⟩ := ih.1 h
        exact ⟨_ :: c1, c2, rfl, .posting _ _ _ _ _ _ h1, by rw [List.append_assoc] at h2; exact h2⟩
      | price _ _ _ _ _ _ h =>
        obtain ⟨c1, c2, rfl, h1, h2⟩ := ih.1 h
        exact ⟨_ :: c1, c2, rfl, .price _ _ _ _ _ _ h1, by rw [List.append_assoc] at h2; exact h2⟩
      | rest _ _ _ _ _ _ _ g1 g2 h =>
        obtain ⟨c1, c2, rfl, h1, h2⟩ := ih.1 h
        exact ⟨_ ++ c1, c2, by rw [List.append_assoc], .rest _ _ _ _ _ _ _ g1 g2 h1, by rw [List.append_assoc] at h2; exact h2⟩
      | short _ _ _ _ _ _ _ _ _ _ _ h =>
        obtain ⟨c1, c2, rfl, h1, h2⟩ := ih.1 h
        exact ⟨c1, c2, rfl, .short _ _ _ _ _ _ _ _ _ _ _ h1, by rw [List.append_assoc] at h2; exact h2⟩
      | incl _ _ _ _ _ _ _ _ _ _ g1 g2 h =>
        obtain ⟨c1, c2, rfl, h1, h2⟩ := ih.1 h
        exact ⟨_ ++ c1, c2, by rw [List.append_assoc], .incl _ _ _ _ _ _ _ _ _ _ g1 g2 h1, by rw [List.append_assoc] at h2; exact h2⟩
    · rintro ⟨c1, c2, rfl, h1, h2⟩
      cases h1 with
      | blank _ _ _ _ _ _ h => exact .blank _ _ _ _ _ _ (ih.2 ⟨_, _, rfl, h, h2⟩)
      | comment _ _ _ _ _ _ _ h => exact .comment _ _ _ _ _ _ _ (ih.2 ⟨_, _, rfl, h, h2⟩)
      | unused _ _ _ _ _ _ _ h => exact .unused _ _ _ _ _ _ _ (ih.2 ⟨_, _, rfl, h, h2⟩)
      | txn _ _ _ _ _ _ h => exact .txn _ _ _ _ _ _ (ih.2 ⟨_, _, rfl, h, by rw [List.append_assoc]; exact h2⟩)
      | posting _ _ _ _ _ _ h => exact .posting _ _ _ _ _ _ (ih.2 ⟨_, _, rfl, h, by rw [List.append_assoc]; exact h2⟩)
      | price _ _ _ _ _ _ h => exact .price _ _ _ _ _ _ (ih.2 ⟨_, _, rfl, h, by rw [List.append_assoc]; exact h2⟩)
      | rest _ _ _ _ _ _ _ g1 g2 h =>
        rw [List.append_assoc]
        exact .rest _ _ _ _ _ _ _ g1 g2 (ih.2 ⟨_, _, rfl, h, by rw [List.append_assoc]; exact h2⟩)
      | short _ _ _ _ _ _ _ _ _ _ _ h => exact .short _ _ _ _ _ _ _ _ _ _ _ (ih.2 ⟨_, _, rfl, h, by rw [List.append_assoc]; exact h2⟩)
      | incl _ _ _ _ _ _ _ _ _ _ g1 g2 h =>
        rw [List.append_assoc]
        exact .incl _ _ _ _ _ _ _ _ _ _ g1 g2 (ih.2 ⟨_, _, rfl, h, by rw [List.append_assoc]; exact h2⟩)

/-- The name of the file matters only for the files it includes. -/
theorem says_renamed {fs : Str → Option (List FileLine)} {join : Str → Str → Str} {fn fn' : Str} {als : List (Str × Str)} {pre : List Call} {ls : List FileLine}
    {cs : List Call} (h : FileSays fs join fn als pre ls cs) (hj : ∀ sp q g, FileLine.incl sp q g ∈ ls → join fn g = join fn' g) :
    FileSays fs join fn' als pre ls cs := by
  induction ls generalizing als pre cs with
  | nil => cases h; exact .nil _ _ _
  | cons l ls ih =>
    have hr : ∀ sp q g, FileLine.incl sp q g ∈ ls → join fn g = join fn' g := fun sp q g hm => hj sp q g (List.mem_cons_of_mem _ hm)
    cases h with
    | blank _ _ _ _ _ _ h => exact .blank _ _ _ _ _ _ (ih h hr)
    | comment _ _ _ _ _ _ _ h => exact .comment _ _ _ _ _ _ _ (ih h hr)
    | unused _ _ _ _ _ _ _ h => exact .unused _ _ _ _ _ _ _ (ih h hr)
    | txn _ _ _ _ _ _ h => exact .txn _ _ _ _ _ _ (ih h hr)
    | posting _ _ _ _ _ _ h => exact .posting _ _ _ _ _ _ (ih h hr)
    | price _ _ _ _ _ _ h => exact .price _ _ _ _ _ _ (ih h hr)
    | rest _ _ _ _ _ _ _ g1 g2 h => exact .rest _ _ _ _ _ _ _ g1 g2 (ih h hr)
    | short _ _ _ _ _ _ _ _ _ _ _ h => exact .short _ _ _ _ _ _ _ _ _ _ _ (ih h hr)
    | incl _ _ _ _ _ _ _ _ _ _ g1 g2 h =>
      have e := hj _ _ _ List.mem_cons_self
      rw [e] at g1 g2
      exact .incl _ _ _ _ _ _ _ _ _ _ g1 g2 (ih h hr)

/-- C143: a file with an `include` line says what the file says that has the lines of the included file in its place. -/
theorem c143_says_partial {fs : Str → Option (List FileLine)} {join : Str → Str → Str} (f f' g : Str) (sp : List Nat) (q : Bool) (before after part : List FileLine)
    (hg : fs (join f g) = some part) (hdir : ∀ x, join f' x = join f x)
    (hsub : ∀ sp q x, FileLine.incl sp q x ∈ part → join (join f g) x = join f x) (hno : aliasesOf part = []) (cs : List Call) :
    FileSays fs join f [] [] (before ++ .incl sp q g :: after) cs ↔ FileSays fs join f' [] [] (before ++ (part ++ after)) cs := by
  rw [says_append, says_append]
  constructor
  · rintro ⟨c1, c2, rfl, h1, h2⟩
    refine ⟨c1, c2, rfl, says_renamed h1 fun _ _ x _ => (hdir x).symm, ?_⟩
    cases h2 with
    | incl _ _ _ _ _ _ ls' cs' _ cs k1 k2 k3 =>
      rw [hg] at k1
      cases k1
      rw [says_append]
      refine ⟨cs', cs, rfl, says_renamed k2 fun sp q x hm => ?_, ?_⟩
      · rw [hsub sp q x hm, hdir]
      · rw [hno, List.append_nil]; exact says_renamed k3 fun _ _ x _ => (hdir x).symm
  · rintro ⟨c1, c2, rfl, h1, h2⟩
    refine ⟨c1, c2, rfl, says_renamed h1 fun _ _ x _ => hdir x, ?_⟩
    rw [says_append] at h2
    obtain ⟨c3, c4, rfl, k2, k3⟩ := h2
    rw [hno, List.append_nil] at k3
    exact .incl _ _ _ _ _ _ _ _ _ _ hg (says_renamed k2 fun sp q x hm => by rw [hsub sp q x hm, hdir]) (says_renamed k3 fun _ _ x _ => hdir x)

/-- C143: moving lines of the ledger to an included file of the same directory changes nothing: if the one loads, so does the other, and a report shows
the same.  (If there is no alias among them.) -/
theorem c143_report_partial {le : Env} (he : le.Ok) (hl : PlainLetters le) {fs : Str → Option (List FileLine)} (hdisk : OnDisk le fs) (a : AppConf) (f' g : Str)
    (sp : List Nat) (q : Bool) (before after part : List FileLine) (hf : fs a.ledger = some (before ++ .incl sp q g :: after))
    (hg : fs (le.join a.ledger g) = some part) (hf' : fs f' = some (before ++ (part ++ after))) (hdir : ∀ x, le.join f' x = le.join a.ledger x)
    (hsub : ∀ sp q x, FileLine.incl sp q x ∈ part → le.join (le.join a.ledger g) x = le.join a.ledger x) (hno : aliasesOf part = [])
    (e : OpEnv) (hs : IsSort e.srt) (srt' : List Posting → List Posting) (hs' : IsSort srt') (hload : Loads e.srt le a.ledger ∨ Loads srt' le f')
    (hd : a.divider ≠ []) (fuel : Nat) (r : ReportConf) (o o' : Int → Str → List Str → List Str) (ho : ∀ d py l, (o d py l).Perm l)
    (ho' : ∀ d py l, (o' d py l).Perm l) (args : List Str) :
    ∃ n, ∀ depth depth', n ≤ depth → n ≤ depth' → (∃ bk bk', loadBook e.srt le depth a.ledger = .ok bk ∧ loadBook srt' le depth' f' = .ok bk') ∧
      EndsLike (SameReport r) (reportCmd le depth e fuel a r o args) (reportCmd le depth' (e.sorting srt') fuel (a.reading f') r o' args) := by
  have hsays : ∃ cs, FileSays fs le.join a.ledger [] [] (before ++ .incl sp q g :: after) cs ∧ FileSays fs le.join f' [] [] (before ++ (part ++ after)) cs := by
    rcases hload with ⟨depth, bk, h⟩ | ⟨depth, bk, h⟩
    · obtain ⟨cs, s1, -, -⟩ := c96_loaded_book he hl hdisk hf h
      exact ⟨cs, s1, (c143_says_partial _ _ g sp q before after part hg hdir hsub hno cs).1 s1⟩
    · obtain ⟨cs, s1, -, -⟩ := c96_loaded_book he hl hdisk hf' h
      exact ⟨cs, (c143_says_partial _ _ g sp q before after part hg hdir hsub hno cs).2 s1, s1⟩
  obtain ⟨cs, h1, h2⟩ := hsays
  have hload : Loads e.srt le a.ledger := hload.elim id ((c142_loads he he hl hl hdisk hdisk _ _ hf hf' h1 h2 _ _).2)
  obtain ⟨n, hn⟩ := c142_report he he hl hl hdisk hdisk a f' hf hf' h1 h2 e hs srt' hs' hload hd fuel r o o' ho ho' args
  obtain ⟨n', hn'⟩ := say_same he he hl hl hdisk hdisk a f' hf hf' h1 h2 e.srt srt' hs hs' hload
  refine ⟨max n n', fun depth depth' i1 i2 => ⟨?_, hn depth depth' (le_trans (le_max_left _ _) i1) (le_trans (le_max_left _ _) i2)⟩⟩
  obtain ⟨bk, bk', l1, l2, -⟩ := hn' depth depth' (le_trans (le_max_right _ _) i1) (le_trans (le_max_right _ _) i2)
  exact ⟨bk, bk', loadCmd_book l1, loadCmd_book l2⟩

/-- C143 for the register. -/
theorem c143_register_partial {le : Env} (he : le.Ok) (hl : PlainLetters le) {fs : Str → Option (List FileLine)} (hdisk : OnDisk le fs) (a : AppConf) (f' g : Str)
    (sp : List Nat) (q : Bool) (before after part : List FileLine) (hf : fs a.ledger = some (before ++ .incl sp q g :: after))
    (hg : fs (le.join a.ledger g) = some part) (hf' : fs f' = some (before ++ (part ++ after))) (hdir : ∀ x, le.join f' x = le.join a.ledger x)
    (hsub : ∀ sp q x, FileLine.incl sp q x ∈ part → le.join (le.join a.ledger g) x = le.join a.ledger x) (hno : aliasesOf part = [])
    (e : OpEnv) (hs : IsSort e.srt) (srt' : List Posting → List Posting) (hs' : IsSort srt') (hload : Loads e.srt le a.ledger ∨ Loads srt' le f')
    (fuel : Nat) (r : RegisterConf) (args : List Str) (arg : Str) :
    ∃ n, ∀ depth depth', n ≤ depth → n ≤ depth' →
      EndsLike SameSections (registerCmd le depth e fuel a r args arg) (registerCmd le depth' (e.sorting srt') fuel (a.reading f') r args arg) := by
  have hsays : ∃ cs, FileSays fs le.join a.ledger [] [] (before ++ .incl sp q g :: after) cs ∧ FileSays fs le.join f' [] [] (before ++ (part ++ after)) cs := by
    rcases hload with ⟨depth, bk, h⟩ | ⟨depth, bk, h⟩
    · obtain ⟨cs, s1, -, -⟩ := c96_loaded_book he hl hdisk hf h
      exact ⟨cs, s1, (c143_says_partial _ _ g sp q before after part hg hdir hsub hno cs).1 s1⟩
    · obtain ⟨cs, s1, -, -⟩ := c96_loaded_book he hl hdisk hf' h
      exact ⟨cs, (c143_says_partial _ _ g sp q before after part hg hdir hsub hno cs).2 s1, s1⟩
  obtain ⟨cs, h1, h2⟩ := hsays
  have hload : Loads e.srt le a.ledger := hload.elim id ((c142_loads he he hl hl hdisk hdisk _ _ hf hf' h1 h2 _ _).2)
  exact c142_register he he hl hl hdisk hdisk a f' hf hf' h1 h2 e hs srt' hs' hload fuel r args arg

/-! ## Examples -/

/-- A stands for Cash. -/
def cashAlias : FileLine := .short [32] b!"A" [32] [32] b!"Cash" []

def inclLines : List FileLine := [quotedAt b!"X" b!"2", .comment [] b!" note", .blank [], partIncl b!"names", partIncl b!"part", cashAlias]

/-- A ledger with its transactions in a file of their own and one with them in it; and a ledger with its alias in a file of its own and one with it in it. -/
def inclFiles : List (Str × List FileLine) := [
  (b!"main", [quotedAt b!"X" b!"2", .comment [] b!" note", partIncl b!"part", .blank []]),
  (b!"flat", [quotedAt b!"X" b!"2", .comment [] b!" note"] ++ (partOne ++ [.blank []])),
  (b!"part", partOne), (b!"names", [cashAlias]), (b!"named", [] ++ partIncl b!"names" :: partOne), (b!"flatnamed", [] ++ ([cashAlias] ++ partOne))]

def inclDisk (f : Str) : Option (List FileLine) := (inclFiles.find? fun x => decide (x.1 = f)).map (·.2)

def inclEnv : Env := demoEnv (inclFiles.map fun x => (x.1, fileText x.2))

example : (inclFiles.map fun x => fileText x.2).take 2 =
    [b!"P 2020/01/02 00:00:00 X 2 Y\n; note\ninclude \"part\"\n\n",
     b!"P 2020/01/02 00:00:00 X 2 Y\n; note\n2020/1/2 * shop ; note\n  A 5 X\n  B -5 X\n\n"] := by decide +kernel

theorem incl_line (l : FileLine) (h : l ∈ inclLines ∨ l ∈ partOne) (f : Str) :
    l.Valid ∧ ∀ sp q g, l = .incl sp q g → (inclDisk (inclEnv.join f g)).isSome = true := by
  rcases h with h | h
  · simp only [inclLines, List.mem_cons, List.not_mem_nil, or_false] at h
    rcases h with rfl | rfl | rfl | rfl | rfl | rfl
    · exact ⟨(quote_line _ (.inl List.mem_cons_self)).1, fun sp q g e => by cases e⟩
    · exact ⟨by refine ⟨?_, ?_⟩ <;> decide, fun sp q g e => by cases e⟩
    · exact ⟨(by intro c hc; cases hc), fun sp q g e => by cases e⟩
    · refine ⟨⟨by decide, by decide, by decide, by decide, by rintro ⟨⟩⟩, fun sp q g e => ?_⟩
      unfold partIncl at e
      cases e
      show (inclDisk b!"names").isSome = true
      rfl
    · refine ⟨⟨by decide, by decide, by decide, by decide, by rintro ⟨⟩⟩, fun sp q g e => ?_⟩
      unfold partIncl at e
      cases e
      show (inclDisk b!"part").isSome = true
      rfl
    · exact ⟨⟨by decide, by decide, by decide, by decide, by decide, by decide⟩, fun sp q g e => by cases e⟩
  · obtain ⟨h1, h2, -⟩ := quote_line l (.inr h)
    exact ⟨h1, fun sp q g e => absurd e (h2 sp q g)⟩

theorem incl_files : ∀ x ∈ inclFiles, ∀ l ∈ x.2, l ∈ inclLines ∨ l ∈ partOne := by
  intro x hx l hl
  simp only [inclFiles, List.mem_cons, List.not_mem_nil, or_false] at hx
  rcases hx with rfl | rfl | rfl | rfl | rfl | rfl <;>
    simp only [inclLines, List.mem_append, List.mem_cons, List.not_mem_nil, or_false, false_or] at hl ⊢ <;> tauto

theorem incl_disk : OnDisk inclEnv inclDisk := by
  intro f ls hf
  have hx : (f, ls) ∈ inclFiles ∧ inclDisk f = some ls := by
    refine ⟨?_, hf⟩
    unfold inclDisk at hf
    cases h : inclFiles.find? fun x => decide (x.1 = f) with
    | none => rw [h] at hf; cases hf
    | some x =>
      rw [h] at hf
      have h1 := List.find?_some h
      have h2 := List.mem_of_find?_eq_some h
      simp only [decide_eq_true_eq] at h1
      simp only [Option.map_some, Option.some.injEq] at hf
      rw [← h1, ← hf]
      exact h2
  refine ⟨?_, fun l hl => incl_line l (incl_files _ hx.1 l hl) f⟩
  have : ∀ x ∈ inclFiles, inclEnv.files x.1 = some (fileText x.2) := by decide +kernel
  exact this _ hx.1

/-- Transactions in a file of their own: the hypotheses hold. -/
example (r : ReportConf) (srt' : List Posting → List Posting) (hs' : IsSort srt') :
    ∃ n, ∀ depth depth', n ≤ depth → n ≤ depth' →
      (∃ bk bk', loadBook insSort inclEnv depth b!"main" = .ok bk ∧ loadBook srt' inclEnv depth' b!"flat" = .ok bk') ∧
      EndsLike (SameReport r) (reportCmd inclEnv depth againOps 5 (partApp b!"main") r (fun _ _ l => l) [])
        (reportCmd inclEnv depth' (againOps.sorting srt') 5 (partApp b!"flat") r (fun _ _ l => l.reverse) []) := by
  refine c143_report_partial (demoEnv_ok _) (demo_letters _) incl_disk (partApp b!"main") b!"flat" b!"part" [32] true
    [quotedAt b!"X" b!"2", .comment [] b!" note"] [.blank []] partOne rfl rfl rfl (fun _ => rfl) (fun _ _ _ _ => rfl) rfl againOps insSort_isSort srt' hs' (.inl ?_)
    (by decide) 5 r _ _ (fun _ _ _ => .refl _) (fun _ _ l => l.reverse_perm) []
  have h : (match loadBook insSort inclEnv 5 b!"main" with
      | .ok _ => true
      | _ => false) = true := by decide +kernel
  split at h <;> try cases h
  rename_i bk hbk
  exact ⟨5, bk, hbk⟩

/-- What a report shows on account A. -/
def inclShown (f : Str) : Option Rat :=
  match reportCmd inclEnv 5 againOps 5 (partApp f) { partConf false with convert := false } (fun _ _ l => l) [] with
  | .ok ts => some (chosenTotal (fun _ ac _ => decide (ac = b!"A")) ts.flatten)
  | _ => none

theorem incl_shown : inclShown b!"named" = some 5 ∧ inclShown b!"flatnamed" = some 0 := by decide +kernel

/-- **C143** is false for a part with an alias: the included file's aliases end with it. -/
theorem c143_alias_fails : ¬ ∀ (le : Env) (_ : le.Ok) (_ : PlainLetters le) (fs : Str → Option (List FileLine)) (_ : OnDisk le fs) (a : AppConf) (f' g : Str)
    (sp : List Nat) (q : Bool) (before after part : List FileLine) (_ : fs a.ledger = some (before ++ .incl sp q g :: after))
    (_ : fs (le.join a.ledger g) = some part) (_ : fs f' = some (before ++ (part ++ after))) (_ : ∀ x, le.join f' x = le.join a.ledger x)
    (_ : ∀ sp q x, FileLine.incl sp q x ∈ part → le.join (le.join a.ledger g) x = le.join a.ledger x) (e : OpEnv) (_ : e.Ok) (_ : a.divider ≠ [])
    (r : ReportConf) (o : Int → Str → List Str → List Str) (_ : ∀ d py l, (o d py l).Perm l) (depth fuel : Nat) (ts ts' : List Txn),
    reportCmd le depth e fuel a r o [] = .ok ts → reportCmd le depth e fuel (a.reading f') r o [] = .ok ts' → SameReport r ts ts' := by
  intro h
  have hk := h inclEnv (demoEnv_ok _) (demo_letters _) inclDisk incl_disk (partApp b!"named") b!"flatnamed" b!"names" [32] true [] partOne [cashAlias] rfl rfl rfl
    (fun _ => rfl) (fun _ _ _ _ => rfl) againOps againOps_ok (by decide) { partConf false with convert := false } (fun _ _ l => l) (fun _ _ _ => .refl _) 5 5
  obtain ⟨h1, h2⟩ := incl_shown
  unfold inclShown at h1 h2
  rw [show (partApp b!"named").reading b!"flatnamed" = partApp b!"flatnamed" from rfl] at hk
  generalize reportCmd inclEnv 5 againOps 5 (partApp b!"named") { partConf false with convert := false } (fun _ _ l => l) [] = x at *
  generalize reportCmd inclEnv 5 againOps 5 (partApp b!"flatnamed") { partConf false with convert := false } (fun _ _ l => l) [] = y at *
  cases x <;> simp only [Option.some.injEq, reduceCtorEq] at h1
  cases y <;> simp only [Option.some.injEq, reduceCtorEq] at h2
  rename_i ts ts'
  have hs : SameTxns ts ts' := by
    have := hk ts ts' rfl rfl
    unfold SameReport at this
    rwa [if_neg (by decide)] at this
  have hflat : ts.flatten.map obs = ts'.flatten.map obs := by rw [List.map_flatten, List.map_flatten, hs]
  have hal := forall₂_alike.2 hflat
  have := total_alike (P := fun p => decide (p.acct = b!"A")) (fun p q hpq => by rw [hpq.fields.2.2.1]) hal
  have h12 : (5 : Rat) = 0 := h1.symm.trans (Eq.trans this h2)
  norm_num at h12

/-- The same ledger with and without its comment and empty line: they say the same, so C142 holds of them. -/
example : FileSays inclDisk inclEnv.join b!"flat" [] [] ((inclFiles[1]).2.filter fun l => !l.silent) (([quotedAt b!"X" b!"2"] ++ partOne).filterMap onlyCall) ∧
    FileSays inclDisk inclEnv.join b!"flat" [] [] (inclFiles[1]).2 (([quotedAt b!"X" b!"2"] ++ partOne).filterMap onlyCall) := by
  have h := says_calls inclDisk inclEnv.join b!"flat" ([quotedAt b!"X" b!"2"] ++ partOne) [] (by decide +kernel)
  exact ⟨h, c142_silent.2 h⟩

end Verif
