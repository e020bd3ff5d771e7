import Verif.Spec.Renamed
import Verif.Props.During

/-! # C149: renaming accounts with `map`, in the ledger, or with an alias line -/

namespace Verif
open Spec

theorem filed_renamed {g : Str → Str} {cs : List Call} {taken ns : List (Int × Str)} (h : FiledAs taken cs ns) : FiledAs taken (cs.map (renamed g)) ns := by
  induction h with
  | nil => exact .nil _
  | addPosting taken a c v n cs ns _ ih => exact .addPosting _ _ _ _ _ _ _ ih
  | addPrice taken d u c v cs ns _ ih => exact .addPrice _ _ _ _ _ _ _ ih
  | fresh taken d p n cs ns h1 _ ih => exact .fresh _ _ _ _ _ _ h1 ih
  | again taken d p n cs ns k h1 h2 h3 h4 _ ih => exact .again _ _ _ _ _ _ k h1 h2 h3 h4 ih

def Entry.renamed (g : Str → Str) (x : Entry) : Entry := { x with acct := g x.acct }

theorem entries_renamed (g : Str → Str) : ∀ (cs : List Call) (cur : Int × Str) (ns : List (Int × Str)),
    entries cur ns (cs.map (renamed g)) = (entries cur ns cs).map (Entry.renamed g) := by
  intro cs
  induction cs with
  | nil => intro cur ns; simp [entries]
  | cons c cs ih =>
    intro cur ns
    cases c with
    | addPosting a c v n => simp only [List.map_cons, renamed, entries, ih]; rfl
    | addPrice d u c v => simp only [List.map_cons, renamed, entries, ih]
    | newTransaction d p n =>
      cases ns with
      | nil => simp [renamed, entries]
      | cons n ns => simp only [List.map_cons, renamed, entries, ih]

theorem priceLines_renamed (g : Str → Str) (cs : List Call) : priceLines (cs.map (renamed g)) = priceLines cs := by
  induction cs with
  | nil => rfl
  | cons c cs ih => cases c <;> simp only [List.map_cons, renamed, priceLines, ih]

/-- Two compacted books of the same totals. -/
theorem compacted_pair {srt srt'} (hs : IsSort srt) (hs' : IsSort srt') {X Y : Book} (hx : ∀ p ∈ X.post, Plain p) (hy : ∀ p ∈ Y.post, Plain p)
    (h : SameTotals (X.compact srt) (Y.compact srt')) : GoodPair (X.compact srt) (Y.compact srt') := by
  refine ⟨h.good, h.good', ?_⟩
  have hp : List.Forall₂ Alike (X.compact srt).post (Y.compact srt').post := by
    rw [forall₂_alike, compact_post X (srt_nil hs), compact_post Y (srt_nil hs')]
    refine compactPost_unique hs hs' hx hy fun k => ?_
    have := h.keys k
    rw [compact_post X (srt_nil hs), compact_post Y (srt_nil hs'), total_compactPost hs (keyFun_key k), total_compactPost hs' (keyFun_key k)] at this
    exact this
  refine ⟨hp, ?_, h.prices⟩
  rw [← groupTxns_of_groups h.good.1.groups h.good.1.order, ← groupTxns_of_groups h.good'.1.groups h.good'.1.order, h.good.1.index, h.good'.1.index]
  exact groupTxns_alike hp

/-- A built book is a compacted one. -/
theorem renamed_compact {srt} {cs : List Call} {b : Book} (h : Built srt cs b) : ∃ Y : Book, (∀ p ∈ Y.post, Plain p) ∧ b = Y.compact srt := by
  obtain ⟨bb, h1, h2⟩ := h
  obtain ⟨_, p1⟩ := builder_post cs bb h1
  unfold Builder.build at h2
  cases hc : bb.checkAndClear with
  | none => rw [hc] at h2; cases h2
  | some c =>
    rw [hc] at h2
    simp only [Option.some.injEq] at h2
    obtain ⟨f1, -⟩ := checkAndClear_fields hc
    refine ⟨_, ?_, h2.symm⟩
    show ∀ p ∈ c.post, Plain p
    rw [f1]
    exact p1

/-- The book after `map` is the book of the renamed ledger. -/
theorem map_loaded {le le' : Env} (he : le.Ok) (he' : le'.Ok) (hl : PlainLetters le) (hl' : PlainLetters le') {fs fs' : Str → Option (List FileLine)}
    (hdisk : OnDisk le fs) (hdisk' : OnDisk le' fs') {f f' : Str} {ls ls' : List FileLine} (hf : fs f = some ls) (hf' : fs' f' = some ls')
    {cs : List Call} {e : OpEnv} {s r alt : Str} (hsay : FileSays fs le.join f [] [] ls cs)
    (hsay' : FileSays fs' le'.join f' [] [] ls' (cs.map (renamed (mapRule e s r alt)))) (hs : IsSort e.srt) {depth depth' : Nat} {b b' c : Book}
    (hb : loadBook e.srt le depth f = .ok b) (hb' : loadBook e.srt le' depth' f' = .ok b') (hc : (Prim.map s r alt).apply e b = some c) :
    GoodPair c b' := by
  obtain ⟨ds, s1, b1, _⟩ := c96_loaded_book he hl hdisk hf hb
  obtain ⟨ds', s2, b2, _⟩ := c96_loaded_book he' hl' hdisk' hf' hb'
  have q1 := readings_shuffled hsay [] ds (.refl _) s1
  have q2 := readings_shuffled hsay' [] ds' (.refl _) s2
  have hg : (fun a => regexAccount (e.mat s) (e.rep s r) r alt a) = mapRule e s r alt := by
    funext a; rfl
  have hN : issued Builder.new ds' = issued Builder.new ds := by
    obtain ⟨bb, h1, _⟩ := b1
    obtain ⟨bb', h1', _⟩ := b2
    exact c02_one_filing (filedAs_aux ds' _ bb' [] seenInv_new h1')
      (shuffled_filed q2 (filed_renamed (shuffled_filed (shuffled_symm q1) (filedAs_aux ds _ bb [] seenInv_new h1))))
  have htot : ∀ u : Weight, wsum (wt u) c.post = wsum (wt u) b'.post := by
    intro u
    rw [prim_pull hs (b1.wf hs).1 hc, wsum_built hs b1, wsum_built hs b2, hN]
    obtain ⟨-, -, k3⟩ := q1.facts
    obtain ⟨-, -, j3⟩ := q2.facts
    have e1 : ∀ u : Weight, esum u (entries (-1, []) (issued Builder.new ds) ds) = esum u (entries (-1, []) (issued Builder.new ds) cs) :=
      fun u => (((k3 (-1, []) _).map _).sum_eq).symm
    have e2 : esum u (entries (-1, []) (issued Builder.new ds) ds') =
        esum u (entries (-1, []) (issued Builder.new ds) (cs.map (renamed (mapRule e s r alt)))) := (((j3 (-1, []) _).map _).sum_eq).symm
    rw [e1, e2, entries_renamed]
    unfold esum
    rw [List.map_map]
    rfl
  have hprices : c.prices = b'.prices := by
    rw [prim_prices hc]
    show b.prices = b'.prices
    obtain ⟨-, k2, -⟩ := q1.facts
    obtain ⟨-, j2, -⟩ := q2.facts
    rw [priceLines_renamed] at j2
    rw [built_pricesAfter b2, ← j2, k2, ← built_pricesAfter b1]
  have hgood := good_prim hs (b1.wf hs) hc
  have hst : SameTotals c b' := ⟨hgood, b2.wf hs, hprices, htot⟩
  obtain ⟨Y, hy, rfl⟩ := renamed_compact b2
  simp only [Prim.apply] at hc
  split at hc
  · simp only [Option.some.injEq] at hc
    subst hc
    refine compacted_pair hs hs ?_ hy hst
    exact plain_map_acct (b1.wf hs).1.plain
  · cases hc

theorem segments_renamed (g : Str → Str) : ∀ (cs : List Call) (cur : List (Str × Rat)), segments cur (cs.map (renamed g)) = segments cur cs := by
  intro cs
  induction cs with
  | nil => intro cur; rfl
  | cons c cs ih => intro cur; cases c <;> simp only [List.map_cons, renamed, segments, ih]

/-- C149: a ledger with its accounts renamed loads exactly if the ledger does. -/
theorem c149_loads {le le' : Env} (he : le.Ok) (he' : le'.Ok) (hl : PlainLetters le) (hl' : PlainLetters le') {fs fs' : Str → Option (List FileLine)}
    (hdisk : OnDisk le fs) (hdisk' : OnDisk le' fs') {f f' : Str} {ls ls' : List FileLine} (hf : fs f = some ls) (hf' : fs' f' = some ls')
    {cs : List Call} (g : Str → Str) (hsay : FileSays fs le.join f [] [] ls cs) (hsay' : FileSays fs' le'.join f' [] [] ls' (cs.map (renamed g)))
    (srt srt' : List Posting → List Posting) : Loads srt le f ↔ Loads srt' le' f' := by
  rw [loads_iff he hl hdisk hf hsay, loads_iff he' hl' hdisk' hf' hsay', segments_renamed]

theorem renamed_pair {le le' : Env} (he : le.Ok) (he' : le'.Ok) (hl : PlainLetters le) (hl' : PlainLetters le') {fs fs' : Str → Option (List FileLine)}
    (hdisk : OnDisk le fs) (hdisk' : OnDisk le' fs') (a : AppConf) (f' : Str) {ls ls' : List FileLine} (hf : fs a.ledger = some ls) (hf' : fs' f' = some ls')
    {cs : List Call} (e : OpEnv) {s r alt : Str} (hsay : FileSays fs le.join a.ledger [] [] ls cs)
    (hsay' : FileSays fs' le'.join f' [] [] ls' (cs.map (renamed (mapRule e s r alt)))) (hs : IsSort e.srt) (hload : Loads e.srt le a.ledger)
    (hv : e.valid s = true) (op : Str) (hm : a.macros op = none) (hop : parsePrim e op = some (.map s r alt)) (fuel : Nat) (hfuel : fuel ≠ 0) (rest : List Str) :
    ∃ n, ∀ depth depth', n ≤ depth → n ≤ depth' → ∃ b b', loadCmd le depth e.srt a = .ok b ∧ loadCmd le' depth' e.srt (a.reading f') = .ok b' ∧
      EndsLike GoodPair (opsCmd e fuel a (op :: rest) b) (opsCmd e fuel a rest b') := by
  have hbal := (loads_iff he hl hdisk hf hsay e.srt).1 hload
  have hbal' := hbal
  rw [← segments_renamed (mapRule e s r alt)] at hbal'
  obtain ⟨n, hn⟩ := c96_balanced_loads he hl hdisk hf hsay hbal e.srt
  obtain ⟨n', hn'⟩ := c96_balanced_loads he' hl' hdisk' hf' hsay' hbal' e.srt
  refine ⟨max n n', fun depth depth' hd1 hd2 => ?_⟩
  obtain ⟨b, hb⟩ := hn depth (le_trans (le_max_left _ _) hd1)
  obtain ⟨b', hb'⟩ := hn' depth' (le_trans (le_max_right _ _) hd2)
  refine ⟨b, b', by unfold loadCmd; rw [hb], by unfold loadCmd; rw [show (a.reading f').ledger = f' from rfl, hb'], ?_⟩
  obtain ⟨k, rfl⟩ := Nat.exists_eq_succ_of_ne_zero hfuel
  have hc : ∃ c, (Prim.map s r alt).apply e b = some c := ⟨_, by simp only [Prim.apply]; rw [if_pos hv]⟩
  obtain ⟨c, hc⟩ := hc
  rw [show op :: rest = [op] ++ rest from rfl, opsCmd_append, opsCmd_one hm hop, hc]
  exact ops_like (srt' := e.srt) hs hs (k + 1) a rest (map_loaded he he' hl hl' hdisk hdisk' hf hf' hsay hsay' hs hb hb' hc)

/-- **C149**: a report whose operations begin with `map` shows what the report without it shows of the ledger in which the accounts are renamed
accordingly. -/
theorem c149_report {le le' : Env} (he : le.Ok) (he' : le'.Ok) (hl : PlainLetters le) (hl' : PlainLetters le') {fs fs' : Str → Option (List FileLine)}
    (hdisk : OnDisk le fs) (hdisk' : OnDisk le' fs') (a : AppConf) (f' : Str) {ls ls' : List FileLine} (hf : fs a.ledger = some ls) (hf' : fs' f' = some ls')
    {cs : List Call} (e : OpEnv) {s r alt : Str} (hsay : FileSays fs le.join a.ledger [] [] ls cs)
    (hsay' : FileSays fs' le'.join f' [] [] ls' (cs.map (renamed (mapRule e s r alt)))) (hs : IsSort e.srt) (hload : Loads e.srt le a.ledger)
    (hv : e.valid s = true) (op : Str) (hm : a.macros op = none) (hop : parsePrim e op = some (.map s r alt)) (fuel : Nat) (hfuel : fuel ≠ 0) (rest : List Str)
    (hd : a.divider ≠ []) (rc : ReportConf) (o o' : Int → Str → List Str → List Str) (ho : ∀ d py l, (o d py l).Perm l)
    (ho' : ∀ d py l, (o' d py l).Perm l) :
    ∃ n, ∀ depth depth', n ≤ depth → n ≤ depth' →
      EndsLike (SameReport rc) (reportCmd le depth e fuel a rc o (op :: rest)) (reportCmd le' depth' e fuel (a.reading f') rc o' rest) := by
  obtain ⟨n, hn⟩ := renamed_pair he he' hl hl' hdisk hdisk' a f' hf hf' e hsay hsay' hs hload hv op hm hop fuel hfuel rest
  refine ⟨n, fun depth depth' hd1 hd2 => ?_⟩
  obtain ⟨b, b', l1, l2, hp⟩ := hn depth depth' hd1 hd2
  unfold reportCmd
  rw [l1, l2]
  exact EndsLike.bind hp fun c c' hcc => reportTxns_like (e := e) (srt' := e.srt) hs hs (a := a) hd rc ho ho' hcc

/-- C149 for the register, without `--convert` (which a register does before the operations). -/
theorem c149_register {le le' : Env} (he : le.Ok) (he' : le'.Ok) (hl : PlainLetters le) (hl' : PlainLetters le') {fs fs' : Str → Option (List FileLine)}
    (hdisk : OnDisk le fs) (hdisk' : OnDisk le' fs') (a : AppConf) (f' : Str) {ls ls' : List FileLine} (hf : fs a.ledger = some ls) (hf' : fs' f' = some ls')
    {cs : List Call} (e : OpEnv) {s r alt : Str} (hsay : FileSays fs le.join a.ledger [] [] ls cs)
    (hsay' : FileSays fs' le'.join f' [] [] ls' (cs.map (renamed (mapRule e s r alt)))) (hs : IsSort e.srt) (hload : Loads e.srt le a.ledger)
    (hv : e.valid s = true) (op : Str) (hm : a.macros op = none) (hop : parsePrim e op = some (.map s r alt)) (fuel : Nat) (hfuel : fuel ≠ 0) (rest : List Str)
    (rc : RegisterConf) (hconv : rc.convert = false) (arg : Str) :
    ∃ n, ∀ depth depth', n ≤ depth → n ≤ depth' →
      EndsLike SameSections (registerCmd le depth e fuel a rc (op :: rest) arg) (registerCmd le' depth' e fuel (a.reading f') rc rest arg) := by
  obtain ⟨n, hn⟩ := renamed_pair he he' hl hl' hdisk hdisk' a f' hf hf' e hsay hsay' hs hload hv op hm hop fuel hfuel rest
  refine ⟨n, fun depth depth' hd1 hd2 => ?_⟩
  obtain ⟨b, b', l1, l2, hp⟩ := hn depth depth' hd1 hd2
  unfold registerCmd convertCmd
  rw [l1, l2, hconv]
  have hp' : EndsLike GoodPair (if op :: rest = [] then CmdEnd.ok b else opsCmd e fuel a (op :: rest) b)
      (if rest = [] then CmdEnd.ok b' else opsCmd e fuel (a.reading f') rest b') := by
    rw [if_neg (by simp)]
    by_cases hr : rest = []
    · rw [if_pos hr, hr]
      rw [hr] at hp
      exact hp
    · rw [if_neg hr]; exact hp
  exact EndsLike.bind (R := GoodPair) hp' fun c c' hcc =>
    registerShow_like (e := e) (e' := e) (a := a) (a' := a.reading f') rfl rfl rfl rfl rfl rc arg hcc.2.2.post
      (transactions_same hs hs hcc.1 hcc.2.1 hcc.2.2) (by rw [hcc.2.2.prices])

/-- What an alias at the beginning of the file changes. -/
theorem alias_says {fs : Str → Option (List FileLine)} {join : Str → Str → Str} {s l : Str} (hfs : ∀ f ls, fs f = some ls → OtherAliases s ls)
    {fn : Str} {als : List (Str × Str)} {pre : List Call} {ls : List FileLine} {cs : List Call} (h : FileSays fs join fn als pre ls cs) :
    (∀ x ∈ als, x.1 ≠ s ∧ x.2 ≠ s) → OtherAliases s ls →
      FileSays fs join fn ((s, l) :: als) (pre.map (renamed (becomes s l))) ls (cs.map (renamed (becomes s l))) := by
  have stands : ∀ (als : List (Str × Str)) (a : Str), (∀ x ∈ als, x.1 ≠ s ∧ x.2 ≠ s) → standsFor ((s, l) :: als) a = becomes s l (standsFor als a) := by
    intro als a ha
    unfold standsFor becomes
    rw [List.reverse_cons, List.find?_append]
    cases hx : als.reverse.find? fun kv => kv.1 == a with
    | some x =>
      have := ha x (List.mem_reverse.1 (List.mem_of_find?_eq_some hx))
      simp [this.2]
    | none =>
      by_cases h : a = s
      · simp [h]
      · have : ¬ s = a := fun e => h e.symm
        simp [h, this]
  have opens_eq : ∀ pre : List Call, openAmounts (pre.map (renamed (becomes s l))) = openAmounts pre := by
    intro pre; unfold openAmounts; rw [segments_renamed]
  induction h with
  | nil => intro _ _; exact .nil _ _ _
  | blank _ _ _ _ _ _ _ ih => intro ha ho; exact .blank _ _ _ _ _ _ (ih ha ho)
  | comment _ _ _ _ _ _ _ _ ih => intro ha ho; exact .comment _ _ _ _ _ _ _ (ih ha ho)
  | unused _ _ _ _ _ _ _ _ ih => intro ha ho; exact .unused _ _ _ _ _ _ _ (ih ha ho)
  | txn _ _ _ _ _ _ _ ih =>
    intro ha ho
    have := ih ha ho
    rw [List.map_append] at this
    exact .txn _ _ _ _ _ _ this
  | posting fn als pre p ls cs _ ih =>
    intro ha ho
    have := ih ha ho
    rw [List.map_append] at this
    have h2 := FileSays.posting (fs := fs) (join := join) fn ((s, l) :: als) (pre.map (renamed (becomes s l))) p ls (cs.map (renamed (becomes s l)))
    rw [stands als _ ha] at h2
    exact h2 this
  | rest fn als pre r adds ls cs h1 h2 _ ih =>
    intro ha ho
    have := ih ha ho
    rw [List.map_append, List.map_map] at this
    have h3 := FileSays.rest (fs := fs) (join := join) fn ((s, l) :: als) (pre.map (renamed (becomes s l))) r adds ls (cs.map (renamed (becomes s l))) h1
      (by rw [opens_eq]; exact h2)
    rw [stands als _ ha] at h3
    rw [List.map_append, List.map_map]
    exact h3 this
  | price _ _ _ _ _ _ _ ih =>
    intro ha ho
    have := ih ha ho
    rw [List.map_append] at this
    exact .price _ _ _ _ _ _ this
  | short fn als pre sp1 s2 sp2 sp3 l2 sp4 ls cs _ ih =>
    intro ha ho
    have h0 := ho (s2, l2) (by simp [aliasesOf])
    refine .short _ _ _ _ _ _ _ _ _ _ _ (ih ?_ fun x hx => ho x (by simp [aliasesOf, hx]))
    intro x hx
    rcases List.mem_append.1 hx with hx | hx
    · exact ha x hx
    · rw [List.mem_singleton.1 hx]; exact h0
  | incl fn als pre sp q n ls' cs' ls cs hf _ _ ih1 ih2 =>
    intro ha ho
    have := ih2 ha fun x hx => ho x (by simpa [aliasesOf] using hx)
    rw [List.map_append] at this
    rw [List.map_append]
    exact .incl _ _ _ _ _ _ _ _ _ _ hf (ih1 ha (hfs _ _ hf)) this

/-- On a disk with more files the lines say the same. -/
theorem says_more {fs fs' : Str → Option (List FileLine)} (hmore : ∀ f ls, fs f = some ls → fs' f = some ls) {join : Str → Str → Str} {fn : Str}
    {als : List (Str × Str)} {pre : List Call} {ls : List FileLine} {cs : List Call} (h : FileSays fs join fn als pre ls cs) :
    FileSays fs' join fn als pre ls cs := by
  induction h with
  | nil => exact .nil _ _ _
  | blank _ _ _ _ _ _ _ ih => exact .blank _ _ _ _ _ _ ih
  | comment _ _ _ _ _ _ _ _ ih => exact .comment _ _ _ _ _ _ _ ih
  | unused _ _ _ _ _ _ _ _ ih => exact .unused _ _ _ _ _ _ _ ih
  | txn _ _ _ _ _ _ _ ih => exact .txn _ _ _ _ _ _ ih
  | posting _ _ _ _ _ _ _ ih => exact .posting _ _ _ _ _ _ ih
  | rest _ _ _ _ _ _ _ h1 h2 _ ih => exact .rest _ _ _ _ _ _ _ h1 h2 ih
  | price _ _ _ _ _ _ _ ih => exact .price _ _ _ _ _ _ ih
  | short _ _ _ _ _ _ _ _ _ _ _ _ ih => exact .short _ _ _ _ _ _ _ _ _ _ _ ih
  | incl _ _ _ _ _ _ _ _ _ _ hf _ _ ih1 ih2 => exact .incl _ _ _ _ _ _ _ _ _ _ (hmore _ _ hf) ih1 ih2

/-- C149: a ledger with a line `alias short=long` before all others says what the ledger without it says, with the account `short` renamed to `long`;
provided that the other alias lines, in the files `fs` which the ledger may include, have to do with other accounts. -/
theorem c149_alias {fs fs' : Str → Option (List FileLine)} (hmore : ∀ f ls, fs f = some ls → fs' f = some ls) {join : Str → Str → Str} {s l : Str}
    (hfs : ∀ f ls, fs f = some ls → OtherAliases s ls) {fn fn' : Str} {ls : List FileLine} {cs : List Call} (ho : OtherAliases s ls)
    (h : FileSays fs join fn [] [] ls cs) (hjoin : ∀ n, join fn n = join fn' n) (sp1 sp2 sp3 sp4 : List Nat) :
    FileSays fs' join fn' [] [] (.short sp1 s sp2 sp3 l sp4 :: ls) (cs.map (renamed (becomes s l))) :=
  says_renamed (FileSays.short fn [] [] sp1 s sp2 sp3 l sp4 ls _ (says_more hmore (alias_says hfs h (by simp) ho))) fun _ _ n _ => hjoin n

/-- The file with the transactions alone. -/
def partOnly (f : Str) : Option (List FileLine) := if f = b!"part" then some partOne else none

theorem dot_rule : mapRule dotOps b!"^A$" b!"Cash" [] = becomes b!"A" b!"Cash" := by
  funext a
  have h1 : dotMatch b!"A" a = decide (a = b!"A") := by
    unfold dotMatch
    cases a with
    | nil => rfl
    | cons x xs =>
      cases xs with
      | nil => simp [dotMatch, eq_comm]
      | cons y ys => simp [dotMatch]
  show (if ([] : Str) ≠ [] ∧ _ then _ else if b!"Cash" ≠ [] then (if dotMatch b!"A" a = true then b!"Cash" else a) else a) = _
  rw [if_neg (fun h => h.1 rfl), if_pos (by decide), h1]
  unfold becomes
  by_cases h : a = b!"A" <;> simp [h]

/-- The transactions with `A` renamed by an alias line, and by `map`. -/
theorem named_says : FileSays inclDisk inclEnv.join b!"flatnamed" [] [] ([] ++ ([cashAlias] ++ partOne))
    ((partOne.filterMap onlyCall).map (renamed (mapRule dotOps b!"^A$" b!"Cash" []))) := by
  rw [dot_rule]
  show FileSays inclDisk inclEnv.join b!"flatnamed" [] [] (.short [32] b!"A" [32] [32] b!"Cash" [] :: partOne) _
  refine c149_alias (fs := partOnly) (fs' := inclDisk) ?_ (join := inclEnv.join) ?_ (fn := b!"part") (fn' := b!"flatnamed") ?_
    (says_calls _ _ _ _ _ fun l hl => (quote_line l (.inr hl)).2.2) (fun _ => rfl) [32] [32] [32] []
  · intro f ls h
    unfold partOnly at h
    split at h
    · rename_i hf; cases h; rw [hf]; rfl
    · cases h
  · intro f ls h
    unfold partOnly at h
    split at h
    · cases h; intro x hx; simp [partOne, partPost, aliasesOf] at hx
    · cases h
  · intro x hx; simp [partOne, partPost, aliasesOf] at hx

/-- `report map=/^A$/Cash/` of the one, `report` of the other. -/
example (r : ReportConf) :
    ∃ n, ∀ depth depth', n ≤ depth → n ≤ depth' →
      EndsLike (SameReport r) (reportCmd inclEnv depth dotOps 5 (partApp b!"part") r (fun _ _ l => l) [b!"map=/^A$/Cash/"])
        (reportCmd inclEnv depth' dotOps 5 (partApp b!"flatnamed") r (fun _ _ l => l.reverse) []) := by
  refine c149_report (demoEnv_ok _) (demoEnv_ok _) (demo_letters _) (demo_letters _) incl_disk incl_disk (partApp b!"part") b!"flatnamed" rfl rfl dotOps
    (says_calls _ _ _ _ _ fun l hl => (quote_line l (.inr hl)).2.2) named_says insSort_isSort ?_ rfl _ rfl rfl 5 (by decide) [] (by decide) r _ _
    (fun _ _ _ => .refl _) (fun _ _ l => l.reverse_perm)
  have h : (match loadBook insSort inclEnv 5 b!"part" with
      | .ok _ => true
      | _ => false) = true := by decide +kernel
  split at h <;> try cases h
  rename_i bk hbk
  exact ⟨5, bk, hbk⟩

end Verif
