import Verif.Spec.Amounts
import Verif.Props.Renamed
import Verif.Props.Parts

/-! # C151: only the amounts of each transaction matter, not the lines they are written in -/

namespace Verif
open Spec

/-- A weighted sum of lines. -/
def lsum (f : Str → Str → Rat) (ls : List (Str × Str × Rat)) : Rat := (ls.map fun x => f x.1 x.2.1 * x.2.2).sum

theorem lsum_append (f : Str → Str → Rat) (l m : List (Str × Str × Rat)) : lsum f (l ++ m) = lsum f l + lsum f m := by simp [lsum]

theorem lsum_keys (f : Str → Str → Rat) (K : Finset (Str × Str)) : ∀ l : List (Str × Str × Rat), (∀ x ∈ l, (x.1, x.2.1) ∈ K) →
    lsum f l = ∑ k ∈ K, f k.1 k.2 * bookedBy l k.1 k.2 := by
  intro l
  induction l with
  | nil => intro _; simp [lsum, bookedBy]
  | cons x l ih =>
    intro h
    have h0 := h x List.mem_cons_self
    have e1 : lsum f (x :: l) = f x.1 x.2.1 * x.2.2 + lsum f l := by simp [lsum]
    have e2 : ∀ k : Str × Str, bookedBy (x :: l) k.1 k.2 = (if k = (x.1, x.2.1) then x.2.2 else 0) + bookedBy l k.1 k.2 := by
      intro k
      unfold bookedBy
      rw [List.filter_cons]
      by_cases hk : k = (x.1, x.2.1)
      · subst hk; simp
      · have : ¬ (x.1 = k.1 ∧ x.2.1 = k.2) := fun hh => hk (Prod.ext hh.1.symm hh.2.symm)
        simp [hk, this]
    rw [e1, ih fun y hy => h y (List.mem_cons_of_mem _ hy)]
    simp only [e2, mul_add, Finset.sum_add_distrib]
    congr 1
    rw [Finset.sum_eq_single (x.1, x.2.1)]
    · simp
    · intro k _ hk; simp [hk]
    · intro hk; exact absurd h0 hk

theorem lsum_booked (f : Str → Str → Rat) {l l' : List (Str × Str × Rat)} (h : ∀ a c, bookedBy l a c = bookedBy l' a c) : lsum f l = lsum f l' := by
  classical
  have hK : ∀ x ∈ l ++ l', (x.1, x.2.1) ∈ ((l ++ l').map fun x => (x.1, x.2.1)).toFinset := fun x hx => by
    rw [List.mem_toFinset]; exact List.mem_map_of_mem (f := fun x : Str × Str × Rat => (x.1, x.2.1)) hx
  rw [lsum_keys f _ l fun x hx => hK x (List.mem_append_left _ hx), lsum_keys f _ l' fun x hx => hK x (List.mem_append_right _ hx)]
  exact Finset.sum_congr rfl fun k _ => by rw [h]

/-! ## Headers, balance, totals -/

theorem txns_headers (cs : List Call) : ∀ h ls, (txnsFrom h ls cs).filterMap (·.1) = h.toList ++ headers cs := by
  induction cs with
  | nil => intro h ls; cases h <;> simp [txnsFrom, headers]
  | cons c cs ih =>
    intro h ls
    cases c with
    | newTransaction d p n =>
      rw [txnsFrom, headers, List.filterMap_cons, ih]
      cases h <;> rfl
    | addPosting a c v n => rw [txnsFrom, headers, ih]; simp
    | addPrice d u c v => rw [txnsFrom, headers, ih]; simp

theorem txns_segments (cs : List Call) : ∀ h ls, segments (ls.map fun x => (x.2.1, x.2.2)) cs = (txnsFrom h ls cs).map fun t => t.2.map fun x => (x.2.1, x.2.2) := by
  induction cs with
  | nil => intro h ls; rfl
  | cons c cs ih =>
    intro h ls
    cases c with
    | newTransaction d p n => rw [txnsFrom, segments, List.map_cons, ← ih]; rfl
    | addPosting a c v n => rw [txnsFrom, segments, ← ih]; simp
    | addPrice d u c v => rw [txnsFrom, segments, ← ih]

/-- A weighted sum over transactions filed under names. -/
def tsum (u : Weight) (cur : Int × Str) : List (Int × Str) → List (Option (Int × Str) × List (Str × Str × Rat)) → Rat
  | _, [] => 0
  | ns, t :: ts => lsum (u cur.1 cur.2) t.2 + match ns with
    | [] => 0
    | n :: ns => tsum u n ns ts

theorem txns_entries (u : Weight) (cs : List Call) : ∀ (cur : Int × Str) (ns : List (Int × Str)) h ls,
    tsum u cur ns (txnsFrom h ls cs) = lsum (u cur.1 cur.2) ls + esum u (entries cur ns cs) := by
  induction cs with
  | nil =>
    intro cur ns h ls
    cases ns <;> simp [txnsFrom, tsum, entries, esum]
  | cons c cs ih =>
    intro cur ns h ls
    cases c with
    | newTransaction d p n =>
      cases ns with
      | nil => simp [txnsFrom, tsum, entries, esum]
      | cons m ns =>
        rw [txnsFrom, tsum, entries]
        simp only
        rw [ih]
        simp [lsum]
    | addPosting a c v n =>
      rw [txnsFrom, ih, entries, lsum_append]
      simp only [esum, lsum, List.map_cons, List.map_nil, List.sum_cons, List.sum_nil]
      ring
    | addPrice d u' c v => rw [txnsFrom, ih, entries]

theorem tsum_same (u : Weight) {l l' : List (Option (Int × Str) × List (Str × Str × Rat))}
    (h : List.Forall₂ (fun t t' => t.1 = t'.1 ∧ ∀ a c, bookedBy t.2 a c = bookedBy t'.2 a c) l l') : ∀ cur ns, tsum u cur ns l = tsum u cur ns l' := by
  induction h with
  | nil => intro cur ns; rfl
  | cons hx _ ih =>
    intro cur ns
    cases ns with
    | nil => simp only [tsum, lsum_booked _ hx.2]
    | cons n ns => simp only [tsum, lsum_booked _ hx.2, ih]

theorem amounts_heads {cs cs' : List Call} (h : SameAmounts cs cs') : headers cs = headers cs' := by
  have h1 := txns_headers cs none []
  have h2 := txns_headers cs' none []
  simp only [Option.toList_none, List.nil_append] at h1 h2
  rw [← h1, ← h2]
  have := h.txns
  unfold txnsIn at this
  clear h1 h2
  generalize txnsFrom none [] cs = l at this
  generalize txnsFrom none [] cs' = l' at this
  induction this with
  | nil => rfl
  | cons hx _ ih => rw [List.filterMap_cons, List.filterMap_cons, hx.1, ih]

theorem amounts_totals {cs cs' : List Call} (h : SameAmounts cs cs') (u : Weight) (cur : Int × Str) (ns : List (Int × Str)) :
    esum u (entries cur ns cs) = esum u (entries cur ns cs') := by
  have h1 := txns_entries u cs cur ns none []
  have h2 := txns_entries u cs' cur ns none []
  have h3 : tsum u cur ns (txnsFrom none [] cs) = tsum u cur ns (txnsFrom none [] cs') := tsum_same u h.txns cur ns
  simp only [lsum, List.map_nil, List.sum_nil, zero_add] at h1 h2
  rw [← h1, ← h2, h3]

theorem net_lsum (c : Str) (ls : List (Str × Str × Rat)) : net c (ls.map fun x => (x.2.1, x.2.2)) = lsum (fun _ b => if b = c then 1 else 0) ls := by
  induction ls with
  | nil => rfl
  | cons x ls ih =>
    have : lsum (fun _ b => if b = c then 1 else 0) (x :: ls) = (if x.2.1 = c then 1 else 0) * x.2.2 + lsum (fun _ b => if b = c then 1 else 0) ls := by simp [lsum]
    rw [this, ← ih]
    unfold net
    rw [List.map_cons, List.filter_cons]
    by_cases hx : x.2.1 = c <;> simp [hx]

theorem amounts_balance {cs cs' : List Call} (h : SameAmounts cs cs') : (∀ s ∈ segments [] cs, SegBalanced s) → ∀ s ∈ segments [] cs', SegBalanced s := by
  have e1 : segments [] cs = _ := txns_segments cs none []
  have e2 : segments [] cs' = _ := txns_segments cs' none []
  rw [e1, e2]
  have := h.txns
  unfold txnsIn at this
  generalize txnsFrom none [] cs = l at this
  generalize txnsFrom none [] cs' = l' at this
  clear h e1 e2
  induction this with
  | nil => exact fun h => h
  | @cons t t' l l' hx _ ih =>
    intro hb s hs
    rw [List.map_cons] at hb hs
    rcases List.mem_cons.1 hs with rfl | hs
    · intro c
      have := hb _ List.mem_cons_self c
      rw [net_lsum] at this
      have e := net_lsum c t'.2
      rw [← lsum_booked _ hx.2] at e
      exact e.trans this
    · exact ih (fun s hs => hb s (List.mem_cons_of_mem _ hs)) s hs

theorem amounts_symm {cs cs' : List Call} (h : SameAmounts cs cs') : SameAmounts cs' cs := by
  refine ⟨?_, h.prices.symm⟩
  have := h.txns
  generalize txnsIn cs = l at this
  generalize txnsIn cs' = l' at this
  clear h
  induction this with
  | nil => exact .nil
  | cons hx _ ih => exact .cons ⟨hx.1.symm, fun a c => (hx.2 a c).symm⟩ ih

theorem filed_heads {cs : List Call} {taken ns : List (Int × Str)} (h : FiledAs taken cs ns) : ∀ cs', headers cs = headers cs' → FiledAs taken cs' ns := by
  have nil_heads : ∀ (cs' : List Call) (taken : List (Int × Str)), [] = headers cs' → FiledAs taken cs' [] := by
    intro cs'
    induction cs' with
    | nil => intro taken _; exact .nil _
    | cons c cs' ih =>
      intro taken hh
      cases c with
      | newTransaction d p n => simp [headers] at hh
      | addPosting a c v n => exact .addPosting _ _ _ _ _ _ _ (ih taken hh)
      | addPrice d u c v => exact .addPrice _ _ _ _ _ _ _ (ih taken hh)
  induction h with
  | nil => intro cs' hh; exact nil_heads cs' _ hh
  | addPosting taken a c v n cs ns _ ih => exact ih
  | addPrice taken d u c v cs ns _ ih => exact ih
  | fresh taken d p n cs ns h1 _ ih =>
    intro cs' hh
    induction cs' with
    | nil => simp [headers] at hh
    | cons c cs' ih' =>
      cases c with
      | newTransaction d' p' n' =>
        simp only [headers, List.cons.injEq, Prod.mk.injEq] at hh
        obtain ⟨⟨rfl, rfl⟩, hh⟩ := hh
        exact .fresh _ _ _ _ _ _ h1 (ih _ hh)
      | addPosting a c v n => exact .addPosting _ _ _ _ _ _ _ (ih' hh)
      | addPrice d u c v => exact .addPrice _ _ _ _ _ _ _ (ih' hh)
  | again taken d p n cs ns k h1 h2 h3 h4 _ ih =>
    intro cs' hh
    induction cs' with
    | nil => simp [headers] at hh
    | cons c cs' ih' =>
      cases c with
      | newTransaction d' p' n' =>
        simp only [headers, List.cons.injEq, Prod.mk.injEq] at hh
        obtain ⟨⟨rfl, rfl⟩, hh⟩ := hh
        exact .again _ _ _ _ _ _ k h1 h2 h3 h4 (ih _ hh)
      | addPosting a c v n => exact .addPosting _ _ _ _ _ _ _ (ih' hh)
      | addPrice d u c v => exact .addPrice _ _ _ _ _ _ _ (ih' hh)

/-! ## Loaded -/

/-- C151: the one ledger loads exactly if the other does. -/
theorem c151_loads {le le' : Env} (he : le.Ok) (he' : le'.Ok) (hl : PlainLetters le) (hl' : PlainLetters le') {fs fs' : Str → Option (List FileLine)}
    (hdisk : OnDisk le fs) (hdisk' : OnDisk le' fs') {f f' : Str} {ls ls' : List FileLine} (hf : fs f = some ls) (hf' : fs' f' = some ls')
    {cs cs' : List Call} (hsay : FileSays fs le.join f [] [] ls cs) (hsay' : FileSays fs' le'.join f' [] [] ls' cs') (hsame : SameAmounts cs cs')
    (srt srt' : List Posting → List Posting) : Loads srt le f ↔ Loads srt' le' f' := by
  rw [loads_iff he hl hdisk hf hsay, loads_iff he' hl' hdisk' hf' hsay']
  exact ⟨amounts_balance hsame, amounts_balance (amounts_symm hsame)⟩

theorem amounts_pair {le le' : Env} (he : le.Ok) (he' : le'.Ok) (hl : PlainLetters le) (hl' : PlainLetters le') {fs fs' : Str → Option (List FileLine)}
    (hdisk : OnDisk le fs) (hdisk' : OnDisk le' fs') (a : AppConf) (f' : Str) {ls ls' : List FileLine} (hf : fs a.ledger = some ls) (hf' : fs' f' = some ls')
    {cs cs' : List Call} (hsay : FileSays fs le.join a.ledger [] [] ls cs) (hsay' : FileSays fs' le'.join f' [] [] ls' cs') (hsame : SameAmounts cs cs')
    (srt srt' : List Posting → List Posting) (hs : IsSort srt) (hs' : IsSort srt') (hload : Loads srt le a.ledger) :
    ∃ n, ∀ depth depth', n ≤ depth → n ≤ depth' → ∃ bk bk', loadCmd le depth srt a = .ok bk ∧ loadCmd le' depth' srt' (a.reading f') = .ok bk' ∧ GoodPair bk bk' := by
  have hbal := (loads_iff he hl hdisk hf hsay srt).1 hload
  obtain ⟨n, hn⟩ := c96_balanced_loads he hl hdisk hf hsay hbal srt
  obtain ⟨n', hn'⟩ := c96_balanced_loads he' hl' hdisk' hf' hsay' (amounts_balance hsame hbal) srt'
  refine ⟨max n n', fun depth depth' hd1 hd2 => ?_⟩
  obtain ⟨bk, hbk⟩ := hn depth (le_trans (le_max_left _ _) hd1)
  obtain ⟨bk', hbk'⟩ := hn' depth' (le_trans (le_max_right _ _) hd2)
  obtain ⟨ds, s1, b1, _⟩ := c96_loaded_book he hl hdisk hf hbk
  obtain ⟨ds', s2, b2, _⟩ := c96_loaded_book he' hl' hdisk' hf' hbk'
  refine ⟨bk, bk', by unfold loadCmd; rw [hbk], by unfold loadCmd; rw [show (a.reading f').ledger = f' from rfl, hbk'], ?_⟩
  have q1 := readings_shuffled hsay [] ds (.refl _) s1
  have q2 := readings_shuffled hsay' [] ds' (.refl _) s2
  have hN : issued Builder.new ds' = issued Builder.new ds := by
    obtain ⟨bb, h1, _⟩ := b1
    obtain ⟨bb', h1', _⟩ := b2
    exact c02_one_filing (filedAs_aux ds' _ bb' [] seenInv_new h1')
      (shuffled_filed q2 (filed_heads (shuffled_filed (shuffled_symm q1) (filedAs_aux ds _ bb [] seenInv_new h1)) _ (amounts_heads hsame)))
  obtain ⟨-, k2, k3⟩ := q1.facts
  obtain ⟨-, j2, j3⟩ := q2.facts
  have htot : ∀ u : Weight, wsum (wt u) bk.post = wsum (wt u) bk'.post := by
    intro u
    rw [wsum_built hs b1, wsum_built hs' b2, hN]
    have e1 : esum u (entries (-1, []) (issued Builder.new ds) ds) = esum u (entries (-1, []) (issued Builder.new ds) cs) :=
      (((k3 (-1, []) _).map _).sum_eq).symm
    have e2 : esum u (entries (-1, []) (issued Builder.new ds) ds') = esum u (entries (-1, []) (issued Builder.new ds) cs') :=
      (((j3 (-1, []) _).map _).sum_eq).symm
    rw [e1, e2, amounts_totals hsame]
  have hprices : bk.prices = bk'.prices := by
    rw [built_pricesAfter b1, built_pricesAfter b2, ← k2, ← j2, hsame.prices]
  have hst : SameTotals bk bk' := ⟨b1.wf hs, b2.wf hs', hprices, htot⟩
  obtain ⟨X, hx, rfl⟩ := renamed_compact b1
  obtain ⟨Y, hy, rfl⟩ := renamed_compact b2
  exact compacted_pair hs hs' hx hy hst

/-- C151: a report shows the same of both. -/
theorem c151_report {le le' : Env} (he : le.Ok) (he' : le'.Ok) (hl : PlainLetters le) (hl' : PlainLetters le') {fs fs' : Str → Option (List FileLine)}
    (hdisk : OnDisk le fs) (hdisk' : OnDisk le' fs') (a : AppConf) (f' : Str) {ls ls' : List FileLine} (hf : fs a.ledger = some ls) (hf' : fs' f' = some ls')
    {cs cs' : List Call} (hsay : FileSays fs le.join a.ledger [] [] ls cs) (hsay' : FileSays fs' le'.join f' [] [] ls' cs') (hsame : SameAmounts cs cs')
    (e : OpEnv) (hs : IsSort e.srt) (srt' : List Posting → List Posting) (hs' : IsSort srt') (hload : Loads e.srt le a.ledger)
    (hd : a.divider ≠ []) (fuel : Nat) (r : ReportConf) (o o' : Int → Str → List Str → List Str) (ho : ∀ d py l, (o d py l).Perm l)
    (ho' : ∀ d py l, (o' d py l).Perm l) (args : List Str) :
    ∃ n, ∀ depth depth', n ≤ depth → n ≤ depth' →
      EndsLike (SameReport r) (reportCmd le depth e fuel a r o args) (reportCmd le' depth' (e.sorting srt') fuel (a.reading f') r o' args) := by
  obtain ⟨n, hn⟩ := amounts_pair he he' hl hl' hdisk hdisk' a f' hf hf' hsay hsay' hsame e.srt srt' hs hs' hload
  refine ⟨n, fun depth depth' hd1 hd2 => ?_⟩
  obtain ⟨bk, bk', l1, l2, hp⟩ := hn depth depth' hd1 hd2
  unfold reportCmd
  rw [l1, show (e.sorting srt').srt = srt' from rfl, l2]
  exact EndsLike.bind (ops_like hs hs' fuel a args hp) fun b b' hb => reportTxns_like hs hs' (a := a) hd r ho ho' hb

/-- C151: and so does a register. -/
theorem c151_register {le le' : Env} (he : le.Ok) (he' : le'.Ok) (hl : PlainLetters le) (hl' : PlainLetters le') {fs fs' : Str → Option (List FileLine)}
    (hdisk : OnDisk le fs) (hdisk' : OnDisk le' fs') (a : AppConf) (f' : Str) {ls ls' : List FileLine} (hf : fs a.ledger = some ls) (hf' : fs' f' = some ls')
    {cs cs' : List Call} (hsay : FileSays fs le.join a.ledger [] [] ls cs) (hsay' : FileSays fs' le'.join f' [] [] ls' cs') (hsame : SameAmounts cs cs')
    (e : OpEnv) (hs : IsSort e.srt) (srt' : List Posting → List Posting) (hs' : IsSort srt') (hload : Loads e.srt le a.ledger)
    (fuel : Nat) (r : RegisterConf) (args : List Str) (arg : Str) :
    ∃ n, ∀ depth depth', n ≤ depth → n ≤ depth' →
      EndsLike SameSections (registerCmd le depth e fuel a r args arg) (registerCmd le' depth' (e.sorting srt') fuel (a.reading f') r args arg) := by
  obtain ⟨n, hn⟩ := amounts_pair he he' hl hl' hdisk hdisk' a f' hf hf' hsay hsay' hsame e.srt srt' hs hs' hload
  refine ⟨n, fun depth depth' hd1 hd2 => ?_⟩
  obtain ⟨bk, bk', l1, l2, hp⟩ := hn depth depth' hd1 hd2
  unfold registerCmd
  rw [l1, show (e.sorting srt').srt = srt' from rfl, l2]
  refine EndsLike.bind (R := GoodPair) (EndsLike.bind (R := GoodPair) (convert_like (a := a) (cv := r.convert) hp) fun b b' hb => ?_) fun b b' hb =>
    registerShow_like (e := e) (e' := e.sorting srt') (a := a) (a' := a.reading f') rfl rfl rfl rfl rfl r arg hb.2.2.post (transactions_same hs hs' hb.1 hb.2.1 hb.2.2) (by rw [hb.2.2.prices])
  by_cases ha : args = []
  · rw [if_pos ha, if_pos ha]; exact hb
  · rw [if_neg ha, if_neg ha]; exact ops_like hs hs' fuel a args hb

/-! ## Ways to write the same amounts -/

theorem txns_refl (l : List (Option (Int × Str) × List (Str × Str × Rat))) :
    List.Forall₂ (fun t t' => t.1 = t'.1 ∧ ∀ a c, bookedBy t.2 a c = bookedBy t'.2 a c) l l := by
  induction l with
  | nil => exact .nil
  | cons t l ih => exact .cons ⟨rfl, fun _ _ => rfl⟩ ih

theorem txns_tail (cs : List Call) : ∀ (h : Option (Int × Str)) (l l' : List (Str × Str × Rat)), (∀ a c, bookedBy l a c = bookedBy l' a c) →
    List.Forall₂ (fun t t' => t.1 = t'.1 ∧ ∀ a c, bookedBy t.2 a c = bookedBy t'.2 a c) (txnsFrom h l cs) (txnsFrom h l' cs) := by
  induction cs with
  | nil => intro h l l' hl; exact .cons ⟨rfl, hl⟩ .nil
  | cons c cs ih =>
    intro h l l' hl
    cases c with
    | newTransaction d p n => exact .cons ⟨rfl, hl⟩ (txns_refl _)
    | addPosting a c v n =>
      refine ih h _ _ fun a' c' => ?_
      have := hl a' c'
      unfold bookedBy at this ⊢
      rw [List.filter_append, List.map_append, List.sum_append, List.filter_append, List.map_append, List.sum_append, this]
    | addPrice d u c v => exact ih h _ _ hl

theorem txns_inside (pre : List Call) {cs cs' : List Call} (hc : ∀ h l, List.Forall₂ (fun t t' => t.1 = t'.1 ∧ ∀ a c, bookedBy t.2 a c = bookedBy t'.2 a c)
    (txnsFrom h l cs) (txnsFrom h l cs')) : ∀ h l, List.Forall₂ (fun t t' => t.1 = t'.1 ∧ ∀ a c, bookedBy t.2 a c = bookedBy t'.2 a c)
    (txnsFrom h l (pre ++ cs)) (txnsFrom h l (pre ++ cs')) := by
  induction pre with
  | nil => exact hc
  | cons c pre ih =>
    intro h l
    cases c with
    | newTransaction d p n => exact .cons ⟨rfl, fun _ _ => rfl⟩ (ih _ _)
    | addPosting a c v n => exact ih _ _
    | addPrice d u c v => exact ih _ _

theorem priceLines_inside (pre : List Call) {cs cs' : List Call} (h : priceLines cs = priceLines cs') : priceLines (pre ++ cs) = priceLines (pre ++ cs') := by
  induction pre with
  | nil => exact h
  | cons c pre ih => cases c <;> simp only [List.cons_append, priceLines, ih]

/-- C151: an amount can be given in two lines, with any notes. -/
theorem c151_split (pre post : List Call) (a c : Str) (x y : Rat) (n n1 n2 : Str) :
    SameAmounts (pre ++ .addPosting a c (x + y) n :: post) (pre ++ .addPosting a c x n1 :: .addPosting a c y n2 :: post) := by
  refine ⟨txns_inside pre (fun h l => ?_) none [], priceLines_inside pre rfl⟩
  refine txns_tail post h _ _ fun a' c' => ?_
  unfold bookedBy
  by_cases hh : a = a' ∧ c = c'
  · simp [List.filter_append, hh]
  · simp [List.filter_append, hh]

/-- C151: the lines of a transaction can be given in any order. -/
theorem c151_swap (pre post : List Call) (a c a' c' : Str) (x y : Rat) (n n' : Str) :
    SameAmounts (pre ++ .addPosting a c x n :: .addPosting a' c' y n' :: post) (pre ++ .addPosting a' c' y n' :: .addPosting a c x n :: post) := by
  refine ⟨txns_inside pre (fun h l => ?_) none [], priceLines_inside pre rfl⟩
  refine txns_tail post h _ _ fun a1 c1 => ?_
  unfold bookedBy
  by_cases hh : a = a1 ∧ c = c1 <;> by_cases hh' : a' = a1 ∧ c' = c1 <;> simp [List.filter_append, List.filter_cons, hh, hh', add_comm]

/-- C151: two lines that cancel can be left out. -/
theorem c151_cancel (pre post : List Call) (a c : Str) (x : Rat) (n n' : Str) :
    SameAmounts (pre ++ .addPosting a c x n :: .addPosting a c (-x) n' :: post) (pre ++ post) := by
  refine ⟨txns_inside pre (fun h l => ?_) none [], priceLines_inside pre rfl⟩
  refine txns_tail post h _ _ fun a1 c1 => ?_
  unfold bookedBy
  by_cases hh : a = a1 ∧ c = c1 <;> simp [List.filter_append, hh]

/-! Non-vacuity: the 5 X of a transaction in three lines, around the other account. -/

def fewLines : List FileLine := partOne

def manyLines : List FileLine := [.txn (demoTxn ⟨b!"2020", b!"1", b!"2"⟩ ⟨2020, 1, 2⟩ b!"shop"),
  partPost b!"A" b!"2" false, partPost b!"B" b!"5" true, partPost b!"A" b!"4" false, partPost b!"A" b!"1" true]

def amountFiles (f : Str) : Option (List FileLine) := if f = b!"few" then some fewLines else if f = b!"many" then some manyLines else none

def amountEnv : Env := demoEnv [(b!"few", fileText fewLines), (b!"many", fileText manyLines)]

example : fileText manyLines = b!"2020/1/2 * shop ; note\n  A 2 X\n  B -5 X\n  A 4 X\n  A -1 X\n" := by decide +kernel

theorem amount_post (acct num : Str) (m : Bool) (h : (partPost acct num m).Valid) : (partPost acct num m).Valid ∧
    ∀ sp q g, partPost acct num m = .incl sp q g → (amountFiles (amountEnv.join b!"many" g)).isSome = true := ⟨h, by rintro sp q g h; cases h⟩

theorem amount_disk : OnDisk amountEnv amountFiles := by
  intro f ls hf
  unfold amountFiles at hf
  split at hf
  · rename_i h
    cases h; cases hf
    refine ⟨by decide +kernel, fun l hl => ⟨part_txn l (.inl hl), ?_⟩⟩
    rintro sp q g rfl
    simp [fewLines, partOne, partPost] at hl
  · split at hf
    · rename_i h
      cases h; cases hf
      refine ⟨by decide +kernel, fun l hl => ?_⟩
      simp only [manyLines, List.mem_cons, List.not_mem_nil, or_false] at hl
      rcases hl with rfl | rfl | rfl | rfl | rfl
      · exact ⟨part_txn _ (.inl List.mem_cons_self), by rintro sp q g h; cases h⟩
      all_goals
        refine amount_post _ _ _ ?_
        exact ⟨⟨by decide, by decide, by decide, by decide, ⟨⟨by decide, by rintro f ⟨⟩⟩, by decide, by decide⟩, ⟨_, _, rfl, by decide⟩,
          by decide, by decide, by rintro _ c r ⟨⟩; decide, by decide, by rintro n ⟨⟩⟩, by decide⟩
    · cases hf

def fewCalls : List Call := [.newTransaction 20200102 b!"shop" b!"note", .addPosting b!"A" b!"X" (2 + 3) [], .addPosting b!"B" b!"X" (-5) []]
def manyCalls : List Call := [.newTransaction 20200102 b!"shop" b!"note", .addPosting b!"A" b!"X" 2 [], .addPosting b!"B" b!"X" (-5) [],
  .addPosting b!"A" b!"X" 4 [], .addPosting b!"A" b!"X" (-1) []]

theorem few_says : FileSays amountFiles amountEnv.join b!"few" [] [] fewLines fewCalls := by
  have h1 : (2 + 3 : Rat) = 1 * (⟨false, b!"5", none⟩ : Numeral).value := by decide +kernel
  have h2 : (-5 : Rat) = -1 * (⟨false, b!"5", none⟩ : Numeral).value := by decide +kernel
  unfold fewCalls
  rw [h2, h1]
  exact .txn _ _ _ _ _ _ (.posting _ _ _ _ _ _ (.posting _ _ _ _ _ _ (.nil _ _ _)))

theorem many_says : FileSays amountFiles amountEnv.join b!"many" [] [] manyLines manyCalls := by
  have h1 : (2 : Rat) = 1 * (⟨false, b!"2", none⟩ : Numeral).value := by decide +kernel
  have h2 : (-5 : Rat) = -1 * (⟨false, b!"5", none⟩ : Numeral).value := by decide +kernel
  have h3 : (4 : Rat) = 1 * (⟨false, b!"4", none⟩ : Numeral).value := by decide +kernel
  have h4 : (-1 : Rat) = -1 * (⟨false, b!"1", none⟩ : Numeral).value := by decide +kernel
  unfold manyCalls
  rw [h4, h3, h2, h1]
  exact .txn _ _ _ _ _ _ (.posting _ _ _ _ _ _ (.posting _ _ _ _ _ _ (.posting _ _ _ _ _ _ (.posting _ _ _ _ _ _ (.nil _ _ _)))))

theorem few_many : SameAmounts fewCalls manyCalls := by
  refine ⟨.cons ⟨rfl, fun _ _ => rfl⟩ (.cons ⟨rfl, fun a c => ?_⟩ .nil), rfl⟩
  simp only [bookedBy]
  by_cases h1 : b!"A" = a ∧ b!"X" = c
  · obtain ⟨rfl, rfl⟩ := h1; decide +kernel
  · by_cases h2 : b!"B" = a ∧ b!"X" = c
    · obtain ⟨rfl, rfl⟩ := h2; decide +kernel
    · simp [List.filter_cons, h1, h2]

example (r : ReportConf) (args : List Str) (fuel : Nat) : ∃ n, ∀ depth depth', n ≤ depth → n ≤ depth' →
    EndsLike (SameReport r) (reportCmd amountEnv depth plainOps fuel (partApp b!"few") r (fun _ _ l => l) args)
      (reportCmd amountEnv depth' plainOps fuel (partApp b!"many") r (fun _ _ l => l) args) :=
  c151_report (demoEnv_ok _) (demoEnv_ok _) (demo_letters _) (demo_letters _) amount_disk amount_disk (partApp b!"few") b!"many" rfl rfl few_says many_says few_many
    plainOps insSort_isSort insSort insSort_isSort
    ((loads_iff (demoEnv_ok _) (demo_letters _) amount_disk rfl few_says _).2 (by
      intro s hs c
      simp only [segments, fewCalls, List.mem_cons, List.not_mem_nil, or_false, List.nil_append, List.cons_append] at hs
      rcases hs with rfl | rfl
      · rfl
      · unfold net
        by_cases hc : b!"X" = c
        · subst hc; decide +kernel
        · simp [hc]))
    (by decide) fuel r _ _ (fun _ _ _ => .refl _) (fun _ _ _ => .refl _) args

/-- Both show 5 on account A. -/
def amountShown (f : Str) : Option Rat :=
  match reportCmd amountEnv 5 plainOps 100 (partApp f) (partConf false) (fun _ _ l => l) [] with
  | .ok ts => some (chosenTotal (fun _ ac _ => decide (ac = b!"A")) ts.flatten)
  | _ => none

example : amountShown b!"few" = some 5 ∧ amountShown b!"many" = some 5 := by decide +kernel

end Verif
