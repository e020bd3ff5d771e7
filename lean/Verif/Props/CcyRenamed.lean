import Verif.Spec.CcyRenamed
import Verif.Props.Amounts

/-! # C152: renaming currencies with `mapccy` or in the ledger -/

namespace Verif
open Spec

theorem filed_recoined {g : Str → Str} {cs : List Call} {taken ns : List (Int × Str)} (h : FiledAs taken cs ns) : FiledAs taken (cs.map (recoined g)) ns := by
  induction h with
  | nil => exact .nil _
  | addPosting taken a c v n cs ns _ ih => exact .addPosting _ _ _ _ _ _ _ ih
  | addPrice taken d u c v cs ns _ ih => exact .addPrice _ _ _ _ _ _ _ ih
  | fresh taken d p n cs ns h1 _ ih => exact .fresh _ _ _ _ _ _ h1 ih
  | again taken d p n cs ns k h1 h2 h3 h4 _ ih => exact .again _ _ _ _ _ _ k h1 h2 h3 h4 ih

def Entry.recoined (g : Str → Str) (x : Entry) : Entry := { x with ccy := g x.ccy }

theorem entries_recoined (g : Str → Str) : ∀ (cs : List Call) (cur : Int × Str) (ns : List (Int × Str)),
    entries cur ns (cs.map (recoined g)) = (entries cur ns cs).map (Entry.recoined g) := by
  intro cs
  induction cs with
  | nil => intro cur ns; simp [entries]
  | cons c cs ih =>
    intro cur ns
    cases c with
    | addPosting a c v n => simp only [List.map_cons, recoined, entries, ih]; rfl
    | addPrice d u c v => simp only [List.map_cons, recoined, entries, ih]
    | newTransaction d p n =>
      cases ns with
      | nil => simp [recoined, entries]
      | cons n ns => simp only [List.map_cons, recoined, entries, ih]

theorem segments_recoined (g : Str → Str) : ∀ (cs : List Call) (cur : List (Str × Rat)),
    segments (cur.map fun x => (g x.1, x.2)) (cs.map (recoined g)) = (segments cur cs).map fun s => s.map fun x => (g x.1, x.2) := by
  intro cs
  induction cs with
  | nil => intro cur; rfl
  | cons c cs ih =>
    intro cur
    cases c with
    | addPosting a c v n =>
      simp only [List.map_cons, recoined, segments]
      rw [← ih]; simp
    | addPrice d u c v => simp only [List.map_cons, recoined, segments, ih]
    | newTransaction d p n =>
      simp only [List.map_cons, recoined, segments]
      rw [← ih]; rfl

theorem net_recoined (g : Str → Str) (s : List (Str × Rat)) (h : SegBalanced s) : SegBalanced (s.map fun x => (g x.1, x.2)) := by
  intro c
  have hb : ∀ a c, bookedBy (s.map fun x => (([] : Str), x.1, x.2)) a c = bookedBy [] a c := by
    intro a c
    by_cases ha : a = []
    · subst ha
      have := h c
      unfold net at this
      unfold bookedBy
      rw [List.filter_map, List.map_map]
      simpa [Function.comp_def] using this
    · have : ¬ ([] : Str) = a := fun e => ha e.symm
      unfold bookedBy
      rw [List.filter_map]
      simp [Function.comp_def, this]
  have := lsum_booked (fun _ b => if g b = c then 1 else 0) hb
  rw [show lsum (fun _ b => if g b = c then 1 else 0) [] = 0 from rfl] at this
  rw [← this]
  unfold lsum net
  clear this hb h
  induction s with
  | nil => rfl
  | cons x s ih =>
    simp only [List.map_cons, List.filter_cons, List.sum_cons] at ih ⊢
    rw [← ih]
    by_cases hx : g x.1 = c <;> simp [hx]

/-- C152: if the ledger loads, so does the one with its currencies renamed. -/
theorem c152_loads {le le' : Env} (he : le.Ok) (he' : le'.Ok) (hl : PlainLetters le) (hl' : PlainLetters le') {fs fs' : Str → Option (List FileLine)}
    (hdisk : OnDisk le fs) (hdisk' : OnDisk le' fs') {f f' : Str} {ls ls' : List FileLine} (hf : fs f = some ls) (hf' : fs' f' = some ls')
    {cs : List Call} (g : Str → Str) (hsay : FileSays fs le.join f [] [] ls cs) (hsay' : FileSays fs' le'.join f' [] [] ls' (cs.map (recoined g)))
    (srt srt' : List Posting → List Posting) (h : Loads srt le f) : Loads srt' le' f' := by
  rw [loads_iff he hl hdisk hf hsay] at h
  rw [loads_iff he' hl' hdisk' hf' hsay']
  have e : segments [] (cs.map (recoined g)) = _ := segments_recoined g cs []
  rw [e]
  intro s hs
  obtain ⟨t, ht, rfl⟩ := List.mem_map.1 hs
  exact net_recoined g t (h t ht)

/-! ## The prices -/

/-- The prices of a pair among price lines. -/
def pricesOfPair (u c : Str) (l : List (Int × Str × Str × Rat)) : List Price :=
  l.filterMap fun x => if x.2.1 = u ∧ x.2.2.1 = c then some ⟨x.1, x.2.2.2⟩ else none

theorem pricesOfPair_recorded (u c : Str) (cs : List Call) : recorded u c cs = pricesOfPair u c (priceLines cs) := by
  induction cs with
  | nil => rfl
  | cons x cs ih =>
    cases x with
    | addPrice d u' c' v =>
      simp only [recorded, priceLines, pricesOfPair, List.filterMap_cons]
      unfold pricesOfPair at ih
      split <;> simp [ih]
    | addPosting a c v n => exact ih
    | newTransaction d p n => exact ih

theorem priceLines_recoined (g : Str → Str) (cs : List Call) : priceLines (cs.map (recoined g)) = (priceLines cs).map fun x => (x.1, g x.2.1, g x.2.2.1, x.2.2.2) := by
  induction cs with
  | nil => rfl
  | cons c cs ih => cases c <;> simp only [List.map_cons, recoined, priceLines, ih]

theorem pricesOfPair_ne {u c : Str} {l : List (Int × Str × Str × Rat)} : pricesOfPair u c l ≠ [] ↔ ∃ x ∈ l, x.2.1 = u ∧ x.2.2.1 = c := by
  unfold pricesOfPair
  rw [ne_eq, List.filterMap_eq_nil_iff]
  simp

theorem pricesOfPair_recoined {g : Str → Str} {u c : Str} {l : List (Int × Str × Str × Rat)}
    (hinj : ∀ x ∈ l, g x.2.1 = g u → g x.2.2.1 = g c → x.2.1 = u ∧ x.2.2.1 = c) :
    pricesOfPair (g u) (g c) (l.map fun x => (x.1, g x.2.1, g x.2.2.1, x.2.2.2)) = pricesOfPair u c l := by
  unfold pricesOfPair
  rw [List.filterMap_map]
  refine List.filterMap_congr fun x hx => ?_
  simp only [Function.comp_apply]
  by_cases h : x.2.1 = u ∧ x.2.2.1 = c
  · rw [if_pos h, if_pos ⟨by rw [h.1], by rw [h.2]⟩]
  · rw [if_neg h, if_neg fun hh => h (hinj x hx hh.1 hh.2)]

theorem recoined_prices {g : Str → Str} {srt srt'} {ds ds' cs : List Call} {b b' : Book} (hb : Built srt ds b) (hb' : Built srt' ds' b')
    (h1 : priceLines ds = priceLines cs) (h2 : priceLines ds' = priceLines (cs.map (recoined g))) (hc : ClearRename g b.prices) (u c : Str) (pl : PriceList) :
    b'.prices.find (u, c) = some pl ↔ ∃ u0 c0, b.prices.find (u0, c0) = some pl ∧ g u0 = u ∧ g c0 = c := by
  obtain ⟨bb, k1, k2⟩ := hb
  obtain ⟨bb', j1, j2⟩ := hb'
  have f1 : ∀ u c, b.prices.find (u, c) = if pricesOfPair u c (priceLines cs) = [] then none else some (sortPrices (pricesOfPair u c (priceLines cs))) := by
    intro u c; rw [built_prices k1 k2, pricesOfPair_recorded, h1]
  have f2 : ∀ u c, b'.prices.find (u, c) = if pricesOfPair u c (priceLines (cs.map (recoined g))) = [] then none
      else some (sortPrices (pricesOfPair u c (priceLines (cs.map (recoined g))))) := by
    intro u c; rw [built_prices j1 j2, pricesOfPair_recorded, h2]
  have hmem : ∀ x ∈ priceLines cs, ∃ pl, b.prices.find (x.2.1, x.2.2.1) = some pl := by
    intro x hx
    rw [f1, if_neg (pricesOfPair_ne.2 ⟨x, hx, rfl, rfl⟩)]
    exact ⟨_, rfl⟩
  have hinj : ∀ u0 c0, pricesOfPair u0 c0 (priceLines cs) ≠ [] → ∀ x ∈ priceLines cs, g x.2.1 = g u0 → g x.2.2.1 = g c0 → x.2.1 = u0 ∧ x.2.2.1 = c0 := by
    intro u0 c0 h x hx e1 e2
    obtain ⟨y, hy, rfl, rfl⟩ := pricesOfPair_ne.1 h
    obtain ⟨p1, q1⟩ := hmem x hx
    obtain ⟨p2, q2⟩ := hmem y hy
    exact hc.inj _ _ _ _ _ _ q1 q2 e1 e2
  rw [f2, priceLines_recoined]
  constructor
  · intro h
    split at h
    · cases h
    · rename_i hne
      obtain ⟨y, hy, e1, e2⟩ := pricesOfPair_ne.1 hne
      obtain ⟨x, hx, rfl⟩ := List.mem_map.1 hy
      subst e1 e2
      have hne0 : pricesOfPair x.2.1 x.2.2.1 (priceLines cs) ≠ [] := pricesOfPair_ne.2 ⟨x, hx, rfl, rfl⟩
      refine ⟨x.2.1, x.2.2.1, ?_, rfl, rfl⟩
      rw [f1, if_neg hne0, ← h, pricesOfPair_recoined (hinj _ _ hne0)]
  · rintro ⟨u0, c0, h, rfl, rfl⟩
    rw [f1] at h
    split at h
    · cases h
    · rename_i hne
      rw [pricesOfPair_recoined (hinj _ _ hne), if_neg hne, h]

/-! ## The report -/

theorem shown_ends {rc : ReportConf} {x y : CmdEnd (List Txn)} (h : EndsLike (fun _ _ => False) x y) : SameShown rc x y := by
  cases x <;> cases y <;> simp only [EndsLike] at h <;> exact ⟨fun ts ts' h1 => (by cases h1), fun _ => trivial⟩

/-- **C152**: a report whose operations begin with `mapccy` shows what the report without it shows of the ledger in which the currencies are renamed
accordingly, in the amounts and in the prices; provided the renamings of currencies are clear for the prices (C125). -/
theorem c152_report {le le' : Env} (he : le.Ok) (he' : le'.Ok) (hl : PlainLetters le) (hl' : PlainLetters le') {fs fs' : Str → Option (List FileLine)}
    (hdisk : OnDisk le fs) (hdisk' : OnDisk le' fs') (a : AppConf) (f' : Str) {ls ls' : List FileLine} (hf : fs a.ledger = some ls) (hf' : fs' f' = some ls')
    {cs : List Call} (e : OpEnv) {s r : Str} (hsay : FileSays fs le.join a.ledger [] [] ls cs)
    (hsay' : FileSays fs' le'.join f' [] [] ls' (cs.map (recoined (mapccyRule e s r)))) (hok : e.Ok)
    (hv : e.valid s = true) (op : Str) (hm : a.macros op = none) (hop : parsePrim e op = some (.mapccy s r)) (rest flat : List Str)
    (hx : Expansion a.macros rest flat) (depth : Nat) (b : Book) (h0 : loadCmd le depth e.srt a = .ok b) (hc : ClearOps e (op :: flat) b.prices)
    (hd : a.divider ≠ []) (rc : ReportConf) (o o' : Int → Str → List Str → List Str) (ho : ∀ d py l, (o d py l).Perm l)
    (ho' : ∀ d py l, (o' d py l).Perm l) :
    ∃ n, ∀ depth' fuel, n ≤ depth' → n ≤ fuel →
      SameShown rc (reportCmd le depth e fuel a rc o (op :: rest)) (reportCmd le' depth' e fuel (a.reading f') rc o' rest) := by
  have hs := hok.1
  have hb := loadCmd_book h0
  have hload : Loads e.srt le a.ledger := ⟨depth, b, hb⟩
  have hbal := (loads_iff he' hl' hdisk' hf' hsay' e.srt).1 (c152_loads he he' hl hl' hdisk hdisk' hf hf' _ hsay hsay' e.srt e.srt hload)
  obtain ⟨n1, hn1⟩ := c96_balanced_loads he' hl' hdisk' hf' hsay' hbal e.srt
  obtain ⟨n2, hn2⟩ := near_ops (e := e) hok (walk' := e.walk) hok hx
  refine ⟨max n1 (n2 + 1), fun depth' fuel hd' hfuel => ?_⟩
  obtain ⟨b', hb'⟩ := hn1 depth' (le_trans (le_max_left _ _) hd')
  have hfuel2 : n2 ≤ fuel := le_trans (Nat.le_succ _) (le_trans (le_max_right _ _) hfuel)
  obtain ⟨k, rfl⟩ : ∃ k, fuel = k + 1 := ⟨fuel - 1, by have := le_trans (le_max_right n1 (n2 + 1)) hfuel; omega⟩
  obtain ⟨ds, s1, b1, _⟩ := c96_loaded_book he hl hdisk hf hb
  obtain ⟨ds', s2, b2, _⟩ := c96_loaded_book he' hl' hdisk' hf' hb'
  have q1 := readings_shuffled hsay [] ds (.refl _) s1
  have q2 := readings_shuffled hsay' [] ds' (.refl _) s2
  obtain ⟨-, k2, k3⟩ := q1.facts
  obtain ⟨-, j2, j3⟩ := q2.facts
  have hN : issued Builder.new ds' = issued Builder.new ds := by
    obtain ⟨bb, h1, _⟩ := b1
    obtain ⟨bb', h1', _⟩ := b2
    exact c02_one_filing (filedAs_aux ds' _ bb' [] seenInv_new h1')
      (shuffled_filed q2 (filed_recoined (shuffled_filed (shuffled_symm q1) (filedAs_aux ds _ bb [] seenInv_new h1))))
  unfold ClearOps at hc
  rw [hop] at hc
  obtain ⟨hc1, hc2⟩ := hc
  obtain ⟨c, hcc⟩ : ∃ c, (Prim.mapccy s r).apply e b = some c := ⟨_, by simp only [Prim.apply]; rw [if_pos hv]⟩
  have hcp : c.prices = e.walk (e.mat s) (e.rep s r) b.prices := prim_prices hcc
  have htot : ∀ u : Weight, wsum (wt u) c.post = wsum (wt u) b'.post := by
    intro u
    rw [prim_pull hs (b1.wf hs).1 hcc, wsum_built hs b1, wsum_built hs b2, hN]
    have e1 : ∀ u : Weight, esum u (entries (-1, []) (issued Builder.new ds) ds) = esum u (entries (-1, []) (issued Builder.new ds) cs) :=
      fun u => (((k3 (-1, []) _).map _).sum_eq).symm
    have e2 : esum u (entries (-1, []) (issued Builder.new ds) ds') =
        esum u (entries (-1, []) (issued Builder.new ds) (cs.map (recoined (mapccyRule e s r)))) := (((j3 (-1, []) _).map _).sum_eq).symm
    rw [e1, e2, entries_recoined]
    unfold esum
    rw [List.map_map]
    rfl
  have hst : SameTotals c { b' with prices := c.prices } := ⟨good_prim hs (b1.wf hs) hcc, good_prices (b2.wf hs) _, rfl, htot⟩
  have hnear : NearBook { b' with prices := c.prices } b' := by
    refine ⟨rfl, rfl, fun ⟨u, cc⟩ => Option.ext fun pl => ?_⟩
    show c.prices.find (u, cc) = some pl ↔ _
    rw [recoined_prices (g := mapccyRule e s r) b1 b2 k2.symm j2.symm hc1, hcp]
    exact c33_rename_partial (e.mat s) (e.rep s r) b.prices _ hc1.inj hc1.once (hok.2 _ _ _) u cc pl
  have hrest := ops_totals hs (k + 1) a rest hst
  have hrest' := hn2 (k + 1) (k + 1) hfuel2 hfuel2 _ b' hnear (by show ClearOps e flat c.prices; rw [hcp]; exact hc2)
  have lb' : loadCmd le' depth' e.srt (a.reading f') = .ok b' := by unfold loadCmd; rw [show (a.reading f').ledger = f' from rfl, hb']
  unfold reportCmd
  rw [h0, lb', show op :: rest = [op] ++ rest from rfl]
  show SameShown rc ((opsCmd e (k + 1) a ([op] ++ rest) b).bind _) ((opsCmd e (k + 1) a rest b').bind _)
  rw [opsCmd_append, opsCmd_one hm hop, hcc]
  show SameShown rc ((opsCmd e (k + 1) a rest c).bind _) ((opsCmd e (k + 1) a rest b').bind _)
  have hrest'' : EndsLike NearBook (opsCmd e (k + 1) a rest { b' with prices := c.prices }) (opsCmd e (k + 1) a rest b') := hrest'
  cases h1 : opsCmd e (k + 1) a rest c <;> rw [h1] at hrest <;> cases h2 : opsCmd e (k + 1) a rest { b' with prices := c.prices } <;> rw [h2] at hrest hrest'' <;>
    cases h3 : opsCmd e (k + 1) a rest b' <;> rw [h3] at hrest'' <;> simp only [EndsLike] at hrest hrest'' <;> try trivial
  case ok.ok.ok x y z =>
    show SameShown rc (reportTxns e a rc o x) (reportTxns e a rc o' z)
    rw [show reportTxns e a rc o' z = _ from (near_report (e := e) (walk' := e.walk) a rc o' hrest'').symm]
    exact report_totals hs hd rc ho ho' hrest
  all_goals exact shown_ends (by trivial)

/-! Non-vacuity: `report mapccy=/X/Z/` of a ledger in X, and `report` of the ledger in Z. -/

def coinPrice (u num : Str) (frac : Option Str) : PriceLine :=
  { sp0 := [32], day := ⟨b!"2020", b!"01", b!"02"⟩, date := ⟨2020, 1, 2⟩, sp1 := [32], hour := b!"00", minute := b!"00", second := b!"00",
    sp2 := [32], unitQuoted := false, unit := u, sp3 := [32], ccyFirst := false, quoted := false, ccy := b!"Y", sp4 := [32], num := ⟨false, num, frac⟩ }

def coinPost (acct : Str) (minus : Bool) (c : Str) : FileLine := .posting {
  sp0 := [32, 32], acct, sp1 := [32], minus, ccyFirst := false, quoted := false, ccy := c, sp2 := [32],
  num := ⟨false, b!"5", none⟩, note := none, sp3 := [], sp4 := [] }

def coinLines (c : Str) : List FileLine := [.price (coinPrice c b!"1" (some b!"5")), .price (coinPrice b!"W" b!"3" none),
  .txn (demoTxn ⟨b!"2020", b!"1", b!"2"⟩ ⟨2020, 1, 2⟩ b!"shop"), coinPost b!"A" false c, coinPost b!"B" true c]

def coinFiles (f : Str) : Option (List FileLine) := if f = b!"x" then some (coinLines b!"X") else if f = b!"z" then some (coinLines b!"Z") else none

def coinEnv : Env := demoEnv [(b!"x", fileText (coinLines b!"X")), (b!"z", fileText (coinLines b!"Z"))]

example : fileText (coinLines b!"Z") =
    b!"P 2020/01/02 00:00:00 Z 1.5 Y\nP 2020/01/02 00:00:00 W 3 Y\n2020/1/2 * shop ; note\n  A 5 Z\n  B -5 Z\n" := by decide +kernel

theorem coin_lines {c : Str} (hc : c = b!"X" ∨ c = b!"Z") (l : FileLine) (hl : l ∈ coinLines c) : l.Valid ∧ ∀ sp q g, l ≠ .incl sp q g := by
  have hp : ∀ u num frac, (u = b!"X" ∨ u = b!"Z" ∨ u = b!"W") → (num = b!"1" ∧ frac = some b!"5" ∨ num = b!"3" ∧ frac = none) → (FileLine.price (coinPrice u num frac)).Valid := by
    rintro u num frac (rfl | rfl | rfl) (⟨rfl, rfl⟩ | ⟨rfl, rfl⟩) <;>
    exact ⟨⟨by decide, by decide, by decide⟩, by decide, by decide, by decide, by decide, by decide, by decide,
          ⟨⟨by decide, by (first | (rintro f ⟨⟩; done) | (rintro f ⟨⟩; decide))⟩, by decide, by decide⟩, ⟨_, _, rfl, by decide⟩, by decide, by decide, by decide⟩
  simp only [coinLines, List.mem_cons, List.not_mem_nil, or_false] at hl
  rcases hl with rfl | rfl | rfl | rfl | rfl
  · refine ⟨hp _ _ _ (by rcases hc with rfl | rfl <;> simp) (.inl ⟨rfl, rfl⟩), by rintro sp q g h; cases h⟩
  · refine ⟨hp _ _ _ (by simp) (.inr ⟨rfl, rfl⟩), by rintro sp q g h; cases h⟩
  · exact ⟨part_txn _ (.inl List.mem_cons_self), by rintro sp q g h; cases h⟩
  all_goals
    refine ⟨?_, by rintro sp q g h; cases h⟩
    rcases hc with rfl | rfl <;>
    exact ⟨⟨by decide, by decide, by decide, by decide, ⟨⟨by decide, by rintro f ⟨⟩⟩, by decide, by decide⟩, ⟨_, _, rfl, by decide⟩,
      by decide, by decide, by rintro _ c r ⟨⟩; decide, by decide, by rintro n ⟨⟩⟩, by decide⟩

theorem coin_disk : OnDisk coinEnv coinFiles := by
  intro f ls hf
  unfold coinFiles at hf
  split at hf
  · rename_i h
    cases h; cases hf
    exact ⟨by decide +kernel, fun l hl => ⟨(coin_lines (.inl rfl) l hl).1, fun sp q g h => absurd h ((coin_lines (.inl rfl) l hl).2 sp q g)⟩⟩
  · split at hf
    · rename_i h
      cases h; cases hf
      exact ⟨by decide +kernel, fun l hl => ⟨(coin_lines (.inr rfl) l hl).1, fun sp q g h => absurd h ((coin_lines (.inr rfl) l hl).2 sp q g)⟩⟩
    · cases hf

def coinCalls (c : Str) : List Call := [.addPrice 20200102 c b!"Y" (3 / 2), .addPrice 20200102 b!"W" b!"Y" 3, .newTransaction 20200102 b!"shop" b!"note",
  .addPosting b!"A" c 5 [], .addPosting b!"B" c (-5) []]

theorem coin_says (fn c : Str) : FileSays coinFiles coinEnv.join fn [] [] (coinLines c) (coinCalls c) := by
  have h0 : (3 / 2 : Rat) = (⟨false, b!"1", some b!"5"⟩ : Numeral).value := by decide +kernel
  have h1 : (5 : Rat) = 1 * (⟨false, b!"5", none⟩ : Numeral).value := by decide +kernel
  have h2 : (-5 : Rat) = -1 * (⟨false, b!"5", none⟩ : Numeral).value := by decide +kernel
  have h3 : (3 : Rat) = (⟨false, b!"3", none⟩ : Numeral).value := by decide +kernel
  have k : (coinCalls c) = [.addPrice 20200102 c b!"Y" (⟨false, b!"1", some b!"5"⟩ : Numeral).value, .addPrice 20200102 b!"W" b!"Y" (⟨false, b!"3", none⟩ : Numeral).value,
    .newTransaction 20200102 b!"shop" b!"note", .addPosting b!"A" c (1 * (⟨false, b!"5", none⟩ : Numeral).value) [],
    .addPosting b!"B" c (-1 * (⟨false, b!"5", none⟩ : Numeral).value) []] := by
    rw [← h0, ← h1, ← h2, ← h3]; rfl
  rw [k]
  exact .price _ _ _ _ _ _ (.price _ _ _ _ _ _ (.txn _ _ _ _ _ _ (.posting _ _ _ _ _ _ (.posting _ _ _ _ _ _ (.nil _ _ _)))))

theorem coin_renamed : (coinCalls b!"X").map (recoined (mapccyRule againOps b!"X" b!"Z")) = coinCalls b!"Z" := by decide +kernel

theorem coin_clear : ∃ b0, loadCmd coinEnv 5 insSort (partApp b!"x") = .ok b0 ∧ ClearOps againOps [b!"mapccy=/X/Z/"] b0.prices := by
  have hl : (match loadCmd coinEnv 5 insSort (partApp b!"x") with
      | .ok b0 => decide (b0.prices = [((b!"X", b!"Y"), [⟨20200102, 3 / 2⟩]), ((b!"W", b!"Y"), [⟨20200102, 3⟩])])
      | _ => false) = true := by decide +kernel
  obtain ⟨b1, hb1, hc⟩ := again_clear
  have hl' : (match loadCmd againEnv 5 insSort (partApp b!"main") with
      | .ok b0 => decide (b0.prices = [((b!"X", b!"Y"), [⟨20200102, 3 / 2⟩]), ((b!"W", b!"Y"), [⟨20200102, 3⟩])])
      | _ => false) = true := by decide +kernel
  rw [hb1] at hl'
  simp only [decide_eq_true_eq] at hl'
  split at hl <;> try cases hl
  rename_i b0 hb0
  rw [decide_eq_true_eq] at hl
  exact ⟨b0, hb0, by rw [hl, ← hl']; exact hc⟩

example (rc : ReportConf) : ∃ n, ∀ depth' fuel, n ≤ depth' → n ≤ fuel →
    SameShown rc (reportCmd coinEnv 5 againOps fuel (partApp b!"x") rc (fun _ _ l => l) [b!"mapccy=/X/Z/"])
      (reportCmd coinEnv depth' againOps fuel (partApp b!"z") rc (fun _ _ l => l.reverse) []) := by
  obtain ⟨b0, hb0, hc⟩ := coin_clear
  exact c152_report (demoEnv_ok _) (demoEnv_ok _) (demo_letters _) (demo_letters _) coin_disk coin_disk (partApp b!"x") b!"z" rfl rfl againOps
    (coin_says _ _) (by rw [coin_renamed]; exact coin_says _ _) againOps_ok rfl b!"mapccy=/X/Z/" rfl
    (by rw [c61_syntax]; exact .mapccy b!"X" b!"Z" (by unfold Part; decide) (by unfold Part; decide)) [] [] .nil 5 b0 hb0 hc (by decide) rc _ _
    (fun _ _ _ => .refl _) (fun _ _ l => l.reverse_perm)

/-- Both show 7.5 Y on account A. -/
def coinShown (f : Str) (args : List Str) : Option Rat :=
  match reportCmd coinEnv 5 againOps 100 (partApp f) (partConf false) (fun _ _ l => l) args with
  | .ok ts => some (chosenTotal (fun _ ac _ => decide (ac = b!"A")) ts.flatten)
  | _ => none

example : coinShown b!"x" [b!"mapccy=/X/Z/"] = some (15 / 2) ∧ coinShown b!"z" [] = some (15 / 2) := by decide +kernel

end Verif
