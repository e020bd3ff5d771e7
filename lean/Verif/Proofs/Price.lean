import Verif.Model.Ops
import Verif.Spec.Price
import Verif.Proofs.Date
import Mathlib.Tactic.Ring
import Mathlib.Tactic.Linarith
import Mathlib.Data.List.Perm.Basic
import Mathlib.Data.List.Sort

/-! Lemmas on price lookup. -/

namespace Verif
open Spec

/-! ### Sorting -/

theorem insertPrice_perm (q : Price) (l : PriceList) : (insertPrice q l).Perm (q :: l) := by
  induction l with
  | nil => exact List.Perm.refl _
  | cons r l ih =>
    unfold insertPrice
    split
    · exact List.Perm.refl _
    · exact (ih.cons r).trans (List.Perm.swap q r l)

theorem insertPrice_sorted (q : Price) (l : PriceList) (h : l.Pairwise (fun a b => a.date ≤ b.date)) :
    (insertPrice q l).Pairwise (fun a b => a.date ≤ b.date) := by
  induction l with
  | nil => simp [insertPrice]
  | cons r l ih =>
    obtain ⟨h1, h2⟩ := List.pairwise_cons.1 h
    unfold insertPrice
    split
    · rename_i hq
      refine List.pairwise_cons.2 ⟨?_, h⟩
      intro x hx
      rcases List.mem_cons.1 hx with e | e
      · rw [e]; omega
      · have := h1 x e; omega
    · rename_i hq
      refine List.pairwise_cons.2 ⟨?_, ih h2⟩
      intro x hx
      rcases List.mem_cons.1 ((insertPrice_perm q l).mem_iff.1 hx) with e | e
      · rw [e]; omega
      · exact h1 x e

theorem sortPrices_spec (l : PriceList) :
    (sortPrices l).Perm l ∧ (sortPrices l).Pairwise (fun a b => a.date ≤ b.date) := by
  have : ∀ (l acc : PriceList), acc.Pairwise (fun a b => a.date ≤ b.date) →
      (l.foldl (fun acc q => insertPrice q acc) acc).Perm (l ++ acc) ∧
      (l.foldl (fun acc q => insertPrice q acc) acc).Pairwise (fun a b => a.date ≤ b.date) := by
    intro l
    induction l with
    | nil => intro acc h; exact ⟨List.Perm.refl _, h⟩
    | cons q l ih =>
      intro acc h
      obtain ⟨h1, h2⟩ := ih (insertPrice q acc) (insertPrice_sorted q acc h)
      refine ⟨h1.trans ?_, h2⟩
      exact ((insertPrice_perm q acc).append_left l).trans List.perm_middle
  obtain ⟨h1, h2⟩ := this l [] List.Pairwise.nil
  exact ⟨by simpa [sortPrices] using h1, h2⟩

theorem sortPrices_perm_eq {l m : PriceList} (h : l.Perm m) (hd : (l.map (·.date)).Nodup) :
    sortPrices l = sortPrices m := by
  obtain ⟨p1, s1⟩ := sortPrices_spec l
  obtain ⟨p2, s2⟩ := sortPrices_spec m
  refine List.Perm.eq_of_pairwise (le := fun a b => a.date ≤ b.date) ?_ s1 s2 (p1.trans (h.trans p2.symm))
  intro a b ha hb h1 h2
  have ha' := p1.mem_iff.1 ha
  have hb' := h.mem_iff.2 (p2.mem_iff.1 hb)
  exact List.inj_on_of_nodup_map hd ha' hb' (by omega)

/-! ### The binary search -/

/-- Outcome of the search on a list sorted by date. -/
theorem searchLoop_spec (p : PriceList) (date : Int) (hs : p.Pairwise (fun a b => a.date ≤ b.date))
    (hlast : ∀ q, p.getLast? = some q → date ≤ q.date) :
    ∀ (f lo hi : Nat), hi ≤ p.length → lo < hi → hi - lo < f →
      (∀ q, p[lo]? = some q → q.date ≤ date) →
      (∀ q, p[hi]? = some q → date < q.date) →
      (∃ i q, searchLoop p date f lo hi = .found i ∧ p[i]? = some q ∧ q.date = date) ∨
      (∃ i q r, searchLoop p date f lo hi = .stop i ∧ p[i]? = some q ∧ p[i + 1]? = some r ∧ q.date < date ∧ date < r.date) := by
  intro f
  induction f with
  | zero => intro lo hi _ _ h; omega
  | succ f ih =>
    intro lo hi hlen hlt hfuel hlo hhi
    have hm : (lo + hi) / 2 < p.length := by omega
    have hget : p[(lo + hi) / 2]? = some p[(lo + hi) / 2] := List.getElem?_eq_getElem hm
    simp only [searchLoop, if_pos hlt, hget]
    by_cases h1 : date > (p[(lo + hi) / 2]).date
    · rw [if_pos h1]
      by_cases h2 : (lo + hi) / 2 = lo
      · rw [if_pos h2]
        right
        have hhi' : hi = lo + 1 := by omega
        refine ⟨lo, p[(lo + hi) / 2], ?_⟩
        have hlen' : hi < p.length := by
          by_contra hc
          have hpl : hi = p.length := by omega
          have hl : p.getLast? = some p[(lo + hi) / 2] := by
            rw [List.getLast?_eq_getElem?, ← hget]
            congr 1; omega
          have := hlast _ hl
          omega
        refine ⟨p[hi], rfl, by rw [← hget, h2], by rw [← hhi']; exact List.getElem?_eq_getElem hlen', h1, ?_⟩
        exact hhi _ (List.getElem?_eq_getElem hlen')
      · rw [if_neg h2]
        apply ih _ _ hlen (by omega) (by omega) _ hhi
        intro q hq
        rw [hget] at hq; cases hq; omega
    · rw [if_neg h1]
      by_cases h3 : date < (p[(lo + hi) / 2]).date
      · rw [if_pos h3]
        have hne : (lo + hi) / 2 ≠ lo := by
          intro e
          have := hlo _ (by rw [← e]; exact hget)
          omega
        apply ih _ _ (by omega) (by omega) (by omega) hlo
        intro q hq
        rw [hget] at hq; cases hq; exact h3
      · rw [if_neg h3]
        left
        exact ⟨_, _, rfl, hget, by omega⟩

theorem sorted_get {p : PriceList} (hs : p.Pairwise (fun a b => a.date ≤ b.date)) {i j : Nat} {q r : Price}
    (hi : p[i]? = some q) (hj : p[j]? = some r) (hij : i ≤ j) : q.date ≤ r.date := by
  obtain ⟨h1, e1⟩ := List.getElem?_eq_some_iff.1 hi
  obtain ⟨h2, e2⟩ := List.getElem?_eq_some_iff.1 hj
  rcases Nat.lt_or_eq_of_le hij with h | h
  · have := (List.pairwise_iff_getElem.1 hs) i j h1 h2 h
    rw [e1, e2] at this; exact this
  · subst h; rw [← e1, ← e2]

/-- What the lookup returns on a sorted non-empty list. -/
theorem getPrice_cases (p : PriceList) (date : Int) (hs : p.Pairwise (fun a b => a.date ≤ b.date)) (hne : p ≠ []) :
    (∃ q : Price, p.head? = some q ∧ date < q.date ∧ PriceList.getPrice p date = some (q.val, .outOfRange)) ∨
    (∃ q : Price, p.getLast? = some q ∧ q.date < date ∧ PriceList.getPrice p date = some (q.val, .outOfRange)) ∨
    (∃ (i : Nat) (q : Price), p[i]? = some q ∧ q.date = date ∧ PriceList.getPrice p date = some (q.val, .exact)) ∨
    (∃ (i : Nat) (q r : Price), p[i]? = some q ∧ p[i + 1]? = some r ∧ q.date < date ∧ date < r.date ∧
      PriceList.getPrice p date = interpolate q r date) := by
  obtain ⟨first, hf⟩ : ∃ q, p.head? = some q := by
    cases p with
    | nil => exact absurd rfl hne
    | cons q p => exact ⟨q, rfl⟩
  obtain ⟨last, hl⟩ : ∃ q, p.getLast? = some q := ⟨p.getLast hne, List.getLast?_eq_some_getLast hne⟩
  unfold PriceList.getPrice
  rw [hf, hl]
  simp only
  by_cases h1 : date < first.date
  · left; exact ⟨first, rfl, h1, by rw [if_pos h1]⟩
  right
  rw [if_neg h1]
  by_cases h2 : date > last.date
  · left; exact ⟨last, rfl, h2, by rw [if_pos h2]⟩
  right
  rw [if_neg h2]
  have hlen : 0 < p.length := List.length_pos_iff.2 hne
  have h0 : p[0]? = some first := by rw [← hf, List.head?_eq_getElem?]
  rcases searchLoop_spec p date hs (fun q hq => by rw [hl] at hq; cases hq; omega) (p.length + 1) 0 p.length
      (Nat.le_refl _) hlen (by omega) (fun q hq => by rw [h0] at hq; cases hq; omega)
      (fun q hq => by simp at hq) with ⟨i, q, e1, e2, e3⟩ | ⟨i, q, r, e1, e2, e3, e4, e5⟩
  · left; exact ⟨i, q, e2, e3, by rw [e1]; simp only [e2]; rfl⟩
  · right; exact ⟨i, q, r, e2, e3, e4, e5, by rw [e1]; simp only [e2, e3]⟩

theorem interpolate_some {lo hi : Price} {date : Int} {r : Rat × PriceType} (h : interpolate lo hi date = some r) :
    ∃ a n, daysSince date lo.date = some a ∧ daysSince hi.date lo.date = some n ∧ n ≠ 0 ∧
      r = (lo.val + (hi.val - lo.val) * ((a : Rat) / (n : Rat)), .inferred) := by
  unfold interpolate at h
  cases h1 : daysSince date lo.date with
  | none => rw [h1] at h; cases h
  | some a =>
    cases h2 : daysSince hi.date lo.date with
    | none => rw [h1, h2] at h; cases h
    | some n =>
      rw [h1, h2] at h
      simp only [newRat] at h
      split_ifs at h with hn
      · simp only [Option.some.injEq] at h
        refine ⟨a, n, rfl, rfl, hn, ?_⟩
        rw [← h, add_comm]

/-- The lookup gives a documented answer. -/
theorem getPrice_answer (p : PriceList) (date : Int) (hs : p.Pairwise (fun a b => a.date ≤ b.date)) (hne : p ≠ [])
    {r : Rat × PriceType} (h : PriceList.getPrice p date = some r) : Answer p date r := by
  rcases getPrice_cases p date hs hne with ⟨q, e1, e2, e3⟩ | ⟨q, e1, e2, e3⟩ | ⟨i, q, e1, e2, e3⟩ | ⟨i, q, q', e1, e2, e3, e4, e5⟩
  · rw [e3] at h; cases h
    have h0 : p[0]? = some q := by rw [← e1, List.head?_eq_getElem?]
    refine .before q (List.mem_of_getElem? h0) ?_ e2
    intro q' hq'
    obtain ⟨j, hj⟩ := List.getElem?_of_mem hq'
    exact sorted_get hs h0 hj (by omega)
  · rw [e3] at h; cases h
    rw [List.getLast?_eq_getElem?] at e1
    refine .after q (List.mem_of_getElem? e1) ?_ e2
    intro q' hq'
    obtain ⟨j, hj⟩ := List.getElem?_of_mem hq'
    obtain ⟨hj', _⟩ := List.getElem?_eq_some_iff.1 hj
    exact sorted_get hs hj e1 (by omega)
  · rw [e3] at h; cases h
    exact .exact q (List.mem_of_getElem? e1) e2
  · rw [e5] at h
    obtain ⟨a, n, f1, f2, f3, f4⟩ := interpolate_some h
    rw [f4]
    have hb : ∀ x ∈ p, x.date ≤ q.date ∨ q'.date ≤ x.date := by
      intro x hx
      obtain ⟨j, hj⟩ := List.getElem?_of_mem hx
      rcases Nat.lt_or_ge i j with hij | hij
      · exact Or.inr (sorted_get hs e2 hj (by omega))
      · exact Or.inl (sorted_get hs hj e1 hij)
    refine .between q q' a n ?_ (List.mem_of_getElem? e1) (List.mem_of_getElem? e2) e3 e4 hb f1 f2 f3
    intro x hx e
    rcases hb x hx with h | h <;> omega

theorem Answer.perm {l m : List Price} (h : l.Perm m) {date : Int} {r : Rat × PriceType} (ha : Answer l date r) : Answer m date r := by
  cases ha with
  | before q h1 h2 h3 => exact .before q (h.mem_iff.1 h1) (fun x hx => h2 x (h.mem_iff.2 hx)) h3
  | after q h1 h2 h3 => exact .after q (h.mem_iff.1 h1) (fun x hx => h2 x (h.mem_iff.2 hx)) h3
  | exact q h1 h2 => exact .exact q (h.mem_iff.1 h1) h2
  | between lo hi a n h1 h2 h3 h4 h5 h6 h7 h8 h9 =>
    exact .between lo hi a n (fun x hx => h1 x (h.mem_iff.2 hx)) (h.mem_iff.1 h2) (h.mem_iff.1 h3) h4 h5
      (fun x hx => h6 x (h.mem_iff.2 hx)) h7 h8 h9

/-- With real dates the lookup never panics. -/
theorem getPrice_total (p : PriceList) (t : YMD) (ht : t.Valid) (hs : p.Pairwise (fun a b => a.date ≤ b.date)) (hne : p ≠ [])
    (hv : ∀ q ∈ p, IsDate q.date) : ∃ r, PriceList.getPrice p t.code = some r := by
  rcases getPrice_cases p t.code hs hne with ⟨q, e1, e2, e3⟩ | ⟨q, e1, e2, e3⟩ | ⟨i, q, e1, e2, e3⟩ | ⟨i, q, q', e1, e2, e3, e4, e5⟩
  · exact ⟨_, e3⟩
  · exact ⟨_, e3⟩
  · exact ⟨_, e3⟩
  · obtain ⟨u, hu, eu⟩ := hv q (List.mem_of_getElem? e1)
    obtain ⟨v, hv', ev⟩ := hv q' (List.mem_of_getElem? e2)
    rw [e5]
    unfold interpolate daysSince
    rw [eu, ev, asDays_code ht, asDays_code hu, asDays_code hv']
    simp only [newRat]
    have := dayNum_strictMono hu hv' (by omega)
    rw [if_neg (by omega)]
    exact ⟨_, rfl⟩

/-! ### The price table of a book -/

theorem find_set (b : PriceBook) (k k' : Str × Str) (v : PriceList) :
    (b.set k v).find k' = if k = k' then some v else b.find k' := by
  induction b with
  | nil => simp [PriceBook.set, PriceBook.find]
  | cons kv b ih =>
    obtain ⟨k0, v0⟩ := kv
    simp only [PriceBook.set]
    split
    · rename_i h
      subst h
      simp only [PriceBook.find]
      split <;> simp_all
    · rename_i h
      simp only [PriceBook.find, ih]
      split
      · rename_i h'
        subst h'
        have : ¬ k = k0 := fun e => h e.symm
        simp [this]
      · rfl

theorem find_addPrice (b : PriceBook) (d : Int) (u c : Str) (v : Rat) (k : Str × Str) :
    (b.addPrice d u c v).find k =
      if (u, c) = k then some ((b.find k).getD [] ++ [⟨d, v⟩]) else b.find k := by
  unfold PriceBook.addPrice
  split
  · rename_i h
    rw [find_set]
    split
    · rename_i e; subst e; rw [h]; rfl
    · rfl
  · rename_i w h
    rw [find_set]
    split
    · rename_i e; subst e; rw [h]; rfl
    · rfl

theorem find_build (b : PriceBook) (k : Str × Str) : b.build.find k = (b.find k).map sortPrices := by
  induction b with
  | nil => rfl
  | cons kv b ih =>
    obtain ⟨k0, v0⟩ := kv
    simp only [PriceBook.build, List.map_cons, PriceBook.find] at ih ⊢
    split
    · rfl
    · exact ih

/-- The table entry of a pair after some calls. -/
def tableEntry (h : List Price) : Option PriceList := if h = [] then none else some h

theorem calls_prices (cs : List Call) : ∀ (b b' : Builder) (u c : Str) (h : List Price),
    b.prices.find (u, c) = tableEntry h → b.calls cs = some b' →
    b'.prices.find (u, c) = tableEntry (h ++ recorded u c cs) := by
  induction cs with
  | nil => intro b b' u c h hf hb; cases hb; simpa [recorded] using hf
  | cons cl cs ih =>
    intro b b' u c h hf hb
    simp only [Builder.calls] at hb
    cases hc : b.call cl with
    | none => rw [hc] at hb; cases hb
    | some b1 =>
      rw [hc] at hb
      cases cl with
      | newTransaction d p n =>
        have hp : b1.prices = b.prices := by
          simp only [Builder.call, Builder.newTransaction] at hc
          unfold Builder.checkAndClear at hc
          split at hc
          · cases hc
          · rename_i b2 hb2
            split at hb2
            · cases hb2
              split at hc
              · cases hc
              · cases hc; rfl
            · cases hb2
        exact ih b1 b' u c h (by rw [hp]; exact hf) hb
      | addPosting a cc v n =>
        cases hc
        exact ih (b.addPosting a cc v n) b' u c h hf hb
      | addPrice d u' c' v =>
        cases hc
        have hf' : (b.addPrice d u' c' v).prices.find (u, c) =
            tableEntry (h ++ if u' = u ∧ c' = c then [⟨d, v⟩] else []) := by
          show (b.prices.addPrice d u' c' v).find (u, c) = _
          rw [find_addPrice, hf]
          by_cases e : u' = u ∧ c' = c
          · rw [if_pos (by rw [e.1, e.2]), if_pos e]
            unfold tableEntry
            by_cases h0 : h = [] <;> simp [h0]
          · rw [if_neg (by intro he; simp only [Prod.mk.injEq] at he; exact e he), if_neg e]
            simp
        have := ih (b.addPrice d u' c' v) b' u c _ hf' hb
        rw [this]
        simp only [recorded]
        by_cases e : u' = u ∧ c' = c
        · rw [if_pos e, if_pos e]; simp
        · rw [if_neg e, if_neg e]; simp

/-- Operations leave the prices alone (`RegexCCY`'s renaming of pairs is separate). -/
theorem apply_prices {srt today} {o : Op} {b b' : Book} (h : o.apply srt today b = some b') : b'.prices = b.prices := by
  have hc : ∀ b : Book, (b.compact srt).prices = b.prices := by
    intro b; unfold Book.compact; split <;> rfl
  cases o <;> simp only [Op.apply, Option.some.injEq] at h
  case adjustBy by_ =>
    unfold Book.adjustBy at h
    split at h
    · cases h; rfl
    · split at h
      · cases h
      · split at h
        · cases h
        · cases h; exact hc _
  all_goals subst h
  case read => exact hc _
  case mapTransaction g => exact hc _
  case splitBy by_ => exact hc _
  case mapAccount g => exact hc _
  case mapAmount g => rfl
  case filter f => rfl
  case since d => unfold Book.filterByDateSince; split <;> rfl
  case asof d => unfold Book.filterByDateAsof; split <;> rfl
  case filterByAccount a => rfl
  case adjustPost mat rep f => exact hc _
  case depreciate mat rep per n => exact hc _
  case removeDuplicatesOf m => rfl
  case reclassify o1 o2 dist ra ref => rfl

theorem applyOps_prices {srt today} {os : List Op} {b b' : Book} (h : applyOps srt today os b = some b') :
    b'.prices = b.prices := by
  induction os generalizing b with
  | nil => cases h; rfl
  | cons o os ih =>
    simp only [applyOps] at h
    cases hc : o.apply srt today b with
    | none => rw [hc] at h; cases h
    | some b1 => rw [hc] at h; rw [ih h, apply_prices hc]

theorem built_prices {srt} {cs : List Call} {bb : Builder} {b : Book} (h : Builder.new.calls cs = some bb)
    (hb : bb.build srt = some b) (u c : Str) :
    b.prices.find (u, c) = if recorded u c cs = [] then none else some (sortPrices (recorded u c cs)) := by
  have h1 := calls_prices cs Builder.new bb u c [] rfl h
  have h2 : b.prices = bb.prices.build := by
    unfold Builder.build at hb
    cases hcc : bb.checkAndClear with
    | none => rw [hcc] at hb; cases hb
    | some b2 =>
      rw [hcc] at hb
      simp only [Option.some.injEq] at hb
      rw [← hb]
      have : b2.prices = bb.prices := by
        unfold Builder.checkAndClear at hcc
        split at hcc
        · cases hcc; rfl
        · cases hcc
      rw [← this]
      unfold Book.compact; split <;> rfl
  rw [h2, find_build, h1]
  simp only [List.nil_append, tableEntry]
  split <;> rfl

/-! ### The iterator -/

/-- Number of prices before a date. -/
def countBefore (pl : PriceList) (date : Int) : Nat := (pl.filter fun q => decide (q.date < date)).length

/-- The answer in terms of the number of earlier prices. -/
def byCount (pl : PriceList) (date : Int) (k : Nat) : Option (Rat × PriceType) :=
  if k = pl.length then (pl.getLast?).map fun q => (q.val, PriceType.outOfRange)
  else
    match pl[k]? with
    | none => none
    | some q =>
      if q.date = date then some (q.val, PriceType.exact)
      else if k = 0 then some (q.val, PriceType.outOfRange)
      else
        match pl[k - 1]? with
        | some lo => interpolate lo q date
        | none => none

theorem countBefore_le (pl : PriceList) (date : Int) : countBefore pl date ≤ pl.length := List.length_filter_le _ _

theorem countBefore_mono (pl : PriceList) {d e : Int} (h : d ≤ e) : countBefore pl d ≤ countBefore pl e := by
  unfold countBefore
  induction pl with
  | nil => simp
  | cons q pl ih =>
    simp only [List.filter_cons, decide_eq_true_eq]
    split_ifs <;> (try simp only [List.length_cons]) <;> omega

/-- On a sorted list the prices before the date come first. -/
theorem countBefore_get {pl : PriceList} (hs : pl.Pairwise (fun a b => a.date ≤ b.date)) (date : Int) {i : Nat} {q : Price}
    (hq : pl[i]? = some q) : q.date < date ↔ i < countBefore pl date := by
  induction pl generalizing i with
  | nil => simp at hq
  | cons r pl ih =>
    obtain ⟨h1, h2⟩ := List.pairwise_cons.1 hs
    unfold countBefore
    rw [List.filter_cons]
    by_cases hr : r.date < date
    · rw [if_pos (by simpa using hr)]
      cases i with
      | zero =>
        simp at hq; subst hq
        simp [hr]
      | succ i =>
        simp only [List.getElem?_cons_succ] at hq
        have := ih h2 hq
        unfold countBefore at this
        rw [this]; simp
    · rw [if_neg (by simpa using hr)]
      have hnil : pl.filter (fun q => decide (q.date < date)) = [] := by
        rw [List.filter_eq_nil_iff]
        intro x hx
        have := h1 x hx
        simp; omega
      rw [hnil]
      have hle : r.date ≤ q.date := by
        cases i with
        | zero => simp at hq; rw [hq]
        | succ i =>
          simp only [List.getElem?_cons_succ] at hq
          exact h1 q (List.mem_of_getElem? hq)
      simp; omega

theorem iterAdvance_eq {pl : PriceList} (hs : pl.Pairwise (fun a b => a.date ≤ b.date)) (date : Int) :
    ∀ (f idx : Nat), idx ≤ countBefore pl date → pl.length - idx ≤ f →
      iterAdvance pl date f idx = countBefore pl date := by
  intro f
  induction f with
  | zero =>
    intro idx h1 h2
    have := countBefore_le pl date
    simp only [iterAdvance]; omega
  | succ f ih =>
    intro idx h1 h2
    simp only [iterAdvance]
    cases hg : pl[idx]? with
    | none =>
      have := List.getElem?_eq_none_iff.1 hg
      have := countBefore_le pl date
      simp only; omega
    | some q =>
      simp only
      have := countBefore_get hs date hg
      split
      · rename_i h; exact ih _ (by have := this.1 h; omega) (by omega)
      · rename_i h
        have : ¬ idx < countBefore pl date := fun hc => h (this.2 hc)
        omega

/-- Direct lookup in terms of the number of earlier prices (distinct dates). -/
theorem getPrice_byCount {pl : PriceList} (hs : pl.Pairwise (fun a b => a.date < b.date)) (date : Int) :
    PriceList.getPrice pl date = byCount pl date (countBefore pl date) := by
  have hs' : pl.Pairwise (fun a b => a.date ≤ b.date) := hs.imp (fun h => by omega)
  by_cases hne : pl = []
  · subst hne; rfl
  have hcl := countBefore_le pl date
  unfold byCount
  rcases getPrice_cases pl date hs' hne with ⟨q, e1, e2, e3⟩ | ⟨q, e1, e2, e3⟩ | ⟨i, q, e1, e2, e3⟩ | ⟨i, q, q', e1, e2, e3, e4, e5⟩
  · have h0 : pl[0]? = some q := by rw [← e1, List.head?_eq_getElem?]
    have hk : countBefore pl date = 0 := by
      have := (countBefore_get hs' date h0)
      by_contra hc
      have := this.2 (by omega); omega
    have hlen : 0 < pl.length := List.length_pos_iff.2 hne
    rw [hk, if_neg (by omega), h0, e3]
    simp only
    rw [if_neg (by omega)]; simp
  · have e1' := e1
    rw [List.getLast?_eq_getElem?] at e1
    have := (countBefore_get hs' date e1).1 e2
    rw [if_pos (by omega), e1', e3]; rfl
  · have h1 : ¬ i < countBefore pl date := fun h => by have := (countBefore_get hs' date e1).2 h; omega
    obtain ⟨hi, _⟩ := List.getElem?_eq_some_iff.1 e1
    have hk : countBefore pl date = i := by
      by_contra hc
      have hlt : countBefore pl date < i := by omega
      have hg : pl[countBefore pl date]? = some (pl[countBefore pl date]'(by omega)) := List.getElem?_eq_getElem (by omega)
      have h2 := (countBefore_get hs' date hg)
      have h3 := (List.pairwise_iff_getElem.1 hs) (countBefore pl date) i (by omega) hi hlt
      obtain ⟨_, e⟩ := List.getElem?_eq_some_iff.1 e1
      rw [e] at h3
      have := h2.1 (by omega); omega
    rw [hk, if_neg (by omega), e1, e3]
    simp [e2]
  · obtain ⟨hi, _⟩ := List.getElem?_eq_some_iff.1 e2
    have h1 := (countBefore_get hs' date e1).1 e3
    have h2 : ¬ i + 1 < countBefore pl date := fun h => by have := (countBefore_get hs' date e2).2 h; omega
    have hk : countBefore pl date = i + 1 := by omega
    rw [hk, if_neg (by omega), e2, e5]
    simp only
    rw [if_neg (by omega)]
    simp [e1]

/-! ## Stability of the sorting -/

theorem insertPrice_end (x : Price) (l : PriceList) (h : ∀ r ∈ l, r.date ≤ x.date) : insertPrice x l = l ++ [x] := by
  induction l with
  | nil => rfl
  | cons r l ih =>
    have := h r (by simp)
    rw [insertPrice, if_neg (by omega), ih fun s hs => h s (List.mem_cons_of_mem _ hs)]
    rfl

theorem insertPrice_keepsLast (x q : Price) (l : PriceList) (hq : l.getLast? = some q) (h : x.date < q.date) :
    (insertPrice x l).getLast? = some q := by
  induction l with
  | nil => cases hq
  | cons r l ih =>
    rw [insertPrice]
    split
    · rw [List.getLast?_cons_cons]; exact hq
    · rename_i hlt
      cases l with
      | nil => simp at hq; subst hq; omega
      | cons s l =>
        rw [List.getLast?_cons_cons] at hq
        have h1 := ih hq
        cases hi : insertPrice x (s :: l) with
        | nil => rw [hi] at h1; cases h1
        | cons a m => rw [hi] at h1; rw [List.getLast?_cons_cons]; exact h1

theorem insertPrice_front (x : Price) (l : PriceList) (h : ∀ r ∈ l, x.date < r.date) : insertPrice x l = x :: l := by
  cases l with
  | nil => rfl
  | cons r l => rw [insertPrice, if_pos (h r (by simp))]

theorem insertPrice_head (x q : Price) (l : PriceList) (hq : l.head? = some q) (h : q.date ≤ x.date) : (insertPrice x l).head? = some q := by
  cases l with
  | nil => cases hq
  | cons r l =>
    simp at hq
    subst hq
    rw [insertPrice, if_neg (by omega)]
    rfl

theorem sortPrices_split (xs ys : List Price) (q : Price) :
    sortPrices (xs ++ q :: ys) = ys.foldl (fun acc q => insertPrice q acc) (insertPrice q (sortPrices xs)) := by
  unfold sortPrices
  rw [List.foldl_append, List.foldl_cons]

/-- The last price of the sorted list: of those with the latest date, the one recorded last. -/
theorem sortPrices_last (xs ys : List Price) (q : Price) (h1 : ∀ r ∈ xs, r.date ≤ q.date) (h2 : ∀ r ∈ ys, r.date < q.date) :
    (sortPrices (xs ++ q :: ys)).getLast? = some q := by
  rw [sortPrices_split, insertPrice_end q _ fun r hr => h1 r ((sortPrices_spec xs).1.mem_iff.1 hr)]
  have : ∀ (ys acc : List Price), (∀ r ∈ ys, r.date < q.date) → acc.getLast? = some q →
      (ys.foldl (fun acc q => insertPrice q acc) acc).getLast? = some q := by
    intro ys
    induction ys with
    | nil => intro acc _ h; exact h
    | cons y ys ih =>
      intro acc hy h
      exact ih _ (fun r hr => hy r (List.mem_cons_of_mem _ hr)) (insertPrice_keepsLast _ _ _ h (hy y (by simp)))
  exact this ys _ h2 (by simp)

/-- The first price of the sorted list: of those with the earliest date, the one recorded first. -/
theorem sortPrices_first (xs ys : List Price) (q : Price) (h1 : ∀ r ∈ xs, q.date < r.date) (h2 : ∀ r ∈ ys, q.date ≤ r.date) :
    (sortPrices (xs ++ q :: ys)).head? = some q := by
  rw [sortPrices_split, insertPrice_front q _ fun r hr => h1 r ((sortPrices_spec xs).1.mem_iff.1 hr)]
  have : ∀ (ys acc : List Price), (∀ r ∈ ys, q.date ≤ r.date) → acc.head? = some q →
      (ys.foldl (fun acc q => insertPrice q acc) acc).head? = some q := by
    intro ys
    induction ys with
    | nil => intro acc _ h; exact h
    | cons y ys ih =>
      intro acc hy h
      exact ih _ (fun r hr => hy r (List.mem_cons_of_mem _ hr)) (insertPrice_head _ _ _ h (hy y (by simp)))
  exact this ys _ h2 rfl

end Verif
