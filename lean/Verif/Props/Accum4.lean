import Verif.Props.Accum3
import Mathlib.Data.List.Chain

/-! # C46: which accounts get a subtotal -/

namespace Verif
open Spec

theorem mem_zip_tail {α β} {f : α → α → β} {l : List α} {z : β} :
    z ∈ List.zipWith f l l.tail ↔ ∃ X x y Y, l = X ++ x :: y :: Y ∧ f x y = z := by
  induction l with
  | nil => simp
  | cons a l ih =>
    cases l with
    | nil =>
      simp only [List.tail_cons, List.zipWith_nil_right, List.not_mem_nil, false_iff]
      rintro ⟨X, x, y, Y, h, _⟩
      have := congrArg List.length h
      simp at this
      omega
    | cons b l =>
      simp only [List.tail_cons, List.zipWith_cons_cons, List.mem_cons] at ih ⊢
      rw [ih]
      constructor
      · rintro (rfl | ⟨X, x, y, Y, h, rfl⟩)
        · exact ⟨[], a, b, l, rfl, rfl⟩
        · exact ⟨a :: X, x, y, Y, by rw [h]; rfl, rfl⟩
      · rintro ⟨X, x, y, Y, h, rfl⟩
        cases X with
        | nil => left; simp at h; rw [h.1, h.2.1]
        | cons c X => right; simp at h; exact ⟨X, x, y, Y, h.2, rfl⟩

private theorem atOrAbove_trans {div a b c : Str} (h1 : AtOrAbove div a b) (h2 : AtOrAbove div b c) : AtOrAbove div a c := by
  rcases h1 with rfl | h1
  · exact h2
  · rcases h2 with rfl | h2
    · exact Or.inr h1
    · exact Or.inr (h1.trans ((List.prefix_append _ _).trans h2))

private theorem atOrAbove_pre {div k a : Str} (h : AtOrAbove div k a) : k <+: a := by
  rcases h with rfl | h
  · exact List.prefix_rfl
  · exact (List.prefix_append k div).trans h

/-- The first component of a name. -/
private def comp (d : Nat) (r : Str) : Str := r.takeWhile (fun x => decide (x ≠ d))

private theorem comp_cases (d : Nat) (r : Str) : comp d r = r ∨ (comp d r ++ [d]) <+: r := by
  induction r with
  | nil => exact Or.inl rfl
  | cons x r ih =>
    unfold comp at ih ⊢
    by_cases h : x = d
    · right; subst h; simp
    · rw [List.takeWhile_cons_of_pos (by simpa using h)]
      rcases ih with ih | ih
      · left; rw [ih]
      · right; rw [List.cons_append, List.prefix_cons_inj]; exact ih

private theorem comp_append (d : Nat) (r t : Str) : comp d (r ++ d :: t) = comp d r := by
  induction r with
  | nil => simp [comp]
  | cons x r ih =>
    unfold comp at ih ⊢
    by_cases h : x = d
    · subst h; simp
    · rw [List.cons_append, List.takeWhile_cons_of_pos (by simpa using h), List.takeWhile_cons_of_pos (by simpa using h), ih]

/-- The child of `k` on the way to `x` is at or above every deeper account on the way. -/
private theorem child_above {d : Nat} {k g rest : Str} (hg : AtOrAbove [d] g (k ++ d :: rest)) (hk : k <+: g) (hne : k ≠ g) :
    AtOrAbove [d] (k ++ d :: comp d rest) g := by
  obtain ⟨w, rfl⟩ := hk
  have hw : w ≠ [] := fun h => hne (by rw [h]; simp)
  obtain ⟨x, r, rfl⟩ := List.exists_cons_of_ne_nil hw
  have key : x = d ∧ comp d rest = comp d r := by
    rcases hg with h | h
    · rw [List.append_cancel_left_eq, List.cons.injEq] at h
      exact ⟨h.1.symm, by rw [h.2]⟩
    · rw [List.append_assoc, List.prefix_append_right_inj] at h
      obtain ⟨t, h⟩ := h
      simp only [List.cons_append, List.append_assoc, List.nil_append, List.cons.injEq] at h
      exact ⟨h.1, by rw [← h.2, comp_append]⟩
  rw [key.2, key.1]
  rcases comp_cases d r with h | h
  · left; rw [h]
  · right
    rw [List.append_assoc, List.prefix_append_right_inj, List.cons_append, List.prefix_cons_inj]
    exact h

/-- Along a chain of names under `k`, some neighbours have `k` as their deepest common account. -/
private theorem chain_splits {d : Nat} {k : Str} : ∀ (M : List Str) (x z : Str),
    (∀ m ∈ x :: M ++ [z], AtOrAbove [d] k m) →
    (∀ g, AtOrAbove [d] g x → AtOrAbove [d] g z → g <+: k) →
    (∀ a ∈ x :: M ++ [z], ∀ b ∈ x :: M ++ [z], ¬ PartAtDivider d a b) →
    ∃ X a b Y, x :: M ++ [z] = X ++ a :: b :: Y ∧ findMaxCommonPrefix a b [d] = k := by
  intro M x z hall hdeep hno
  by_contra hcon
  -- all neighbours meet strictly below `k`
  have hstep : ∀ X a b Y, x :: M ++ [z] = X ++ a :: b :: Y →
      ∃ g, k <+: g ∧ k ≠ g ∧ AtOrAbove [d] g a ∧ AtOrAbove [d] g b := by
    intro X a b Y h
    have ha : a ∈ x :: M ++ [z] := by rw [h]; simp
    have hb : b ∈ x :: M ++ [z] := by rw [h]; simp
    have hc := c50_common_prefix_partial a b d (hno a ha b hb)
    have hk := hc.deepest k (hall a ha) (hall b hb)
    have hne : k ≠ findMaxCommonPrefix a b [d] := fun e => hcon ⟨X, a, b, Y, h, e.symm⟩
    refine ⟨_, hk, hne, ?_⟩
    rcases hc.common with h0 | h0
    · rw [h0] at hk hne
      exact absurd (List.prefix_nil.1 hk) hne
    · exact h0
  obtain ⟨y, Y, hy⟩ : ∃ y Y, M ++ [z] = y :: Y := by cases M <;> exact ⟨_, _, rfl⟩
  obtain ⟨g, g1, g2, g3, g4⟩ := hstep [] x y Y (by rw [List.cons_append, hy]; rfl)
  have hx : k ≠ x := by
    intro e
    have := atOrAbove_pre g3
    rw [← e] at this
    exact g2 (g1.eq_of_length_le this.length_le)
  obtain ⟨rest, hrest⟩ : ∃ rest, x = k ++ d :: rest := by
    rcases hall x (by simp) with h | ⟨r, h⟩
    · exact absurd h.symm hx
    · exact ⟨r, by rw [← h]; simp⟩
  -- the child of k towards x is above everything
  have hchild : ∀ (Z : List Str) (a : Str) (X : List Str), x :: M ++ [z] = X ++ a :: Z → AtOrAbove [d] (k ++ d :: comp d rest) a →
      ∀ m ∈ a :: Z, AtOrAbove [d] (k ++ d :: comp d rest) m := by
    intro Z
    induction Z with
    | nil => intro a X _ ha m hm; simp at hm; rw [hm]; exact ha
    | cons b Z ih =>
      intro a X he ha m hm
      rcases List.mem_cons.1 hm with rfl | hm
      · exact ha
      · obtain ⟨g', p1, p2, p3, p4⟩ := hstep X a b Z he
        have hb : AtOrAbove [d] (k ++ d :: comp d rest) b := by
          refine atOrAbove_trans ?_ p4
          -- the child is above a and so above g'
          obtain ⟨ra, hra⟩ : ∃ ra, a = k ++ d :: ra ∧ comp d ra = comp d rest := by
            have hd : d ∉ comp d rest := by
              intro hm
              have h := List.all_takeWhile (p := fun x => decide (x ≠ d)) (l := rest)
              rw [List.all_eq_true] at h
              have := h d hm
              simp at this
            rcases ha with h | ⟨r, h⟩
            · refine ⟨comp d rest, h, ?_⟩
              rcases comp_cases d (comp d rest) with e | e
              · exact e
              · exact absurd (e.subset (by simp)) hd
            · refine ⟨comp d rest ++ d :: r, by rw [← h]; simp, ?_⟩
              rw [comp_append]
              rcases comp_cases d (comp d rest) with e | e
              · exact e
              · exact absurd (e.subset (by simp)) hd
          rw [hra.1] at p3
          have := child_above p3 p1 p2
          rw [hra.2] at this
          exact this
        exact ih b (X ++ [a]) (by rw [he]; simp) hb m hm
  have hx0 : AtOrAbove [d] (k ++ d :: comp d rest) x := by
    rw [hrest]
    rcases comp_cases d rest with h | h
    · left; rw [h]
    · right
      rw [List.append_assoc, List.prefix_append_right_inj, List.cons_append, List.prefix_cons_inj]
      exact h
  have hz := hchild (M ++ [z]) x [] rfl hx0 z (by simp)
  have := (hdeep _ hx0 hz).length_le
  simp at this

private theorem lex_between {k : Str} : ∀ {a m c : Str}, k <+: a → k <+: c → a ≤ m → m ≤ c → k <+: m := by
  induction k with
  | nil => intros; exact List.nil_prefix
  | cons x k ih =>
    rintro a m c ⟨s, rfl⟩ ⟨t, rfl⟩ h1 h2
    rw [List.cons_append] at h1 h2
    cases m with
    | nil =>
      exact absurd h1 (not_le.2 (List.nil_lt_cons _ _))
    | cons y m =>
      rw [← not_lt, List.cons_lt_cons_iff] at h1 h2
      have e : x = y := by
        by_contra hne
        rcases Nat.lt_or_gt_of_ne hne with h | h
        · exact h2 (Or.inl h)
        · exact h1 (Or.inl h)
      subst e
      rw [List.prefix_cons_inj]
      refine ih (List.prefix_append k s) (List.prefix_append k t) ?_ ?_
      · rw [← not_lt]; exact fun h => h1 (Or.inr ⟨rfl, h⟩)
      · rw [← not_lt]; exact fun h => h2 (Or.inr ⟨rfl, h⟩)

/-- Names between two names under `k` are under `k`, if no names part at a divider. -/
private theorem under_between {d : Nat} {k a m c : Str} (ha : AtOrAbove [d] k a) (hc : AtOrAbove [d] k c) (h1 : a ≤ m) (h2 : m ≤ c)
    (hno : ¬ PartAtDivider d m c) : AtOrAbove [d] k m := by
  obtain ⟨w, rfl⟩ := lex_between (atOrAbove_pre ha) (atOrAbove_pre hc) h1 h2
  cases w with
  | nil => left; simp
  | cons x w =>
    by_cases e : x = d
    · subst e; right; exact ⟨w, by simp⟩
    · exfalso
      rcases hc with rfl | ⟨t, rfl⟩
      · have : c < c ++ x :: w := by
          have := (append_lt_append_iff c [] (x :: w)).2 (List.nil_lt_cons _ _)
          simpa using this
        exact absurd h2 (not_le.2 this)
      · exact hno ⟨k, x, w, t, e, Or.inr ⟨rfl, by simp⟩⟩

private theorem chain_repeat {α} {A : List α} (hA : A.Nodup) (h2 : ∀ x, ∃ y ∈ A, y ≠ x) {β} (us : List β) :
    ((us.map fun _ => A).flatten).IsChain (· ≠ ·) := by
  have hc : A.IsChain (· ≠ ·) := List.Pairwise.isChain hA
  induction us with
  | nil => simp
  | cons u us ih =>
    rw [List.map_cons, List.flatten_cons, List.isChain_append]
    refine ⟨hc, ih, ?_⟩
    intro x hx y hy e
    subst e
    cases us with
    | nil => simp at hy
    | cons v us =>
      obtain ⟨a, A', rfl⟩ := List.exists_cons_of_ne_nil (l := A) (by
        intro h0; obtain ⟨y, hy, _⟩ := h2 x; rw [h0] at hy; cases hy)
      simp only [List.map_cons, List.flatten_cons, List.cons_append, List.head?_cons, Option.mem_def, Option.some.injEq] at hy
      subst hy
      obtain ⟨y, hy, hne⟩ := h2 a
      cases A' with
      | nil => simp at hy; exact hne hy
      | cons b A' =>
        rw [List.getLast?_cons_cons] at hx
        exact (List.nodup_cons.1 hA).1 (List.mem_of_getLast? hx)

/-- `c46_which_accounts` for any well-formed balanced book. -/
theorem which_accounts_good (srt : List Posting → List Posting) (hs : IsSort srt) (b : Book) (w : b.WF) (hb : Balanced b.post)
    (base : Str) (d : Nat) (hne : b.transactions srt ≠ [])
    (hno : ∀ p ∈ reported srt b, ∀ q ∈ reported srt b, ¬ PartAtDivider d p.acct q.acct) (k : Str) :
    k ∈ summaries srt b base [d] ↔
      (∃ p ∈ reported srt b, p.acct = k ∧ p.ccy ≠ base) ∨
      (k ≠ [] ∧ ∃ p ∈ reported srt b, ∃ q ∈ reported srt b, (p.acct, p.ccy) ≠ (q.acct, q.ccy) ∧
        DeepestCommon [d] p.acct q.acct k) := by
  obtain ⟨hc, hu, hn, hA, hp, hadd, hord, htwo⟩ := book_data hs w hb hne
  have hacc := (c48_accounts srt b).2
  have hsorted : (acctsOf srt b).Pairwise (fun x y => toLex x < toLex y) := (acctList_spec (reported srt b)).2
  -- the pairs of the filled book
  have hpairs : ((b.transactions srt).map (fill (acctsOf srt b))).flatten.map pairOf =
      ((b.transactions srt).map fun _ => acctsOf srt b).flatten := by
    rw [List.map_flatten, List.map_map]
    congr 1
    apply List.map_congr_left
    intro u hu'
    obtain ⟨p0, hp0⟩ := List.exists_mem_of_ne_nil u (hu u hu').1.1
    simp only [Function.comp, fill]
    rw [List.map_map]
    conv_rhs => rw [← List.map_id (acctsOf srt b)]
    exact List.map_congr_left fun e _ => (entryOf_key (hu u hu').1 e hp0).2.2
  have hmem : ∀ x ∈ ((b.transactions srt).map (fill (acctsOf srt b))).flatten, pairOf x ∈ acctsOf srt b := by
    intro x hx
    have : pairOf x ∈ ((b.transactions srt).map fun _ => acctsOf srt b).flatten := by
      rw [← hpairs]; exact List.mem_map.2 ⟨x, hx, rfl⟩
    obtain ⟨l, hl, hxl⟩ := List.mem_flatten.1 this
    obtain ⟨_, _, rfl⟩ := List.mem_map.1 hl
    exact hxl
  unfold summaries accumSet
  rw [List.mem_dedup, List.mem_append]
  refine or_congr ?_ ?_
  · constructor
    · intro h
      obtain ⟨x, hx, rfl⟩ := List.mem_map.1 h
      obtain ⟨hx1, hx2⟩ := List.mem_filter.1 hx
      obtain ⟨p, hp, e1, e2⟩ := (hacc x.acct x.ccy).1 (hmem x hx1)
      exact ⟨p, hp, e1, by rw [e2]; simpa using hx2⟩
    · rintro ⟨p, hp, rfl, hf⟩
      obtain ⟨u, hu', hpu⟩ := List.mem_flatten.1 hp
      have hm := (hacc p.acct p.ccy).2 ⟨p, hp, rfl, rfl⟩
      refine List.mem_map.2 ⟨p, List.mem_filter.2 ⟨List.mem_flatten.2 ⟨_, List.mem_map.2 ⟨u, hu', rfl⟩, ?_⟩, by simpa using hf⟩, rfl⟩
      exact List.mem_map.2 ⟨pairOf p, hm, entryOf_mem ((hu u hu').2.1.nodup hn) hpu⟩
  · rw [List.mem_filter, decide_eq_true_eq, and_comm, mem_zip_tail]
    refine and_congr_right fun hk => ?_
    constructor
    · rintro ⟨X, x, y, Y, he, rfl⟩
      have hx := hmem x (by rw [he]; simp)
      have hy := hmem y (by rw [he]; simp)
      obtain ⟨p, hp, p1, p2⟩ := (hacc x.acct x.ccy).1 hx
      obtain ⟨q, hq, q1, q2⟩ := (hacc y.acct y.ccy).1 hy
      refine ⟨p, hp, q, hq, ?_, ?_⟩
      · have hch := chain_repeat hn (fun e => by
          obtain ⟨e', he', h⟩ := htwo e.1
          exact ⟨e', he', fun h' => h (by rw [h'])⟩) (b.transactions srt)
        rw [← hpairs, he, List.map_append, List.map_cons, List.map_cons] at hch
        have := (List.isChain_append.1 hch).2.1
        rw [List.isChain_cons_cons] at this
        rw [p1, p2, q1, q2]
        exact this.1
      · rw [p1, q1]
        exact c50_common_prefix_partial _ _ d (by rw [← p1, ← q1]; exact hno p hp q hq)
    · have main : ∀ p ∈ reported srt b, ∀ q ∈ reported srt b, toLex (p.acct, p.ccy) < toLex (q.acct, q.ccy) →
          DeepestCommon [d] p.acct q.acct k → ∃ X x y Y,
            ((b.transactions srt).map (fill (acctsOf srt b))).flatten = X ++ x :: y :: Y ∧ findMaxCommonPrefix x.acct y.acct [d] = k := by
        intro p hp q hq hlt hdc
        have hpa := (hacc p.acct p.ccy).2 ⟨p, hp, rfl, rfl⟩
        have hqa := (hacc q.acct q.ccy).2 ⟨q, hq, rfl, rfl⟩
        obtain ⟨X, Y, hXY⟩ := List.append_of_mem hpa
        have hqY : (q.acct, q.ccy) ∈ Y := by
          rw [hXY] at hqa hsorted
          rcases List.mem_append.1 hqa with h | h
          · have := (List.pairwise_append.1 hsorted).2.2 _ h _ List.mem_cons_self
            exact absurd this (lt_asymm hlt)
          · rcases List.mem_cons.1 h with h | h
            · rw [h] at hlt; exact absurd hlt (lt_irrefl _)
            · exact h
        obtain ⟨M, Z, hMZ⟩ := List.append_of_mem hqY
        have hseg : acctsOf srt b = X ++ ((p.acct, p.ccy) :: M ++ [(q.acct, q.ccy)]) ++ Z := by rw [hXY, hMZ]; simp
        have hcommon : AtOrAbove [d] k p.acct ∧ AtOrAbove [d] k q.acct := by
          rcases hdc.common with h | h
          · exact absurd h hk
          · exact h
        have hle : ∀ e ∈ (p.acct, p.ccy) :: M ++ [(q.acct, q.ccy)], p.acct ≤ e.1 ∧ e.1 ≤ q.acct ∧ ∃ r ∈ reported srt b, r.acct = e.1 := by
          intro e he
          have hs1 := hsorted
          rw [hseg] at hs1
          have hs2 := (List.pairwise_append.1 (List.pairwise_append.1 hs1).1).2.1
          have fst_le : ∀ x y : Str × Str, toLex x < toLex y → x.1 ≤ y.1 := by
            intro x y h
            rw [Prod.Lex.lt_iff] at h
            rcases h with h | h
            · exact le_of_lt h
            · exact le_of_eq h.1
          have hin : e ∈ acctsOf srt b := by rw [hseg, List.mem_append, List.mem_append]; exact Or.inl (Or.inr he)
          obtain ⟨r, hr, r1, _⟩ := (hacc e.1 e.2).1 hin
          refine ⟨?_, ?_, r, hr, r1⟩
          · rw [List.cons_append, List.pairwise_cons] at hs2
            rcases List.mem_cons.1 he with h | h
            · rw [h]
            · exact fst_le _ _ (hs2.1 e h)
          · rcases List.mem_append.1 he with h | h
            · exact fst_le _ _ ((List.pairwise_append.1 hs2).2.2 e h (q.acct, q.ccy) (by simp))
            · rw [List.mem_singleton.1 h]
        obtain ⟨X', a, c, Y', he, hk'⟩ := chain_splits (d := d) (k := k) (M.map Prod.fst) p.acct q.acct
          (by
            intro m hm
            have : m ∈ ((p.acct, p.ccy) :: M ++ [(q.acct, q.ccy)]).map Prod.fst := by simpa using hm
            obtain ⟨e, he, rfl⟩ := List.mem_map.1 this
            obtain ⟨h1, h2, r, hr, hre⟩ := hle e he
            exact under_between hcommon.1 hcommon.2 h1 h2 (by rw [← hre]; exact hno r hr q hq))
          hdc.deepest
          (by
            intro a ha c hc'
            have h1 : a ∈ ((p.acct, p.ccy) :: M ++ [(q.acct, q.ccy)]).map Prod.fst := by simpa using ha
            have h2 : c ∈ ((p.acct, p.ccy) :: M ++ [(q.acct, q.ccy)]).map Prod.fst := by simpa using hc'
            obtain ⟨e, he, rfl⟩ := List.mem_map.1 h1
            obtain ⟨f, hf, rfl⟩ := List.mem_map.1 h2
            obtain ⟨_, _, r, hr, hre⟩ := hle e he
            obtain ⟨_, _, s, hs', hse⟩ := hle f hf
            rw [← hre, ← hse]; exact hno r hr s hs')
        obtain ⟨u, us, hus⟩ := List.exists_cons_of_ne_nil hne
        have hu0 := hu u (by rw [hus]; simp)
        obtain ⟨p0, hp0⟩ := List.exists_mem_of_ne_nil u hu0.1.1
        have hfst : (acctsOf srt b).map Prod.fst = (X.map Prod.fst) ++ (X' ++ a :: c :: Y') ++ Z.map Prod.fst := by
          rw [hseg, List.map_append, List.map_append, ← he]
          simp
        have hfa : (fill (acctsOf srt b) u).map (·.acct) = (acctsOf srt b).map Prod.fst := by
          unfold fill
          rw [List.map_map]
          exact List.map_congr_left fun e _ => congrArg Prod.fst (entryOf_key hu0.1 e hp0).2.2
        have hall : ((b.transactions srt).map (fill (acctsOf srt b))).flatten.map (·.acct) =
            (X.map Prod.fst ++ X') ++ a :: c :: (Y' ++ Z.map Prod.fst ++ ((us.map (fill (acctsOf srt b))).flatten.map (·.acct))) := by
          rw [hus, List.map_cons, List.flatten_cons, List.map_append, hfa, hfst]
          simp
        obtain ⟨L1, R1, e1, e2, e3⟩ := List.map_eq_append_iff.1 hall
        obtain ⟨x, R2, rfl, e4, e5⟩ := List.map_eq_cons_iff.1 e3
        obtain ⟨y, R3, rfl, e6, e7⟩ := List.map_eq_cons_iff.1 e5
        exact ⟨L1, x, y, R3, e1, by rw [e4, e6]; exact hk'⟩
      rintro ⟨p, hp, q, hq, hpq, hdc⟩
      rcases lt_trichotomy (toLex (p.acct, p.ccy)) (toLex (q.acct, q.ccy)) with h | h | h
      · exact main p hp q hq h hdc
      · exact absurd h hpq
      · exact main q hq p hp h ⟨hdc.common.imp_right And.symm, fun g h1 h2 => hdc.deepest g h2 h1⟩

/-- C46: when no two account names part at a divider, an account gets a subtotal exactly if it
carries a posting in another currency than the base currency, or it is the deepest common
account of two different (account, currency) pairs of the book. -/
theorem c46_which_accounts (srt : List Posting → List Posting) (hs : IsSort srt) (today : Int) (b : Book) (hr : Reachable srt today b)
    (base : Str) (d : Nat) (hne : b.transactions srt ≠ [])
    (hno : ∀ p ∈ reported srt b, ∀ q ∈ reported srt b, ¬ PartAtDivider d p.acct q.acct) (k : Str) :
    k ∈ summaries srt b base [d] ↔
      (∃ p ∈ reported srt b, p.acct = k ∧ p.ccy ≠ base) ∨
      (k ≠ [] ∧ ∃ p ∈ reported srt b, ∃ q ∈ reported srt b, (p.acct, p.ccy) ≠ (q.acct, q.ccy) ∧
        DeepestCommon [d] p.acct q.acct k) :=
  which_accounts_good srt hs b (reachable_wf hs hr).1 (reachable_wf hs hr).2 base d hne hno k

/-- A test for parting at a divider. -/
def partTest (d : Nat) : Str → Str → Bool
  | x :: a, y :: c => if x = y then partTest d a c else decide (x = d ∨ y = d)
  | _, _ => false

theorem partAtDivider_iff (d : Nat) (a c : Str) : PartAtDivider d a c ↔ partTest d a c = true := by
  induction a generalizing c with
  | nil =>
    simp only [partTest, Bool.false_eq_true, iff_false]
    rintro ⟨p, x, s, t, _, ⟨h, _⟩ | ⟨h, _⟩⟩ <;> (have := congrArg List.length h; simp at this)
  | cons u a ih =>
    cases c with
    | nil =>
      simp only [partTest, Bool.false_eq_true, iff_false]
      rintro ⟨p, x, s, t, _, ⟨_, h⟩ | ⟨_, h⟩⟩ <;> (have := congrArg List.length h; simp at this)
    | cons v c =>
      rw [partTest]
      by_cases e : u = v
      · subst e
        rw [if_pos rfl, ← ih]
        constructor
        · rintro ⟨p, x, s, t, hx, h⟩
          cases p with
          | nil =>
            rcases h with ⟨h1, h2⟩ | ⟨h1, h2⟩
            · simp at h1 h2; exact absurd (h2.1.symm.trans h1.1) hx
            · simp at h1 h2; exact absurd (h1.1.symm.trans h2.1) hx
          | cons w p =>
            refine ⟨p, x, s, t, hx, ?_⟩
            rcases h with ⟨h1, h2⟩ | ⟨h1, h2⟩
            · simp at h1 h2; exact Or.inl ⟨h1.2, h2.2⟩
            · simp at h1 h2; exact Or.inr ⟨h1.2, h2.2⟩
        · rintro ⟨p, x, s, t, hx, h⟩
          refine ⟨u :: p, x, s, t, hx, ?_⟩
          rcases h with ⟨h1, h2⟩ | ⟨h1, h2⟩
          · exact Or.inl ⟨by rw [h1]; rfl, by rw [h2]; rfl⟩
          · exact Or.inr ⟨by rw [h1]; rfl, by rw [h2]; rfl⟩
      · rw [if_neg e, decide_eq_true_eq]
        constructor
        · rintro ⟨p, x, s, t, hx, h⟩
          cases p with
          | nil =>
            rcases h with ⟨h1, h2⟩ | ⟨h1, h2⟩
            · simp at h1 h2; exact Or.inl h1.1
            · simp at h1 h2; exact Or.inr h2.1
          | cons w p =>
            rcases h with ⟨h1, h2⟩ | ⟨h1, h2⟩ <;>
              (simp at h1 h2; exact absurd (h1.1.trans h2.1.symm) e)
        · rintro (rfl | rfl)
          · exact ⟨[], v, a, c, fun h => e h.symm, Or.inl ⟨rfl, rfl⟩⟩
          · exact ⟨[], u, a, c, e, Or.inr ⟨rfl, rfl⟩⟩

/-- The demo book meets the hypothesis. -/
example : ∀ p ∈ reported insSort demoBook, ∀ q ∈ reported insSort demoBook, ¬ PartAtDivider 58 p.acct q.acct := by
  simp only [partAtDivider_iff]
  decide +kernel

end Verif
