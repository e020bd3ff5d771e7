import Verif.Model.Beancount
import Verif.Props.Ops2
import Verif.Props.Date
import Mathlib.Data.List.Induction

/-! # C65: beancount account directives -/

namespace Verif
open Spec

/-- The postings of the account named `a` in the output. -/
def postsOf (title : Str → Str) (a : Str) (l : List Posting) : List Posting :=
  l.filter fun p => decide (title p.acct = a)

def beanFind (m : List (Str × BeanInfo)) (a : Str) : Option BeanInfo :=
  (m.find? fun x => decide (x.1 = a)).map (·.2)

theorem beanFind_add (a k : Str) (p : Posting) (m : List (Str × BeanInfo)) :
    beanFind (beanAdd k p m) a = if k = a then
      some (match beanFind m a with
        | none => ⟨p.date, p.date, decide (p.bal = 0)⟩
        | some i => { i with last := p.date, isZero := decide (p.bal = 0) })
      else beanFind m a := by
  induction m with
  | nil =>
    by_cases h : k = a
    · simp [beanAdd, beanFind, h]
    · simp [beanAdd, beanFind, h]
  | cons x m ih =>
    obtain ⟨k', i⟩ := x
    simp only [beanAdd]
    by_cases h1 : k' = k
    · subst h1
      by_cases h : k' = a
      · simp [beanFind, h]
      · simp [beanFind, h]
    · rw [if_neg h1]
      by_cases h : k' = a
      · subst h
        simp [beanFind, Ne.symm h1]
      · have e : ∀ l, beanFind ((k', i) :: l) a = beanFind l a := by
          intro l; simp [beanFind, h]
        rw [e, e, ih]

theorem beanAdd_keys (k : Str) (p : Posting) (m : List (Str × BeanInfo)) :
    (beanAdd k p m).map (·.1) = if k ∈ m.map (·.1) then m.map (·.1) else m.map (·.1) ++ [k] := by
  induction m with
  | nil => simp [beanAdd]
  | cons x m ih =>
    obtain ⟨k', i⟩ := x
    simp only [beanAdd]
    by_cases h1 : k' = k
    · simp [h1]
    · rw [if_neg h1, List.map_cons, ih]
      by_cases h2 : k ∈ m.map (·.1)
      · simp only [h2, if_true, List.map_cons, List.mem_cons, or_true]
      · simp only [h2, if_false, List.map_cons, List.mem_cons, Ne.symm h1, or_self, List.cons_append]

theorem beanFold_spec (title : Str → Str) (l : List Posting) :
    ((l.foldl (fun m p => beanAdd (title p.acct) p m) []).map (·.1)).Nodup ∧
    ∀ a, beanFind (l.foldl (fun m p => beanAdd (title p.acct) p m) []) a =
      match (postsOf title a l).head?, (postsOf title a l).getLast? with
      | some f, some g => some ⟨f.date, g.date, decide (g.bal = 0)⟩
      | _, _ => none := by
  induction l using List.reverseRecOn with
  | nil => simp [beanFind, postsOf]
  | append_singleton l p ih =>
    rw [List.foldl_append]
    simp only [List.foldl_cons, List.foldl_nil]
    refine ⟨?_, ?_⟩
    · rw [beanAdd_keys]
      split
      · exact ih.1
      · next h =>
        rw [List.nodup_append]
        refine ⟨ih.1, by simp, ?_⟩
        intro x hx y hy
        simp only [List.mem_singleton] at hy
        rintro rfl
        exact h (hy ▸ hx)
    · intro a
      rw [beanFind_add, ih.2 a]
      by_cases h : title p.acct = a
      · rw [if_pos h]
        have e : postsOf title a (l ++ [p]) = postsOf title a l ++ [p] := by simp [postsOf, h]
        rw [e]
        cases hl : postsOf title a l with
        | nil => simp
        | cons x xs =>
          have : (x :: xs).getLast? = some ((x :: xs).getLast (by simp)) := List.getLast?_eq_some_getLast (by simp)
          have h2 : (x :: (xs ++ [p])).getLast? = some p := by
            rw [← List.cons_append, List.getLast?_append]; rfl
          simp [this, h2]
      · rw [if_neg h]
        have e : postsOf title a (l ++ [p]) = postsOf title a l := by simp [postsOf, h]
        rw [e]

theorem find_of_mem {m : List (Str × BeanInfo)} (hn : (m.map (·.1)).Nodup) {x : Str × BeanInfo} (hx : x ∈ m) :
    beanFind m x.1 = some x.2 := by
  induction m with
  | nil => simp at hx
  | cons y m ih =>
    simp only [List.map_cons, List.nodup_cons] at hn
    rcases List.mem_cons.1 hx with rfl | hx
    · simp [beanFind]
    · have : y.1 ≠ x.1 := by
        intro h
        exact hn.1 (h ▸ List.mem_map.2 ⟨x, hx, rfl⟩)
      have := ih hn.2 hx
      simpa [beanFind, ‹y.1 ≠ x.1›] using this

theorem mem_of_find {m : List (Str × BeanInfo)} {a : Str} {i : BeanInfo} (h : beanFind m a = some i) : (a, i) ∈ m := by
  simp only [beanFind, Option.map_eq_some_iff] at h
  obtain ⟨x, hx, rfl⟩ := h
  have h1 := List.find?_some hx
  have h2 := List.mem_of_find?_eq_some hx
  simp only [decide_eq_true_eq] at h1
  subst h1
  exact h2

/-- Is it a directive opening `a`? -/
def Directive.opens (a : Str) : Directive → Bool
  | .opn _ a' => decide (a' = a)
  | .close _ _ => false
/-- Is it a directive closing `a`? -/
def Directive.closes (a : Str) : Directive → Bool
  | .opn _ _ => false
  | .close _ a' => decide (a' = a)

theorem beanAll_spec {m : List (Str × BeanInfo)} (hn : (m.map (·.1)).Nodup) {ds : List Directive} (h : beanAll m = some ds)
    (a : Str) :
    (beanFind m a = none → ds.filter (·.opens a) = [] ∧ ds.filter (·.closes a) = []) ∧
    (∀ i, beanFind m a = some i → ds.filter (·.opens a) = [.opn i.first a] ∧
      (i.isZero = false → ds.filter (·.closes a) = []) ∧
      (i.isZero = true → ∃ d, addDays i.last 1 = some d ∧ ds.filter (·.closes a) = [.close d a])) := by
  induction m generalizing ds with
  | nil => simp only [beanAll, Option.some.injEq] at h; subst h; simp [beanFind]
  | cons x m ih =>
    obtain ⟨k, i0⟩ := x
    simp only [List.map_cons, List.nodup_cons] at hn
    simp only [beanAll, Option.bind_eq_some_iff, Option.map_eq_some_iff] at h
    obtain ⟨l1, h1, l2, h2, rfl⟩ := h
    obtain ⟨ihn, ihs⟩ := ih hn.2 h2
    by_cases hk : k = a
    · subst hk
      have hnone : beanFind m k = none := by
        cases hf : beanFind m k with
        | none => rfl
        | some j => exact absurd (List.mem_map.2 ⟨(k, j), mem_of_find hf, rfl⟩) hn.1
      obtain ⟨e1, e2⟩ := ihn hnone
      have hfind : beanFind ((k, i0) :: m) k = some i0 := by simp [beanFind]
      rw [hfind]
      refine ⟨by simp, ?_⟩
      intro i hi
      simp only [Option.some.injEq] at hi
      subst hi
      rw [List.filter_append, List.filter_append, e1, e2, List.append_nil, List.append_nil]
      simp only [beanLines] at h1
      by_cases hz : i0.isZero = true
      · rw [if_pos hz] at h1
        simp only [Option.map_eq_some_iff] at h1
        obtain ⟨d, hd, rfl⟩ := h1
        refine ⟨by simp [Directive.opens], by simp [hz], fun _ => ⟨d, hd, by simp [Directive.closes]⟩⟩
      · rw [if_neg hz, Option.some.injEq] at h1
        subst h1
        exact ⟨by simp [Directive.opens], fun _ => by simp [Directive.closes], fun h => absurd h hz⟩
    · have hfind : beanFind ((k, i0) :: m) a = beanFind m a := by simp [beanFind, hk]
      have hf1 : l1.filter (·.opens a) = [] ∧ l1.filter (·.closes a) = [] := by
        simp only [beanLines] at h1
        split at h1
        · simp only [Option.map_eq_some_iff] at h1
          obtain ⟨d, _, rfl⟩ := h1
          simp [Directive.opens, Directive.closes, hk]
        · simp only [Option.some.injEq] at h1
          subst h1
          simp [Directive.opens, Directive.closes, hk]
      rw [hfind, List.filter_append, List.filter_append, hf1.1, hf1.2, List.nil_append, List.nil_append]
      exact ⟨ihn, ihs⟩

theorem find_perm {m m' : List (Str × BeanInfo)} (hp : m'.Perm m) (hn : (m.map (·.1)).Nodup) (a : Str) :
    beanFind m' a = beanFind m a := by
  have hn' : (m'.map (·.1)).Nodup := (hp.map _).nodup_iff.2 hn
  cases h : beanFind m' a with
  | some i => exact (find_of_mem hn (hp.mem_iff.1 (mem_of_find h))).symm
  | none =>
    cases h2 : beanFind m a with
    | none => rfl
    | some i =>
      have := find_of_mem hn' (hp.mem_iff.2 (mem_of_find h2))
      rw [h] at this
      exact absurd this (by simp)

theorem directives_spec {title : Str → Str} {ord : List (Str × BeanInfo) → List (Str × BeanInfo)}
    (hord : ∀ m, (ord m).Perm m) {ts : List Txn} {ds : List Directive} (h : beanDirectives title ord ts = some ds) (a : Str) :
    (postsOf title a ts.flatten = [] → ds.filter (·.opens a) = [] ∧ ds.filter (·.closes a) = []) ∧
    (∀ f g, (postsOf title a ts.flatten).head? = some f → (postsOf title a ts.flatten).getLast? = some g →
      ds.filter (·.opens a) = [.opn f.date a] ∧ (g.bal ≠ 0 → ds.filter (·.closes a) = []) ∧
      (g.bal = 0 → ∃ d, addDays g.date 1 = some d ∧ ds.filter (·.closes a) = [.close d a])) := by
  obtain ⟨hn, hf⟩ := beanFold_spec title ts.flatten
  have hp := hord (beanStats title ts)
  have hn' : ((ord (beanStats title ts)).map (·.1)).Nodup := (hp.map _).nodup_iff.2 hn
  have hs := beanAll_spec hn' h a
  have hff : beanFind (ord (beanStats title ts)) a = beanFind (beanStats title ts) a := find_perm hp hn a
  rw [hff] at hs
  have hf' := hf a
  change beanFind (beanStats title ts) a = _ at hf'
  refine ⟨fun he => ?_, fun f g e1 e2 => ?_⟩
  · rw [he] at hf'
    exact hs.1 (by simpa using hf')
  · rw [e1, e2] at hf'
    obtain ⟨s1, s2, s3⟩ := hs.2 _ hf'
    refine ⟨s1, fun hb => s2 (by simpa using hb), fun hb => s3 (by simpa using hb)⟩

theorem reported_dates {srt} (hs : IsSort srt) {today} {b : Book} (hr : Reachable srt today b) :
    (reported srt b).Pairwise fun p q => p.date ≤ q.date := by
  refine (canonical_flatten_strict (c04_transactions_canonical srt hs today b hr)).imp ?_
  intro p q hpq
  rcases key_lt_iff.1 hpq with h | ⟨h, _⟩ <;> omega

theorem head_le {l : List Posting} (h : l.Pairwise fun p q => p.date ≤ q.date) {f : Posting} (hf : l.head? = some f) :
    ∀ p ∈ l, f.date ≤ p.date := by
  cases l with
  | nil => simp at hf
  | cons x l =>
    simp only [List.head?_cons, Option.some.injEq] at hf
    subst hf
    intro p hp
    rcases List.mem_cons.1 hp with rfl | hp
    · exact le_refl _
    · exact (List.pairwise_cons.1 h).1 p hp

theorem le_last {l : List Posting} (h : l.Pairwise fun p q => p.date ≤ q.date) {g : Posting} (hg : l.getLast? = some g) :
    ∀ p ∈ l, p.date ≤ g.date := by
  obtain ⟨ys, rfl⟩ := List.getLast?_eq_some_iff.1 hg
  intro p hp
  rcases List.mem_append.1 hp with hp | hp
  · exact (List.pairwise_append.1 h).2.2 p hp g (by simp)
  · simp only [List.mem_singleton] at hp; rw [hp]

/-- C65: whatever the order of the map, every account of the export is opened exactly once, on
the date of its first posting, and accounts without postings are not mentioned; an account is
closed at most once, and then on the day after its last posting. -/
theorem c65_open_close (srt : List Posting → List Posting) (hs : IsSort srt) (today : Int) (b : Book)
    (hr : Reachable srt today b) (title : Str → Str) (ord : List (Str × BeanInfo) → List (Str × BeanInfo))
    (hord : ∀ m, (ord m).Perm m) (ds : List Directive) (h : beanDirectives title ord (b.transactions srt) = some ds)
    (a : Str) :
    ((∃ p ∈ reported srt b, title p.acct = a) → ∃ d, ds.filter (·.opens a) = [.opn d a] ∧
      (∃ p ∈ reported srt b, title p.acct = a ∧ p.date = d) ∧ (∀ p ∈ reported srt b, title p.acct = a → d ≤ p.date)) ∧
    ((¬ ∃ p ∈ reported srt b, title p.acct = a) → ds.filter (·.opens a) = [] ∧ ds.filter (·.closes a) = []) ∧
    (ds.filter (·.closes a) ≠ [] → ∃ d last, ds.filter (·.closes a) = [.close d a] ∧ addDays last 1 = some d ∧
      (∃ p ∈ reported srt b, title p.acct = a ∧ p.date = last) ∧ (∀ p ∈ reported srt b, title p.acct = a → p.date ≤ last)) := by
  have hsp := directives_spec hord h a
  have hmem : ∀ p, p ∈ postsOf title a (reported srt b) ↔ p ∈ reported srt b ∧ title p.acct = a := by
    intro p; simp [postsOf]
  change (postsOf title a (reported srt b) = [] → _) ∧ (∀ f g, (postsOf title a (reported srt b)).head? = some f →
    (postsOf title a (reported srt b)).getLast? = some g → _) at hsp
  have hsort : (postsOf title a (reported srt b)).Pairwise fun p q => p.date ≤ q.date :=
    (reported_dates hs hr).sublist List.filter_sublist
  by_cases he : postsOf title a (reported srt b) = []
  · have hno : ¬ ∃ p ∈ reported srt b, title p.acct = a := by
      rintro ⟨p, h1, h2⟩
      have := (hmem p).2 ⟨h1, h2⟩
      rw [he] at this
      simp at this
    obtain ⟨e1, e2⟩ := hsp.1 he
    exact ⟨fun h => absurd h hno, fun _ => ⟨e1, e2⟩, fun h => absurd e2 h⟩
  · obtain ⟨f, hf⟩ : ∃ f, (postsOf title a (reported srt b)).head? = some f := by
      cases hl : postsOf title a (reported srt b) with
      | nil => exact absurd hl he
      | cons x xs => exact ⟨x, rfl⟩
    obtain ⟨g, hg⟩ : ∃ g, (postsOf title a (reported srt b)).getLast? = some g :=
      ⟨_, List.getLast?_eq_some_getLast he⟩
    obtain ⟨s1, s2, s3⟩ := hsp.2 f g hf hg
    have hfm := (hmem f).1 (List.mem_of_mem_head? hf)
    have hgm := (hmem g).1 (List.mem_of_getLast? hg)
    refine ⟨fun _ => ⟨f.date, s1, ⟨f, hfm.1, hfm.2, rfl⟩, fun p h1 h2 => head_le hsort hf p ((hmem p).2 ⟨h1, h2⟩)⟩,
      fun hno => absurd ⟨f, hfm⟩ hno, fun hc => ?_⟩
    by_cases hb : g.bal = 0
    · obtain ⟨d, hd, e⟩ := s3 hb
      exact ⟨d, g.date, e, hd, ⟨g, hgm.1, hgm.2, rfl⟩, fun p h1 h2 => le_last hsort hg p ((hmem p).2 ⟨h1, h2⟩)⟩
    · exact absurd (s2 hb) hc

/-- C65, what holds of the closing: an account that holds one currency, and whose name in the
export is shared with no other account, is closed exactly if it has no remaining balance. -/
theorem c65_closed_iff_zero_partial (srt : List Posting → List Posting) (hs : IsSort srt) (today : Int) (b : Book)
    (hr : Reachable srt today b) (title : Str → Str) (ord : List (Str × BeanInfo) → List (Str × BeanInfo))
    (hord : ∀ m, (ord m).Perm m) (ds : List Directive) (h : beanDirectives title ord (b.transactions srt) = some ds)
    (acct ccy : Str) (hhas : ∃ p ∈ reported srt b, p.acct = acct)
    (hname : ∀ p ∈ reported srt b, title p.acct = title acct → p.acct = acct)
    (hccy : ∀ p ∈ reported srt b, p.acct = acct → p.ccy = ccy) :
    ds.filter (·.closes (title acct)) ≠ [] ↔ acctTotal acct ccy (reported srt b) = 0 := by
  have hsp := directives_spec hord h (title acct)
  change _ ∧ (∀ f g, (postsOf title (title acct) (reported srt b)).head? = some f →
    (postsOf title (title acct) (reported srt b)).getLast? = some g → _) at hsp
  obtain ⟨p0, hp0, hpa⟩ := hhas
  have he : postsOf title (title acct) (reported srt b) ≠ [] := by
    intro he
    have : p0 ∈ postsOf title (title acct) (reported srt b) := by simp [postsOf, hp0, hpa]
    rw [he] at this
    simp at this
  obtain ⟨f, hf⟩ : ∃ f, (postsOf title (title acct) (reported srt b)).head? = some f := by
    cases hl : postsOf title (title acct) (reported srt b) with
    | nil => exact absurd hl he
    | cons x xs => exact ⟨x, rfl⟩
  obtain ⟨g, hg⟩ : ∃ g, (postsOf title (title acct) (reported srt b)).getLast? = some g :=
    ⟨_, List.getLast?_eq_some_getLast he⟩
  obtain ⟨_, s2, s3⟩ := hsp.2 f g hf hg
  have hgm : g ∈ reported srt b ∧ title g.acct = title acct := by
    have := List.mem_of_getLast? hg
    simpa [postsOf] using this
  have hga := hname g hgm.1 hgm.2
  have hgc := hccy g hgm.1 hga
  have hbal : g.bal = acctTotal acct ccy (reported srt b) := by
    -- the last posting of the account carries the total
    obtain ⟨ys, hys⟩ := List.getLast?_eq_some_iff.1 hg
    have hsplit : ∃ pre post, reported srt b = pre ++ g :: post ∧ ∀ q ∈ post, ¬ (q.acct = g.acct ∧ q.ccy = g.ccy) := by
      have key : ∀ l : List Posting, ∀ ys, postsOf title (title acct) l = ys ++ [g] →
          ∃ pre post, l = pre ++ g :: post ∧ ∀ q ∈ post, title q.acct ≠ title acct := by
        intro l
        induction l using List.reverseRecOn with
        | nil => intro ys h; simp [postsOf] at h
        | append_singleton l q ih =>
          intro ys h
          by_cases hq : title q.acct = title acct
          · have e : postsOf title (title acct) (l ++ [q]) = postsOf title (title acct) l ++ [q] := by simp [postsOf, hq]
            rw [e] at h
            obtain ⟨_, h2⟩ := List.append_inj' h rfl
            simp only [List.cons.injEq, and_true] at h2
            subst h2
            exact ⟨l, [], by simp, by simp⟩
          · have e : postsOf title (title acct) (l ++ [q]) = postsOf title (title acct) l := by simp [postsOf, hq]
            rw [e] at h
            obtain ⟨pre, post, h1, h2⟩ := ih ys h
            refine ⟨pre, post ++ [q], by rw [h1]; simp, ?_⟩
            intro x hx
            rcases List.mem_append.1 hx with hx | hx
            · exact h2 x hx
            · simp only [List.mem_singleton] at hx; rw [hx]; exact hq
      obtain ⟨pre, post, h1, h2⟩ := key _ ys hys
      exact ⟨pre, post, h1, fun q hq hqq => h2 q hq (by rw [hqq.1, hga])⟩
    obtain ⟨pre, post, h1, h2⟩ := hsplit
    have := c06_running_balances srt hs today b hr pre g post h1
    rw [this, ← hga, ← hgc]
    unfold acctTotal
    rw [h1, total_append, total_append, total_cons, total_cons,
      total_congr (l := post) (Q := fun _ => false), total_false, total_nil]
    intro q hq
    simpa using h2 q hq
  constructor
  · intro hne
    by_contra hz
    rw [← hbal] at hz
    exact hne (s2 hz)
  · intro hz
    rw [← hbal] at hz
    obtain ⟨d, _, e⟩ := s3 hz
    rw [e]
    simp

/-- The book of the counterexample: A keeps a euro, its last currency is settled. -/
def beanCalls : List Call :=
  [.newTransaction 20200101 b!"x" [], .addPosting b!"A" b!"EUR" 1 [], .addPosting b!"B" b!"EUR" (-1) [],
    .newTransaction 20200102 b!"x" [], .addPosting b!"A" b!"USD" 1 [], .addPosting b!"B" b!"USD" (-1) [],
    .newTransaction 20200103 b!"x" [], .addPosting b!"A" b!"USD" (-1) [], .addPosting b!"B" b!"USD" 1 []]

/-- C65 is false of the code: an account is closed although it still holds another currency. -/
theorem c65_closed_iff_zero_fails :
    ¬ ∀ (srt : List Posting → List Posting) (today : Int) (b : Book) (title : Str → Str)
      (ord : List (Str × BeanInfo) → List (Str × BeanInfo)) (ds : List Directive), IsSort srt → Reachable srt today b →
      (∀ m, (ord m).Perm m) → beanDirectives title ord (b.transactions srt) = some ds →
      ∀ acct d, .close d (title acct) ∈ ds → ∀ ccy, acctTotal acct ccy (reported srt b) = 0 := by
  intro h
  have hsome : ((Builder.new.calls beanCalls).bind (Builder.build insSort)).isSome = true := by decide +kernel
  obtain ⟨b, hb⟩ := Option.isSome_iff_exists.1 hsome
  obtain ⟨bb, h1, h2⟩ := Option.bind_eq_some_iff.1 hb
  have hr : Reachable insSort 0 b := ⟨beanCalls, bb, b, [], h1, h2, rfl⟩
  have e1 : ((Builder.new.calls beanCalls).bind (Builder.build insSort)).map
      (fun b => beanDirectives id id (b.transactions insSort)) =
      some (some [.opn 20200101 b!"A", .close 20200104 b!"A", .opn 20200101 b!"B", .close 20200104 b!"B"]) := by
    decide +kernel
  have e2 : ((Builder.new.calls beanCalls).bind (Builder.build insSort)).map
      (fun b => acctTotal b!"A" b!"EUR" (reported insSort b)) = some 1 := by
    decide +kernel
  rw [hb] at e1 e2
  simp only [Option.map_some, Option.some.injEq] at e1 e2
  have := h insSort 0 b id id _ insSort_isSort hr (fun m => .refl _) e1 b!"A" 20200104 (by simp) b!"EUR"
  rw [e2] at this
  exact absurd this (by norm_num)

/-- Non-vacuity: on the demo book the directives come out. -/
example : (beanDirectives id List.reverse (demoBook.transactions insSort)).isSome = true := by decide +kernel

end Verif
