import Verif.Model.Beancount
import Verif.Spec.Beancount
import Verif.Props.HtmlText
import Verif.Props.Csv

/-! # C93: the Beancount output says what the book says -/

namespace Verif
open Spec

/-! ## Lines -/

theorem lines_ne (s : Str) : lines s ≠ [] := by
  cases s with
  | nil => simp [lines]
  | cons c s =>
    unfold lines
    split
    · simp
    · split <;> simp

theorem lines_line (l s : Str) (h : 10 ∉ l) : lines (l ++ 10 :: s) = l :: lines s := by
  induction l with
  | nil =>
    simp only [List.nil_append]
    rw [lines]
    cases hs : lines s with
    | nil => exact absurd hs (lines_ne s)
    | cons a b => simp
  | cons c l ih =>
    simp only [List.mem_cons, not_or] at h
    simp only [List.cons_append]
    rw [lines, ih h.2]
    simp only
    rw [if_neg (fun e => h.1 e.symm)]

/-- Lines put together. -/
def unl (ls : List Str) : Str := ls.flatMap (· ++ [10])

theorem lines_unl (ls : List Str) (s : Str) (h : ∀ l ∈ ls, 10 ∉ l) : lines (unl ls ++ s) = ls ++ lines s := by
  induction ls with
  | nil => rfl
  | cons l ls ih =>
    have : unl (l :: ls) ++ s = l ++ 10 :: (unl ls ++ s) := by simp [unl]
    rw [this, lines_line l _ (h l (by simp)), ih fun l hl => h l (List.mem_cons_of_mem _ hl)]
    rfl

theorem unl_append (a b : List Str) : unl (a ++ b) = unl a ++ unl b := by simp [unl]

theorem entries_skip (ls : List BeanLine) (r : List BeanLine) (h : ∀ l ∈ ls, ∀ d p, l ≠ .header d p) :
    (beanEntries (ls ++ r)).1 = (beanEntries r).1 := by
  induction ls with
  | nil => rfl
  | cons l ls ih =>
    have ih := ih fun l hl => h l (List.mem_cons_of_mem _ hl)
    cases l with
    | header d p => exact absurd rfl (h _ (by simp) d p)
    | post a n c => simpa [beanEntries] using ih
    | other => simpa [beanEntries] using ih

theorem entries_other {r : List BeanLine} (posts : List (Str × Str × Str)) :
    beanEntries (posts.map (fun x => .post x.1 x.2.1 x.2.2) ++ .other :: r) = ((beanEntries r).1, posts) := by
  induction posts with
  | nil => simp [beanEntries]
  | cons x xs ih => simp only [List.map_cons, List.cons_append, beanEntries, ih]

/-! ## Words -/

theorem takeWhile_sep (a s : Str) (c : Nat) (h : c ∉ a) : (a ++ c :: s).takeWhile (· != c) = a := by
  rw [List.takeWhile_append_of_pos (by intro x hx; simp; rintro rfl; exact h hx)]
  simp

theorem dropWhile_sep (a s : Str) (c : Nat) (h : c ∉ a) : (a ++ c :: s).dropWhile (· != c) = c :: s := by
  rw [List.dropWhile_append_of_pos (by intro x hx; simp; rintro rfl; exact h hx)]
  simp

theorem word_sep (a s : Str) (h : 32 ∉ a) (hs : s.head? ≠ some 32) : word (a ++ 32 :: s) = (a, s) := by
  unfold word
  rw [takeWhile_sep a s 32 h, dropWhile_sep a s 32 h]
  congr 1
  rw [List.dropWhile_cons_of_pos (by rfl)]
  cases s with
  | nil => rfl
  | cons c s =>
    simp only [List.head?_cons, ne_eq, Option.some.injEq] at hs
    exact List.dropWhile_cons_of_neg (by simpa using hs)

theorem word_sep2 (a s : Str) (h : 32 ∉ a) (hs : s.head? ≠ some 32) : word (a ++ 32 :: 32 :: s) = (a, s) := by
  have := word_sep a s h hs
  unfold word at this ⊢
  rw [takeWhile_sep a _ 32 h, dropWhile_sep a _ 32 h] at *
  rw [Prod.mk.injEq] at this
  rw [List.dropWhile_cons_of_pos (by rfl)]
  rw [this.2]

theorem word_last (a : Str) (h : 32 ∉ a) (n : Str) : (word (a ++ noteSuffix n)).1 = a := by
  unfold word noteSuffix
  split
  · rw [List.append_nil]
    have := List.takeWhile_append_of_pos (p := (· != 32)) (l₁ := a) (l₂ := []) (by intro x hx; simp; rintro rfl; exact h hx)
    simpa using this
  · exact takeWhile_sep a _ 32 h

/-! ## Numbers and dates -/

theorem number_no {f : Fmt} (hg : GroupsDigits f.grp) (hpt : f.point = 46) (ccy : Str) (v : Rat) (x : Nat) (h : x < 44 ∨ 57 < x) : x ∉ f.number ccy v := by
  unfold Fmt.number fmtFixedAt
  simp only
  intro hm
  rcases List.mem_append.1 hm with hm | hm
  · rcases List.mem_append.1 hm with hm | hm
    · split at hm
      · simp at hm; omega
      · cases hm
    · rcases (hg _).2.1 _ hm with h | h
      · simp [digitChar] at h; omega
      · omega
  · split at hm
    · cases hm
    · rcases List.mem_cons.1 hm with hm | hm
      · omega
      · rcases List.mem_append.1 hm with hm | hm
        · have := List.eq_of_mem_replicate hm; omega
        · exact natDec_no _ _ (by omega) hm

theorem number_head {f : Fmt} (hg : GroupsDigits f.grp) (ccy : Str) (v : Rat) : f.number ccy v ≠ [] := by
  unfold Fmt.number fmtFixedAt
  simp only
  intro h
  have h1 := List.append_eq_nil_iff.1 h
  have h2 := List.append_eq_nil_iff.1 h1.1
  obtain ⟨_, _, c, r, e, _⟩ := hg (f.rd (|f.fl v| * 10 ^ (f.decs ccy).getD 2) / 10 ^ (f.decs ccy).getD 2)
  rw [e] at h2
  simp at h2

theorem dateString_no (d : Int) (x : Nat) (h : x ≠ 32) (h2 : x < 45 ∨ 57 < x) : x ∉ dateString d := by
  unfold dateString
  split
  · intro hm
    exact h (List.eq_of_mem_replicate hm)
  · simp only [List.mem_append, not_or, List.mem_singleton]
    exact ⟨⟨⟨⟨intPad_no _ _ _ (by omega) (by omega), by omega⟩, intPad_no _ _ _ (by omega) (by omega)⟩, by omega⟩,
      intPad_no _ _ _ (by omega) (by omega)⟩

theorem dateString_day {y : YMD} (h : y.Valid) : dateString y.code = slashDay y := by
  have hp := code_pos h
  obtain ⟨e1, e2, e3⟩ := code_fields h
  unfold dateString slashDay
  rw [if_neg (by omega), e1, e2, e3]

theorem dateString_space {d : Int} (h : d ≠ 0) : 32 ∉ dateString d := by
  unfold dateString
  rw [if_neg h]
  simp only [List.mem_append, not_or, List.mem_singleton]
  exact ⟨⟨⟨⟨intPad_no _ _ _ (by decide) (by decide), by decide⟩, intPad_no _ _ _ (by decide) (by decide)⟩, by decide⟩,
    intPad_no _ _ _ (by decide) (by decide)⟩

theorem noteSuffix_no (n : Str) (h : 10 ∉ n) : 10 ∉ noteSuffix n := by
  unfold noteSuffix
  split
  · simp
  · simp [h]

/-! ## The lines of the output -/

/-- The lines of a transaction. -/
def postLine (f : Fmt) (title : Str → Str) (up : Nat → Nat) (p : Posting) : Str :=
  b!"  " ++ title p.acct ++ b!"  " ++ f.number p.ccy p.val ++ [32] ++ beanCCY up p.ccy ++ noteSuffix p.note

def headLine (p : Posting) : Str := dateString p.date ++ b!" * \"" ++ p.payee ++ [34] ++ noteSuffix p.tnote

def txnLines (f : Fmt) (title : Str → Str) (up : Nat → Nat) (t : Txn) : List Str :=
  t.head?.elim [] (fun p => [headLine p]) ++ t.map (postLine f title up) ++ [[]]

theorem beanTxn_lines {f : Fmt} {title : Str → Str} {up : Nat → Nat} {t : Txn} {s : Str} (h : beanTxn f title up t = some s) :
    t ≠ [] ∧ s = unl (txnLines f title up t) := by
  unfold beanTxn at h
  split at h
  · cases h
  · rename_i p t
    simp only [Option.some.injEq] at h
    subst h
    refine ⟨by simp, ?_⟩
    have e : ∀ l : List Posting, l.flatMap (beanPosting f title up) = unl (l.map (postLine f title up)) := by
      intro l
      unfold unl
      rw [List.flatMap_map]
      rfl
    rw [e]
    unfold txnLines
    rw [unl_append, unl_append]
    simp [unl, headLine]

theorem body_lines {f : Fmt} {title : Str → Str} {up : Nat → Nat} : ∀ {ts : List Txn} {s : Str}, concatOpt (beanTxn f title up) ts = some s →
    (∀ t ∈ ts, t ≠ []) ∧ s = unl (ts.flatMap (txnLines f title up)) := by
  intro ts
  induction ts with
  | nil => intro s h; simp only [concatOpt, Option.some.injEq] at h; exact ⟨by simp, by rw [← h]; rfl⟩
  | cons t ts ih =>
    intro s h
    simp only [concatOpt, Option.bind_eq_some_iff, Option.map_eq_some_iff] at h
    obtain ⟨a, ha, b, hb, rfl⟩ := h
    obtain ⟨h1, h2⟩ := beanTxn_lines ha
    obtain ⟨h3, h4⟩ := ih hb
    refine ⟨?_, ?_⟩
    · intro t' ht'
      rcases List.mem_cons.1 ht' with rfl | ht'
      · exact h1
      · exact h3 t' ht'
    · rw [List.flatMap_cons, unl_append, ← h2, ← h4]

/-- The lines of the account directives. -/
def dirLine : Directive → Str
  | .opn d a => dateString d ++ b!" open " ++ a
  | .close d a => dateString d ++ b!" close " ++ a

theorem dir_lines (ds : List Directive) : ds.flatMap Directive.text = unl (ds.map dirLine) := by
  simp only [unl, List.flatMap_map]
  congr 1
  funext d
  cases d <;> simp [Directive.text, dirLine]

def priceLine (f : Fmt) (up : Nat → Nat) (k : Str × Str) (p : Price) : Str :=
  b!"P " ++ dateString p.date ++ b!" 00:00:00 " ++ beanCCY up k.1 ++ [32] ++ f.number k.2 p.val ++ [32] ++ beanCCY up k.2

theorem price_lines (f : Fmt) (up : Nat → Nat) (pl : List ((Str × Str) × PriceList)) :
    pl.flatMap (beanPrices f up) = unl (pl.flatMap fun kv => kv.2.map (priceLine f up kv.1)) := by
  induction pl with
  | nil => rfl
  | cons kv pl ih =>
    rw [List.flatMap_cons, List.flatMap_cons, unl_append, ih]
    congr 1
    simp [unl, List.flatMap_map, beanPrices, priceLine]

/-! ## What the lines say -/

theorem dirLine_other (d : Directive) : ∀ a b, beanLine (dirLine d) ≠ .header a b := by
  intro a b
  have go : ∀ (x : Int) (w : Str), w.take 3 ≠ b!"* \"" → beanLine (dateString x ++ 32 :: w) ≠ .header a b := by
    intro x w hw
    unfold beanLine
    by_cases hx : x = 0
    · subst hx
      simp [dateString, List.replicate]
    · split
      · simp
      · simp only
        rw [dropWhile_sep _ _ _ (dateString_space hx), if_neg]
        · simp
        · intro e
          apply hw
          simpa using e
  cases d with
  | opn x n => exact (by simpa [dirLine] using go x (b!"open " ++ n) (by simp))
  | close x n => exact (by simpa [dirLine] using go x (b!"close " ++ n) (by simp))

theorem dateString_ne (d : Int) : ∃ c r, dateString d = c :: r ∧ c ≠ 42 := by
  cases h : dateString d with
  | nil =>
    exfalso
    unfold dateString at h
    split at h
    · cases h
    · simp at h
  | cons c r =>
    refine ⟨c, r, rfl, ?_⟩
    rintro rfl
    exact dateString_no d 42 (by decide) (by decide) (by rw [h]; simp)

theorem priceLine_other (f : Fmt) (up : Nat → Nat) (k : Str × Str) (p : Price) : ∀ a b, beanLine (priceLine f up k p) ≠ .header a b := by
  intro a b
  obtain ⟨c, r, e, hc⟩ := dateString_ne p.date
  unfold beanLine priceLine
  rw [e]
  simp [List.dropWhile, hc]

theorem postLine_reads {f : Fmt} (hg : GroupsDigits f.grp) (hpt : f.point = 46) {title : Str → Str} {up : Nat → Nat} {p : Posting}
    (h : BeanText title (beanCCY up) p) :
    beanLine (postLine f title up p) = .post (title p.acct) (f.number p.ccy p.val) (beanCCY up p.ccy) := by
  unfold beanLine
  rw [if_pos (by simp [postLine])]
  have e1 : (postLine f title up p).drop 2 = title p.acct ++ 32 :: 32 :: (f.number p.ccy p.val ++ 32 :: (beanCCY up p.ccy ++ noteSuffix p.note)) := by
    simp [postLine]
  have hn : (f.number p.ccy p.val ++ 32 :: (beanCCY up p.ccy ++ noteSuffix p.note)).head? ≠ some 32 := by
    obtain ⟨c, r, e⟩ := List.exists_cons_of_ne_nil (number_head hg p.ccy p.val)
    rw [e]
    simp only [List.cons_append, List.head?_cons, ne_eq, Option.some.injEq]
    rintro rfl
    exact number_no hg hpt p.ccy p.val 32 (by decide) (by rw [e]; simp)
  have hc : (beanCCY up p.ccy ++ noteSuffix p.note).head? ≠ some 32 := by
    obtain ⟨c, r, e⟩ := List.exists_cons_of_ne_nil h.ccy.1
    rw [e]
    simp only [List.cons_append, List.head?_cons, ne_eq, Option.some.injEq]
    rintro rfl
    exact h.ccy.2.1 (by rw [e]; simp)
  simp only
  rw [e1, word_sep2 _ _ h.acct.2.1 hn]
  simp only
  rw [word_sep _ _ (number_no hg hpt _ _ 32 (by decide)) hc]
  simp only
  rw [word_last _ h.ccy.2.1]

theorem headLine_reads {p : Posting} (hd : p.date ≠ 0) (hp : 34 ∉ p.payee) : beanLine (headLine p) = .header (dateString p.date) p.payee := by
  have e : headLine p = dateString p.date ++ 32 :: (b!"* \"" ++ (p.payee ++ 34 :: noteSuffix p.tnote)) := by simp [headLine]
  unfold beanLine
  have hs := dateString_space hd
  rw [if_neg, e]
  · simp only
    rw [takeWhile_sep _ _ _ hs, dropWhile_sep _ _ _ hs, if_pos (by simp)]
    congr 1
    show (p.payee ++ 34 :: noteSuffix p.tnote).takeWhile (· != 34) = p.payee
    exact takeWhile_sep _ _ _ hp
  · intro h
    obtain ⟨c, r, e', _⟩ := dateString_ne p.date
    rw [e, e'] at h
    simp only [List.cons_append, List.take_succ_cons, List.cons.injEq] at h
    rw [e', h.1] at hs
    simp at hs

theorem txnLines_clean {f : Fmt} (hg : GroupsDigits f.grp) (hpt : f.point = 46) {title : Str → Str} {up : Nat → Nat} {t : Txn}
    (h : ∀ p ∈ t, BeanText title (beanCCY up) p) : ∀ l ∈ txnLines f title up t, 10 ∉ l := by
  intro l hl
  unfold txnLines at hl
  simp only [List.mem_append, List.mem_map, List.mem_singleton] at hl
  rcases hl with (hl | ⟨p, hp, rfl⟩) | rfl
  · cases t with
    | nil => cases hl
    | cons p t =>
      simp only [List.head?_cons, Option.elim_some, List.mem_singleton] at hl
      subst hl
      have hp := h p (by simp)
      have := dateString_no p.date 10 (by decide) (by decide)
      have := noteSuffix_no _ hp.tnote
      simp [headLine, *, hp.payee.2]
  · have hp := h p hp
    have := number_no hg hpt p.ccy p.val 10 (by decide)
    have := noteSuffix_no _ hp.note
    simp [postLine, *, hp.acct.2.2, hp.ccy.2.2]
  · simp

theorem entries_txns {f : Fmt} (hf : SoundFmt f) {title : Str → Str} {up : Nat → Nat} (R : List BeanLine)
    (hR : ∀ l ∈ R, ∀ d p, l ≠ .header d p) : ∀ (ts : List Txn), (∀ t ∈ ts, t ≠ []) →
    (∀ t ∈ ts, ∀ p ∈ t, BeanText title (beanCCY up) p ∧ FitsDecimals (decimalsOf f p.ccy) p.val) →
    (∀ t ∈ ts, ∀ p ∈ t, ∀ q ∈ t, p.date = q.date ∧ p.payee = q.payee) →
    List.Forall₂ (BeanSays title (beanCCY up)) (beanEntries ((ts.flatMap (txnLines f title up)).map beanLine ++ R)).1 ts := by
  intro ts
  induction ts with
  | nil =>
    intro _ _ _
    have := entries_skip R [] hR
    simp only [List.append_nil] at this
    simp only [List.flatMap_nil, List.map_nil, List.nil_append, this]
    exact .nil
  | cons t ts ih =>
    intro h1 h2 h3
    have ih := ih (fun t ht => h1 t (List.mem_cons_of_mem _ ht)) (fun t ht => h2 t (List.mem_cons_of_mem _ ht))
      (fun t ht => h3 t (List.mem_cons_of_mem _ ht))
    obtain ⟨p, t', rfl⟩ := List.exists_cons_of_ne_nil (h1 t (by simp))
    have hp := h2 (p :: t') (by simp) p (by simp)
    obtain ⟨y, hy, hd⟩ := hp.1.date
    have hd0 : p.date ≠ 0 := by
      have := code_pos hy
      omega
    have e : (txnLines f title up (p :: t')).map beanLine = .header (dateString p.date) p.payee ::
        (((p :: t').map fun q => (title q.acct, f.number q.ccy q.val, beanCCY up q.ccy)).map (fun x => BeanLine.post x.1 x.2.1 x.2.2) ++ [.other]) := by
      unfold txnLines
      simp only [List.head?_cons, Option.elim_some, List.map_append, List.map_map]
      rw [List.map_singleton, headLine_reads hd0 hp.1.payee.1]
      have e2 : (p :: t').map (beanLine ∘ postLine f title up) =
          (p :: t').map ((fun x => BeanLine.post x.1 x.2.1 x.2.2) ∘ fun q => (title q.acct, f.number q.ccy q.val, beanCCY up q.ccy)) := by
        apply List.map_congr_left
        intro q hq
        exact postLine_reads hf.groups hf.point (h2 (p :: t') (by simp) q hq).1
      rw [e2]
      simp [beanLine, List.take]
    rw [List.flatMap_cons, List.map_append, e, List.append_assoc, List.cons_append, List.append_assoc]
    simp only [List.singleton_append]
    rw [beanEntries, entries_other]
    refine .cons ⟨⟨y, hy, ?_, ?_⟩, ?_, ?_⟩ ih
    · intro q hq
      rw [← (h3 (p :: t') (by simp) p (by simp) q hq).1, hd]
    · simp only
      rw [hd, dateString_day hy]
    · intro q hq
      exact ((h3 (p :: t') (by simp) p (by simp) q hq).2).symm
    · simp only
      rw [List.forall₂_map_left_iff]
      apply List.forall₂_same.2
      intro q hq
      exact ⟨rfl, c94_printed_exact_partial f hf q.ccy q.val (h2 (p :: t') (by simp) q hq).2, rfl⟩

/-! ## The account directives can be written -/

theorem beanAdd_mem {a : Str} {p : Posting} {m : List (Str × BeanInfo)} {x : Str × BeanInfo} (h : x ∈ beanAdd a p m) :
    (x.1 = a ∧ x.2.last = p.date) ∨ x ∈ m := by
  induction m with
  | nil =>
    simp only [beanAdd, List.mem_singleton] at h
    subst h
    exact .inl ⟨rfl, rfl⟩
  | cons y m ih =>
    obtain ⟨k, i⟩ := y
    simp only [beanAdd] at h
    split at h
    · rename_i e
      rcases List.mem_cons.1 h with rfl | h
      · exact .inl ⟨e, rfl⟩
      · exact .inr (List.mem_cons_of_mem _ h)
    · rcases List.mem_cons.1 h with rfl | h
      · exact .inr (by simp)
      · rcases ih h with h | h
        · exact .inl h
        · exact .inr (List.mem_cons_of_mem _ h)

theorem beanStats_mem {title : Str → Str} {ts : List Txn} {x : Str × BeanInfo} (h : x ∈ beanStats title ts) :
    ∃ p ∈ ts.flatten, x.1 = title p.acct ∧ x.2.last = p.date := by
  unfold beanStats at h
  have go : ∀ (l : List Posting) (m : List (Str × BeanInfo)), x ∈ l.foldl (fun m p => beanAdd (title p.acct) p m) m →
      (∃ p ∈ l, x.1 = title p.acct ∧ x.2.last = p.date) ∨ x ∈ m := by
    intro l
    induction l with
    | nil => intro m h; exact .inr h
    | cons p l ih =>
      intro m h
      rcases ih _ h with ⟨q, hq, e⟩ | h
      · exact .inl ⟨q, List.mem_cons_of_mem _ hq, e⟩
      · rcases beanAdd_mem h with h | h
        · exact .inl ⟨p, by simp, h⟩
        · exact .inr h
  rcases go _ _ h with h | h
  · exact h
  · cases h

theorem beanAll_some (P : Str → Prop) : ∀ (m : List (Str × BeanInfo)), (∀ x ∈ m, P x.1 ∧ IsDate x.2.last) →
    ∃ ds, beanAll m = some ds ∧ ∀ d ∈ ds, (∃ x a, d = .opn x a ∧ P a) ∨ ∃ x a, d = .close x a ∧ P a := by
  intro m
  induction m with
  | nil => intro _; exact ⟨[], rfl, by simp⟩
  | cons x m ih =>
    intro h
    obtain ⟨ds, h1, h2⟩ := ih fun y hy => h y (List.mem_cons_of_mem _ hy)
    obtain ⟨hp, y, hy, hd⟩ := h x (by simp)
    have : ∃ l, beanLines x = some l ∧ ∀ d ∈ l, (∃ x a, d = .opn x a ∧ P a) ∨ ∃ x a, d = .close x a ∧ P a := by
      unfold beanLines
      split
      · rw [hd]
        have := c22_addDays_later y hy 1
        simp only [Nat.cast_one] at this
        rw [this]
        refine ⟨_, rfl, ?_⟩
        intro d hd
        simp only [List.mem_cons, List.not_mem_nil, or_false] at hd
        rcases hd with rfl | rfl
        · exact .inl ⟨_, _, rfl, hp⟩
        · exact .inr ⟨_, _, rfl, hp⟩
      · refine ⟨_, rfl, ?_⟩
        intro d hd
        simp only [List.mem_singleton] at hd
        subst hd
        exact .inl ⟨_, _, rfl, hp⟩
    obtain ⟨l, hl, hl2⟩ := this
    refine ⟨l ++ ds, by simp [beanAll, hl, h1], ?_⟩
    intro d hd
    rcases List.mem_append.1 hd with hd | hd
    · exact hl2 d hd
    · exact h2 d hd

theorem directives_some {title : Str → Str} {rccy : Str → Str} {ord : List (Str × BeanInfo) → List (Str × BeanInfo)}
    (hord : ∀ m, (ord m).Perm m) {ts : List Txn} (h : ∀ t ∈ ts, ∀ p ∈ t, BeanText title rccy p) :
    ∃ ds, beanDirectives title ord ts = some ds ∧ ∀ l ∈ ds.map dirLine, 10 ∉ l := by
  have h' : ∀ x ∈ ord (beanStats title ts), 10 ∉ x.1 ∧ IsDate x.2.last := by
    intro x hx
    obtain ⟨p, hp, e1, e2⟩ := beanStats_mem ((hord _).mem_iff.1 hx)
    obtain ⟨t, ht, hp⟩ := List.mem_flatten.1 hp
    rw [e1, e2]
    exact ⟨(h t ht p hp).acct.2.2, (h t ht p hp).date⟩
  obtain ⟨ds, h1, h2⟩ := beanAll_some (10 ∉ ·) _ h'
  refine ⟨ds, h1, ?_⟩
  intro l hl
  obtain ⟨d, hd, rfl⟩ := List.mem_map.1 hl
  rcases h2 d hd with ⟨x, a, rfl, ha⟩ | ⟨x, a, rfl, ha⟩ <;>
    (have := dateString_no x 10 (by decide) (by decide); simp [dirLine, ha, this])

theorem body_some {f : Fmt} {title : Str → Str} {up : Nat → Nat} (ts : List Txn) (h : ∀ t ∈ ts, t ≠ []) :
    ∃ s, concatOpt (beanTxn f title up) ts = some s := by
  induction ts with
  | nil => exact ⟨[], rfl⟩
  | cons t ts ih =>
    obtain ⟨s, hs⟩ := ih fun t ht => h t (List.mem_cons_of_mem _ ht)
    obtain ⟨p, t', rfl⟩ := List.exists_cons_of_ne_nil (h t (by simp))
    simp only [concatOpt, beanTxn, Option.bind_some, hs, Option.map_some]
    exact ⟨_, rfl⟩

/-! ## C93 -/

/-- Lines before the transactions, the transactions, lines after them. -/
theorem readBean_lines {f : Fmt} (hf : SoundFmt f) {title : Str → Str} {up : Nat → Nat} {ts : List Txn} (pre post : List Str)
    (hpre : ∀ l ∈ pre, 10 ∉ l ∧ ∀ d p, beanLine l ≠ .header d p) (hpost : ∀ l ∈ post, 10 ∉ l ∧ ∀ d p, beanLine l ≠ .header d p)
    (h1 : ∀ t ∈ ts, t ≠ [])
    (h2 : ∀ t ∈ ts, ∀ p ∈ t, BeanText title (beanCCY up) p ∧ FitsDecimals (decimalsOf f p.ccy) p.val)
    (h3 : ∀ t ∈ ts, ∀ p ∈ t, ∀ q ∈ t, p.date = q.date ∧ p.payee = q.payee) :
    List.Forall₂ (BeanSays title (beanCCY up)) (readBean (unl (pre ++ ts.flatMap (txnLines f title up) ++ post))) ts := by
  have hl : lines (unl (pre ++ ts.flatMap (txnLines f title up) ++ post)) = pre ++ ts.flatMap (txnLines f title up) ++ post ++ [[]] := by
    have := lines_unl (pre ++ ts.flatMap (txnLines f title up) ++ post) [] (by
      intro l hl
      simp only [List.mem_append, List.mem_flatMap] at hl
      rcases hl with (hl | ⟨t, ht, hl⟩) | hl
      · exact (hpre l hl).1
      · exact txnLines_clean hf.groups hf.point (fun p hp => (h2 t ht p hp).1) l hl
      · exact (hpost l hl).1)
    rw [List.append_nil] at this
    rw [this]
    rfl
  unfold readBean
  rw [hl, List.map_append, List.map_append, List.map_append, List.append_assoc, List.append_assoc, entries_skip]
  · exact entries_txns hf _ (by
      intro l hl d p
      rcases List.mem_append.1 hl with hl | hl
      · obtain ⟨x, hx, rfl⟩ := List.mem_map.1 hl
        exact (hpost x hx).2 d p
      · simp only [List.map_cons, List.map_nil, List.mem_singleton] at hl
        subst hl
        simp [beanLine, List.take]) ts h1 h2 h3
  · intro l hl d p
    obtain ⟨x, hx, rfl⟩ := List.mem_map.1 hl
    exact (hpre x hx).2 d p

/-- C93, the part that holds: if the texts fit on Beancount's lines and the amounts have no more decimals than are printed, the export reads
as the same transactions in the same order, with accounts and currencies renamed. -/
theorem c93_export_partial (srt : List Posting → List Posting) (hs : IsSort srt) (today : Int) (b : Book) (hr : Reachable srt today b)
    (f : Fmt) (hf : SoundFmt f) (title : Str → Str) (up : Nat → Nat) (ord : List (Str × BeanInfo) → List (Str × BeanInfo))
    (hord : ∀ m, (ord m).Perm m) (base : Str) (hbase : 10 ∉ base) (pl : List ((Str × Str) × PriceList))
    (hpl : ∀ kv ∈ pl, 10 ∉ capitals up kv.1.1 ∧ 10 ∉ capitals up kv.1.2)
    (ht : ∀ p ∈ reported srt b, BeanText title (capitals up) p ∧ FitsDecimals (decimalsOf f p.ccy) p.val) :
    ∃ text, exportBeancount f title up ord base (b.transactions srt) pl = some text ∧
      List.Forall₂ (BeanSays title (capitals up)) (readBean text) (b.transactions srt) := by
  change ∀ kv ∈ pl, 10 ∉ beanCCY up kv.1.1 ∧ 10 ∉ beanCCY up kv.1.2 at hpl
  change ∀ p ∈ reported srt b, BeanText title (beanCCY up) p ∧ _ at ht
  change ∃ text, _ ∧ List.Forall₂ (BeanSays title (beanCCY up)) (readBean text) (b.transactions srt)
  have hc := c04_transactions_canonical srt hs today b hr
  have ht' : ∀ t ∈ b.transactions srt, ∀ p ∈ t, BeanText title (beanCCY up) p ∧ FitsDecimals (decimalsOf f p.ccy) p.val :=
    fun t h p hp => ht p (List.mem_flatten.2 ⟨t, h, hp⟩)
  obtain ⟨ds, hd, hdl⟩ := directives_some hord (fun t h p hp => (ht' t h p hp).1)
  obtain ⟨body, hbody⟩ := body_some (f := f) (title := title) (up := up) (b.transactions srt) hc.nonempty
  obtain ⟨_, hb2⟩ := body_lines hbody
  refine ⟨_, by unfold exportBeancount; rw [hd, hbody]; rfl, ?_⟩
  let opt : List Str := if base = [] then [] else [b!"option \"operating_currency\" \"" ++ base ++ [34], []]
  have e : (if base = [] then [] else b!"option \"operating_currency\" \"" ++ base ++ b!"\"\n\n") ++ ds.flatMap Directive.text ++
      b!"\n; Transactions\n" ++ body ++ b!"\n; Prices\n" ++ pl.flatMap (beanPrices f up) =
      unl ((opt ++ ds.map dirLine ++ [[], b!"; Transactions"]) ++ (b.transactions srt).flatMap (txnLines f title up) ++
        ([[], b!"; Prices"] ++ pl.flatMap fun kv => kv.2.map (priceLine f up kv.1))) := by
    rw [unl_append, unl_append, unl_append, unl_append, unl_append, ← dir_lines, ← price_lines, ← hb2]
    have : unl opt = (if base = [] then [] else b!"option \"operating_currency\" \"" ++ base ++ b!"\"\n\n") := by
      unfold opt
      split
      · rfl
      · simp [unl]
    rw [this]
    simp [unl]
  beta_reduce
  rw [e]
  refine readBean_lines hf _ _ ?_ ?_ hc.nonempty ht' hc.oneTxn
  · intro l hl
    simp only [List.mem_append] at hl
    rcases hl with (hl | hl) | hl
    · unfold opt at hl
      split at hl
      · cases hl
      · simp only [List.mem_cons, List.not_mem_nil, or_false] at hl
        rcases hl with rfl | rfl
        · exact ⟨by simp [hbase], by simp [beanLine, List.dropWhile]⟩
        · exact ⟨by simp, by simp [beanLine]⟩
    · obtain ⟨d, hd, rfl⟩ := List.mem_map.1 hl
      exact ⟨hdl _ (List.mem_map_of_mem hd), dirLine_other d⟩
    · simp only [List.mem_cons, List.not_mem_nil, or_false] at hl
      rcases hl with rfl | rfl <;> exact ⟨by decide, by intro d p; simp [beanLine, List.dropWhile]⟩
  · intro l hl
    simp only [List.mem_append] at hl
    rcases hl with hl | hl
    · simp only [List.mem_cons, List.not_mem_nil, or_false] at hl
      rcases hl with rfl | rfl <;> exact ⟨by decide, by intro d p; simp [beanLine, List.dropWhile]⟩
    · obtain ⟨kv, hkv, hl⟩ := List.mem_flatMap.1 hl
      obtain ⟨p, _, rfl⟩ := List.mem_map.1 hl
      refine ⟨?_, priceLine_other f up kv.1 p⟩
      have h1 := dateString_no p.date 10 (by decide) (by decide)
      have h2 := number_no hf.groups hf.point kv.1.2 p.val 10 (by decide)
      have h3 := hpl kv hkv
      simp [priceLine, h1, h2, h3.1, h3.2]

/-- C93 for the Beancount report, which has the account directives and the transactions only. -/
theorem c93_report_partial (srt : List Posting → List Posting) (hs : IsSort srt) (today : Int) (b : Book) (hr : Reachable srt today b)
    (f : Fmt) (hf : SoundFmt f) (title : Str → Str) (up : Nat → Nat) (ord : List (Str × BeanInfo) → List (Str × BeanInfo))
    (hord : ∀ m, (ord m).Perm m)
    (ht : ∀ p ∈ reported srt b, BeanText title (capitals up) p ∧ FitsDecimals (decimalsOf f p.ccy) p.val) :
    ∃ text, reportBeancount f title up ord (b.transactions srt) = some text ∧
      List.Forall₂ (BeanSays title (capitals up)) (readBean text) (b.transactions srt) := by
  change ∀ p ∈ reported srt b, BeanText title (beanCCY up) p ∧ _ at ht
  change ∃ text, _ ∧ List.Forall₂ (BeanSays title (beanCCY up)) (readBean text) (b.transactions srt)
  have hc := c04_transactions_canonical srt hs today b hr
  have ht' : ∀ t ∈ b.transactions srt, ∀ p ∈ t, BeanText title (beanCCY up) p ∧ FitsDecimals (decimalsOf f p.ccy) p.val :=
    fun t h p hp => ht p (List.mem_flatten.2 ⟨t, h, hp⟩)
  obtain ⟨ds, hd, hdl⟩ := directives_some hord (fun t h p hp => (ht' t h p hp).1)
  obtain ⟨body, hbody⟩ := body_some (f := f) (title := title) (up := up) (b.transactions srt) hc.nonempty
  obtain ⟨_, hb2⟩ := body_lines hbody
  refine ⟨_, by unfold reportBeancount; rw [hd, hbody]; rfl, ?_⟩
  have e : ds.flatMap Directive.text ++ body = unl (ds.map dirLine ++ (b.transactions srt).flatMap (txnLines f title up) ++ []) := by
    rw [List.append_nil, unl_append, ← dir_lines, ← hb2]
  beta_reduce
  rw [e]
  refine readBean_lines hf _ _ ?_ (by simp) hc.nonempty ht' hc.oneTxn
  intro l hl
  obtain ⟨d, hd, rfl⟩ := List.mem_map.1 hl
  exact ⟨hdl _ (List.mem_map_of_mem hd), dirLine_other d⟩

/-! ## Examples and counterexamples -/

/-- `strings.Title` on English letters: a letter is capitalised if it does not follow a letter, digit or underscore. -/
def asciiTitle : Bool → Str → Str
  | _, [] => []
  | start, c :: s =>
    (if start && decide (97 ≤ c ∧ c ≤ 122) then c - 32 else c) ::
      asciiTitle (!(decide (97 ≤ c ∧ c ≤ 122) || decide (65 ≤ c ∧ c ≤ 90) || digitChar c || c == 95)) s

/-- `unicode.ToUpper` on English letters. -/
def asciiUpper (c : Nat) : Nat := if 97 ≤ c ∧ c ≤ 122 then c - 32 else c

def beanTextB (p : Posting) : Bool :=
  !p.payee.contains 34 && !p.payee.contains 10 && !p.tnote.contains 10 && !p.note.contains 10 &&
  (asciiTitle true p.acct != []) && !(asciiTitle true p.acct).contains 32 && !(asciiTitle true p.acct).contains 10 &&
  (beanCCY asciiUpper p.ccy != []) && !(beanCCY asciiUpper p.ccy).contains 32 && !(beanCCY asciiUpper p.ccy).contains 10

theorem beanTextB_ok {p : Posting} (hd : IsDate p.date) (h : beanTextB p = true) : BeanText (asciiTitle true) (beanCCY asciiUpper) p := by
  simp only [beanTextB, Bool.and_eq_true, Bool.not_eq_true', List.contains_eq_mem, decide_eq_false_iff_not, bne_iff_ne, ne_eq] at h
  obtain ⟨⟨⟨⟨⟨⟨⟨⟨⟨h1, h2⟩, h3⟩, h4⟩, h5⟩, h6⟩, h7⟩, h8⟩, h9⟩, h10⟩ := h
  exact ⟨hd, ⟨h1, h2⟩, h3, h4, ⟨h5, h6, h7⟩, ⟨h8, h9, h10⟩⟩

/-- Groceries, in cents, from an account with a lower-case name. -/
def beanTextCalls : List Call :=
  [.newTransaction 20200131 b!"Corner shop" b!"weekly", .addPosting b!"expenses:food" b!"EUR" (1234567 / 100) b!"for guests",
   .addPosting b!"Cash" b!"EUR" (-1234567 / 100) []]

/-- Non-vacuity. -/
example : Reachable insSort 0 (bookOf beanTextCalls) ∧ SoundFmt (demoFmt (bookOf beanTextCalls)) ∧
    (∀ p ∈ reported insSort (bookOf beanTextCalls), BeanText (asciiTitle true) (beanCCY asciiUpper) p ∧
      FitsDecimals (decimalsOf (demoFmt (bookOf beanTextCalls)) p.ccy) p.val) ∧
    exportBeancount (demoFmt (bookOf beanTextCalls)) (asciiTitle true) asciiUpper id b!"EUR" ((bookOf beanTextCalls).transactions insSort) [] =
      some b!"option \"operating_currency\" \"EUR\"\n\n2020/01/31 open Cash\n2020/01/31 open Expenses:Food\n\n; Transactions\n2020/01/31 * \"Corner shop\"  ; weekly\n  Cash  -12,345.67 EUR\n  Expenses:Food  12,345.67 EUR  ; for guests\n\n\n; Prices\n" := by
  refine ⟨?_, demoFmt_sound _, ?_, by decide +kernel⟩
  · obtain ⟨bb, h1, h2⟩ := bookOf_built (cs := beanTextCalls) (by decide +kernel)
    exact ⟨beanTextCalls, bb, _, [], h1, h2, rfl⟩
  · have h : ∀ p ∈ reported insSort (bookOf beanTextCalls), beanTextB p = true ∧ p.date = 20200131 ∧
        decimalsOf (demoFmt (bookOf beanTextCalls)) p.ccy = 2 ∧ (p.val * 100 = 1234567 ∨ p.val * 100 = -1234567) := by decide +kernel
    intro p hp
    obtain ⟨h1, h2, h3, h4⟩ := h p hp
    refine ⟨beanTextB_ok ⟨⟨2020, 1, 31⟩, by decide, by rw [h2]; rfl⟩ h1, ?_⟩
    rw [h3]
    rcases h4 with h | h
    · exact ⟨by decide, 1234567, by norm_num [h], by norm_num⟩
    · exact ⟨by decide, -1234567, by norm_num [h], by norm_num⟩

/-- A payee with quotes. -/
def quotedCalls : List Call :=
  [.newTransaction 20200131 b!"The \"Ritz\"" [], .addPosting b!"Exp" b!"EUR" 1 [], .addPosting b!"Cash" b!"EUR" (-1) []]

/-- C93 is false of the code: quotes in a payee are not escaped. -/
theorem c93_quote_fails : ¬ ∀ (cs : List Call) (b : Book) (text : Str), Built insSort cs b →
    exportBeancount (demoFmt b) (asciiTitle true) asciiUpper id [] (b.transactions insSort) [] = some text →
      List.Forall₂ (BeanSays (asciiTitle true) (beanCCY asciiUpper)) (readBean text) (b.transactions insSort) := by
  intro h
  obtain ⟨text, ht⟩ := Option.isSome_iff_exists.1 (by decide +kernel : (exportBeancount (demoFmt (bookOf quotedCalls)) (asciiTitle true) asciiUpper
    id [] ((bookOf quotedCalls).transactions insSort) []).isSome = true)
  have h1 := h _ _ text (bookOf_built (cs := quotedCalls) (by decide +kernel)) ht
  have h2 : (exportBeancount (demoFmt (bookOf quotedCalls)) (asciiTitle true) asciiUpper id [] ((bookOf quotedCalls).transactions insSort) []).map
      (fun t => (readBean t).map (·.payee)) = some [b!"The "] := by decide +kernel
  rw [ht] at h2
  simp only [Option.map_some, Option.some.injEq] at h2
  have h3 : ∀ t ∈ (bookOf quotedCalls).transactions insSort, ∀ p ∈ t, p.payee = b!"The \"Ritz\"" := by decide +kernel
  have h4 : ∀ t ∈ (bookOf quotedCalls).transactions insSort, t ≠ [] := by decide +kernel
  cases hr : readBean text with
  | nil => rw [hr] at h2; cases h2
  | cons e es =>
    rw [hr] at h1 h2
    cases hts : (bookOf quotedCalls).transactions insSort with
    | nil => rw [hts] at h1; cases h1
    | cons t ts =>
      rw [hts] at h1 h3 h4
      cases h1 with
      | cons hs _ =>
        obtain ⟨p, t', rfl⟩ := List.exists_cons_of_ne_nil (h4 t (by simp))
        have e1 := hs.payee p (by simp)
        rw [h3 (p :: t') (by simp) p (by simp)] at e1
        simp only [List.map_cons, List.cons.injEq] at h2
        rw [h2.1] at e1
        revert e1
        decide

/-- Two accounts and two currencies that differ in capitals only. -/
def capitalCalls : List Call :=
  [.newTransaction 20200131 b!"x" [], .addPosting b!"cash" b!"EUR" 1 [], .addPosting b!"Cash" b!"EUR" (-1) [],
   .addPosting b!"Bank" b!"eur" 1 [], .addPosting b!"Exp" b!"eur" (-1) []]

/-- C93 is false of the code: different accounts, and different currencies, can get the same name. -/
theorem c93_merged_fails :
    (¬ ∀ (cs : List Call) (b : Book), Built insSort cs b → ∀ p ∈ reported insSort b, ∀ q ∈ reported insSort b, p.acct ≠ q.acct →
      asciiTitle true p.acct ≠ asciiTitle true q.acct) ∧
    (¬ ∀ (cs : List Call) (b : Book), Built insSort cs b → ∀ p ∈ reported insSort b, ∀ q ∈ reported insSort b, p.ccy ≠ q.ccy →
      beanCCY asciiUpper p.ccy ≠ beanCCY asciiUpper q.ccy) := by
  have hb := bookOf_built (cs := capitalCalls) (by decide +kernel)
  constructor
  · intro h
    have h1 := h _ _ hb
    revert h1
    decide +kernel
  · intro h
    have h1 := h _ _ hb
    revert h1
    decide +kernel

end Verif
