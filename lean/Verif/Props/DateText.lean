import Verif.Spec.DateText
import Verif.Props.Date
import Verif.Proofs.Chars

/-! # C26: the texts that mean a day -/

namespace Verif
open Spec

theorem digits4 {ys : Str} (h : Digits 4 4 ys) : ∃ a b c d, a < 10 ∧ b < 10 ∧ c < 10 ∧ d < 10 ∧ ys = [48 + a, 48 + b, 48 + c, 48 + d] := by
  obtain ⟨h1, h2, h3⟩ := h
  have dig : ∀ c, digitChar c = true → ∃ a, a < 10 ∧ c = 48 + a := by
    intro c hc
    simp [digitChar] at hc
    exact ⟨c - 48, by omega, by omega⟩
  match ys, h1, h2, h3 with
  | [w, x, y, z], _, _, h3 =>
    obtain ⟨a, ha, rfl⟩ := dig w (h3 _ (by simp))
    obtain ⟨b, hb, rfl⟩ := dig x (h3 _ (by simp))
    obtain ⟨c, hc, rfl⟩ := dig y (h3 _ (by simp))
    obtain ⟨d, hd, rfl⟩ := dig z (h3 _ (by simp))
    exact ⟨a, b, c, d, ha, hb, hc, hd, rfl⟩
  | [], h, _, _ => simp at h
  | [_], h, _, _ => simp at h
  | [_, _], h, _, _ => simp at h
  | [_, _, _], h, _, _ => simp at h
  | _ :: _ :: _ :: _ :: _ :: _, _, h, _ => simp at h

theorem digits12 {ms : Str} (h : Digits 1 2 ms) : (∃ a, a < 10 ∧ ms = [48 + a]) ∨ ∃ a b, a < 10 ∧ b < 10 ∧ ms = [48 + a, 48 + b] := by
  obtain ⟨h1, h2, h3⟩ := h
  have dig : ∀ c, digitChar c = true → ∃ a, a < 10 ∧ c = 48 + a := by
    intro c hc
    simp [digitChar] at hc
    exact ⟨c - 48, by omega, by omega⟩
  match ms, h1, h2, h3 with
  | [x], _, _, h3 =>
    obtain ⟨a, ha, rfl⟩ := dig x (h3 _ (by simp))
    exact .inl ⟨a, ha, rfl⟩
  | [x, y], _, _, h3 =>
    obtain ⟨a, ha, rfl⟩ := dig x (h3 _ (by simp))
    obtain ⟨b, hb, rfl⟩ := dig y (h3 _ (by simp))
    exact .inr ⟨a, b, ha, hb, rfl⟩
  | [], h, _, _ => simp at h
  | _ :: _ :: _ :: _, _, h, _ => simp at h

theorem digitsVal_lt (ds : Str) (h : ∀ c ∈ ds, isDigit c = true) : digitsVal ds < 10 ^ ds.length := by
  suffices H : ∀ (ds : Str) (acc : Nat), (∀ c ∈ ds, isDigit c = true) →
      ds.foldl (fun a c => a * 10 + (c - 48)) acc + 1 ≤ (acc + 1) * 10 ^ ds.length by
    have := H ds 0 h
    unfold digitsVal
    omega
  intro ds
  induction ds with
  | nil => intro acc _; simp
  | cons c r ih =>
    intro acc h
    have h1 := ih (acc * 10 + (c - 48)) fun x hx => h x (by simp [hx])
    have h2 := h c (by simp)
    simp [isDigit] at h2
    simp only [List.foldl_cons, List.length_cons, Nat.pow_succ]
    refine h1.trans ?_
    calc (acc * 10 + (c - 48) + 1) * 10 ^ r.length ≤ ((acc + 1) * 10) * 10 ^ r.length := Nat.mul_le_mul_right _ (by omega)
      _ = (acc + 1) * (10 ^ r.length * 10) := by rw [Nat.mul_assoc, Nat.mul_comm 10]

theorem atoi0_digits {lo hi : Nat} {ds : Str} (h : Digits lo hi ds) (hlo : 1 ≤ lo) (hhi : hi ≤ 4) : atoi0 ds = numberOf ds := by
  obtain ⟨h1, h2, h3⟩ := h
  rw [digitChar_eq] at h3
  obtain ⟨c, r, rfl⟩ : ∃ c r, ds = c :: r := by
    cases ds with
    | nil => simp at h1; omega
    | cons c r => exact ⟨c, r, rfl⟩
  have hc := h3 c (by simp)
  have e1 : c ≠ 45 := by rintro rfl; revert hc; decide
  have e2 : c ≠ 43 := by rintro rfl; revert hc; decide
  have hall : (c :: r).all isDigit = true := List.all_eq_true.2 h3
  have hlt : digitsVal (c :: r) < 10 ^ (c :: r).length := digitsVal_lt _ h3
  have hp : 10 ^ (c :: r).length ≤ 10 ^ 4 := Nat.pow_le_pow_right (by omega) (by omega)
  unfold atoi0 atoi numberOf
  have hd : (if (c :: r).head? = some 45 ∨ (c :: r).head? = some 43 then (c :: r).tail else c :: r) = c :: r := by
    rw [if_neg]; simp [e1, e2]
  simp only [hd]
  have hn : ((c :: r).head? == some 45) = false := by simp [e1]
  rw [if_pos ⟨by simp, hall⟩, hn]
  simp only [Bool.false_eq_true, if_false]
  rw [if_pos (by omega)]
  rfl


theorem reYMD_sep {c : Nat} {s : Str} (h : isDigit c = false) (k : Nat) (hk : k ≤ 3) (pre : Str) (hl : pre.length = k) :
    reYMD (pre ++ c :: s) = none := by
  have : pFour (pre ++ c :: s) = [] := by
    match k, hk, pre, hl with
    | 0, _, [], _ => simp [pFour, pSeq, pDigit, h]
    | 1, _, [a], _ => by_cases ha : isDigit a <;> simp [pFour, pSeq, pDigit, h, ha]
    | 2, _, [a, b], _ => by_cases ha : isDigit a <;> by_cases hb : isDigit b <;> simp [pFour, pSeq, pDigit, h, ha, hb]
    | 3, _, [a, b, d], _ =>
      by_cases ha : isDigit a <;> by_cases hb : isDigit b <;> by_cases hd : isDigit d <;> simp [pFour, pSeq, pDigit, h, ha, hb, hd]
  simp [reYMD, this]

theorem sep_not_digit {c : Nat} (h : DateSep c) : isDigit c = false := by
  rcases h with rfl | rfl | rfl <;> decide

theorem reDMY_none_letter {c : Nat} {s : Str} (h : isDigit c = false) : reDMY (c :: s) = none := by
  simp [reDMY, pOneTwo, pSeq, pOpt, pDigit, h]

theorem reDesc_word {w sp u : Str} {k : Int} (hw : PeriodShift w k) (hsp : sp ≠ []) (hs : ∀ c ∈ sp, WordSep c)
    (hu : u = b!"year" ∨ u = b!"quarter" ∨ u = b!"month") : reDesc (w ++ sp ++ u) = some (w, u) := by
  have hw' : w = b!"this" ∨ w = b!"last" ∨ w = b!"next" := by
    rcases hw with ⟨h, _⟩ | ⟨h, _⟩ | ⟨h, _⟩ <;> simp [h]
  have hl : w.length = 4 := by rcases hw' with rfl | rfl | rfl <;> rfl
  unfold reDesc
  have e1 : (w ++ sp ++ u).take 4 = w := by rw [List.append_assoc, ← hl, List.take_left]
  have e2 : (w ++ sp ++ u).drop 4 = sp ++ u := by rw [List.append_assoc, ← hl, List.drop_left]
  simp only [e1, e2]
  have hp : ∀ c ∈ sp, (decide (c = 46) || decide (c = 95) || decide (c = 32) || decide (c = 9)) = true := by
    intro c hc
    rcases hs c hc with h | h | h | h <;> simp [h]
  have hu0 : u.takeWhile (fun c => decide (c = 46) || decide (c = 95) || decide (c = 32) || decide (c = 9)) = [] := by
    rcases hu with rfl | rfl | rfl <;> decide
  have hu1 : u.dropWhile (fun c => decide (c = 46) || decide (c = 95) || decide (c = 32) || decide (c = 9)) = u := by
    rcases hu with rfl | rfl | rfl <;> decide
  rw [List.takeWhile_append_of_pos hp, List.dropWhile_append_of_pos hp, hu0, hu1, List.append_nil]
  rw [if_pos ⟨hw', hsp, by rcases hu with h | h | h <;> simp [h]⟩]

/-- C26: every text that means a real day — `yyyy`, `yyyy-mm`, `yyyy-mm-dd`, `dd-mm-yyyy` with any of the separators, or the
relative words — is read as that day.  Missing for the full claim: text that names no day is not refused
(`c26_invalid_date_accepted_fails`). -/
theorem c26_means_partial (t : YMD) (ht : t.Valid) (s : Str) (d : YMD) (hm : MeansDay t s d) (hd : d.Valid) :
    dateFromString t.code s = d.code := by
  cases hm with
  | year ys hy =>
    have e := atoi0_digits hy (by omega) (by omega)
    obtain ⟨a, b, c, d, ha, hb, hc, hd, rfl⟩ := digits4 hy
    have : reYMD [48 + a, 48 + b, 48 + c, 48 + d] = some ([48 + a, 48 + b, 48 + c, 48 + d], [], []) := by
      simp [reYMD, pFour, pSeq, pDigit, pOpt, pSep, pOneTwo, isDigit_add, *]
    unfold dateFromString
    rw [this]
    simp only [e]
    simp [atoi0, atoi, YMD.code]
  | month ys sp ms hy hs hmm =>
    have e := atoi0_digits hy (by omega) (by omega)
    have e' := atoi0_digits hmm (by omega) (by omega)
    have hm0 : numberOf ms ≠ 0 := by have := hd.2.1; simp at this; omega
    have : reYMD (ys ++ sp :: ms) = some (ys, ms, []) := by
      obtain ⟨a, b, c, d, ha, hb, hc, hd, rfl⟩ := digits4 hy
      rcases digits12 hmm with ⟨x, hx, rfl⟩ | ⟨x, y, hx, hy, rfl⟩ <;>
      simp [reYMD, pFour, pSeq, pDigit, pOpt, pSep, pOneTwo, isDigit_add, sep_not_digit hs, show sp = 45 ∨ sp = 47 ∨ sp = 46 from hs, *]
    unfold dateFromString
    rw [this]
    simp only [e, e']
    simp [atoi0, atoi, YMD.code, hm0]
  | ymd ys s1 ms s2 ds hy hs1 hmm hs2 hdd =>
    have e := atoi0_digits hy (by omega) (by omega)
    have e' := atoi0_digits hmm (by omega) (by omega)
    have e'' := atoi0_digits hdd (by omega) (by omega)
    have hm0 : numberOf ms ≠ 0 := by have := hd.2.1; simp at this; omega
    have hd0 : numberOf ds ≠ 0 := by have := hd.2.2.2.1; simp at this; omega
    have : reYMD (ys ++ s1 :: ms ++ s2 :: ds) = some (ys, ms, ds) := by
      obtain ⟨a, b, c, d, ha, hb, hc, hd, rfl⟩ := digits4 hy
      rcases digits12 hmm with ⟨x, hx, rfl⟩ | ⟨x, y, hx, hy, rfl⟩ <;> rcases digits12 hdd with ⟨x', hx', rfl⟩ | ⟨x', y', hx', hy', rfl⟩ <;>
      simp [reYMD, pFour, pSeq, pDigit, pOpt, pSep, pOneTwo, isDigit_add, sep_not_digit hs1, sep_not_digit hs2,
        show s1 = 45 ∨ s1 = 47 ∨ s1 = 46 from hs1, show s2 = 45 ∨ s2 = 47 ∨ s2 = 46 from hs2, *]
    unfold dateFromString
    rw [this]
    simp only [e, e', e'', if_neg hm0, if_neg hd0]
    rfl
  | dmy ds s1 ms s2 ys hdd hs1 hmm hs2 hy =>
    have e := atoi0_digits hy (by omega) (by omega)
    have e' := atoi0_digits hmm (by omega) (by omega)
    have e'' := atoi0_digits hdd (by omega) (by omega)
    have h0 : reYMD (ds ++ s1 :: ms ++ s2 :: ys) = none := by
      rw [List.append_assoc, List.cons_append]
      exact reYMD_sep (sep_not_digit hs1) ds.length (by have := hdd.2.1; omega) ds rfl
    have : reDMY (ds ++ s1 :: ms ++ s2 :: ys) = some (ds, ms, ys) := by
      obtain ⟨a, b, c, d, ha, hb, hc, hd, rfl⟩ := digits4 hy
      rcases digits12 hmm with ⟨x, hx, rfl⟩ | ⟨x, y, hx, hy, rfl⟩ <;> rcases digits12 hdd with ⟨x', hx', rfl⟩ | ⟨x', y', hx', hy', rfl⟩ <;>
      simp [reDMY, pFour, pSeq, pDigit, pOpt, pSep, pOneTwo, isDigit_add, sep_not_digit hs1, sep_not_digit hs2,
        show s1 = 45 ∨ s1 = 47 ∨ s1 = 46 from hs1, show s2 = 45 ∨ s2 = 47 ∨ s2 = 46 from hs2, *]
    unfold dateFromString
    rw [h0, this]
    simp only [e, e', e'']
    rfl
  | relative w sp u k d hw hsp hs hf =>
    obtain ⟨n, hu, h1, hm1, hm2, hq⟩ := hf
    have hu' : u = b!"year" ∨ u = b!"quarter" ∨ u = b!"month" := by
      rcases hu with ⟨h, _⟩ | ⟨h, _⟩ | ⟨h, _⟩ <;> simp [h]
    have h2 := reDesc_word hw hsp hs hu'
    obtain ⟨c, r, hc, hdig⟩ : ∃ c r, w ++ sp ++ u = c :: r ∧ isDigit c = false := by
      rcases hw with ⟨h, _⟩ | ⟨h, _⟩ | ⟨h, _⟩ <;> subst h <;> exact ⟨_, _, rfl, by decide⟩
    have h3 : reYMD (w ++ sp ++ u) = none := by rw [hc]; exact reYMD_sep hdig 0 (by omega) [] rfl
    have h4 : reDMY (w ++ sp ++ u) = none := by rw [hc]; exact reDMY_none_letter hdig
    have hk : (if w = b!"last" then (-1 : Int) else if w = b!"next" then 1 else 0) = k := by
      rcases hw with ⟨h, h'⟩ | ⟨h, h'⟩ | ⟨h, h'⟩ <;> subst h <;> subst h' <;> decide
    unfold dateFromString
    rw [h3, h4, h2]
    simp only [hk]
    obtain ⟨b1, b2, b3, b4, b5⟩ := ht
    have hv : t.Valid := ⟨b1, b2, b3, b4, b5⟩
    rcases hu with ⟨h, h'⟩ | ⟨h, h'⟩ | ⟨h, h'⟩ <;> subst h <;> subst h'
    · rw [if_pos rfl, floorYear_code hv]; simp only [YMD.code]; omega
    · rw [if_neg (by decide), if_pos rfl, floorQuarter_code hv]; simp only [YMD.code]; omega
    · rw [if_neg (by decide), if_neg (by decide), floorMonth_code hv]; simp only [YMD.code]; omega

theorem pat_digit {s : Str} {r : Str × Str} (h : r ∈ pDigit s) : s = r.1 ++ r.2 ∧ Figures r.1 := by
  cases s with
  | nil => simp [pDigit] at h
  | cons c cs =>
    by_cases hc : isDigit c
    · simp [pDigit, hc] at h
      subst h
      exact ⟨rfl, by intro x hx; simp at hx; subst hx; exact .inl (by rw [digitChar_eq]; exact hc)⟩
    · simp [pDigit, hc] at h

theorem pat_sep {s : Str} {r : Str × Str} (h : r ∈ pSep s) : s = r.1 ++ r.2 ∧ Figures r.1 := by
  cases s with
  | nil => simp [pSep] at h
  | cons c cs =>
    by_cases hc : c = 45 ∨ c = 47 ∨ c = 46
    · simp [pSep, hc] at h
      subst h
      exact ⟨rfl, by intro x hx; simp at hx; subst hx; exact .inr hc⟩
    · simp [pSep, hc] at h

theorem pat_opt {p : Pat Str} (hp : ∀ s r, r ∈ p s → s = r.1 ++ r.2 ∧ Figures r.1) {s : Str} {r : Str × Str} (h : r ∈ pOpt p s) :
    s = r.1 ++ r.2 ∧ Figures r.1 := by
  simp [pOpt] at h
  rcases h with h | h
  · exact hp s r h
  · subst h; exact ⟨rfl, by intro x hx; simp at hx⟩

theorem pat_seq {p q : Pat Str} (hp : ∀ s r, r ∈ p s → s = r.1 ++ r.2 ∧ Figures r.1)
    (hq : ∀ s r, r ∈ q s → s = r.1 ++ r.2 ∧ Figures r.1) {s : Str} {r : Str × Str} (h : r ∈ pSeq p q s) :
    s = r.1 ++ r.2 ∧ Figures r.1 := by
  simp only [pSeq, List.mem_flatMap, List.mem_map] at h
  obtain ⟨x, hx, y, hy, rfl⟩ := h
  obtain ⟨e1, f1⟩ := hp _ _ hx
  obtain ⟨e2, f2⟩ := hq _ _ hy
  refine ⟨by simp [e1, e2], ?_⟩
  intro c hc
  rcases List.mem_append.1 hc with h | h
  · exact f1 c h
  · exact f2 c h

theorem pat_oneTwo (s : Str) (r : Str × Str) (h : r ∈ pOneTwo s) : s = r.1 ++ r.2 ∧ Figures r.1 :=
  pat_seq (fun _ _ h => pat_opt (fun _ _ h => pat_digit h) h) (fun _ _ h => pat_digit h) h

theorem pat_four (s : Str) (r : Str × Str) (h : r ∈ pFour s) : s = r.1 ++ r.2 ∧ Figures r.1 :=
  pat_seq (fun _ _ h => pat_digit h) (fun _ _ h => pat_seq (fun _ _ h => pat_digit h)
    (fun _ _ h => pat_seq (fun _ _ h => pat_digit h) (fun _ _ h => pat_digit h) h) h) h

theorem figures_append {a b : Str} (ha : Figures a) (hb : Figures b) : Figures (a ++ b) := by
  intro c hc
  rcases List.mem_append.1 hc with h | h
  · exact ha c h
  · exact hb c h

theorem reYMD_figures {s : Str} {x : Str × Str × Str} (h : reYMD s = some x) : Figures s := by
  simp only [reYMD, Option.map_eq_some_iff] at h
  obtain ⟨r, hr, _⟩ := h
  have hm := List.mem_of_find?_eq_some hr
  have he := List.find?_some hr
  simp only [List.mem_flatMap, List.mem_map] at hm
  obtain ⟨y, hy, s1, h1, m, hm, s2, h2, d, hd, rfl⟩ := hm
  simp at he
  obtain ⟨e1, f1⟩ := pat_four _ _ hy
  obtain ⟨e2, f2⟩ := pat_opt (fun _ _ h => pat_sep h) h1
  obtain ⟨e3, f3⟩ := pat_opt pat_oneTwo hm
  obtain ⟨e4, f4⟩ := pat_opt (fun _ _ h => pat_sep h) h2
  obtain ⟨e5, f5⟩ := pat_opt pat_oneTwo hd
  rw [e1, e2, e3, e4, e5, he, List.append_nil]
  exact figures_append f1 (figures_append f2 (figures_append f3 (figures_append f4 f5)))

theorem reDMY_figures {s : Str} {x : Str × Str × Str} (h : reDMY s = some x) : Figures s := by
  simp only [reDMY, Option.map_eq_some_iff] at h
  obtain ⟨r, hr, _⟩ := h
  have hm := List.mem_of_find?_eq_some hr
  have he := List.find?_some hr
  simp only [List.mem_flatMap, List.mem_map] at hm
  obtain ⟨y, hy, s1, h1, m, hm, s2, h2, d, hd, rfl⟩ := hm
  simp at he
  obtain ⟨e1, f1⟩ := pat_oneTwo _ _ hy
  obtain ⟨e2, f2⟩ := pat_opt (fun _ _ h => pat_sep h) h1
  obtain ⟨e3, f3⟩ := pat_oneTwo _ _ hm
  obtain ⟨e4, f4⟩ := pat_opt (fun _ _ h => pat_sep h) h2
  obtain ⟨e5, f5⟩ := pat_four _ _ hd
  rw [e1, e2, e3, e4, e5, he, List.append_nil]
  exact figures_append f1 (figures_append f2 (figures_append f3 (figures_append f4 f5)))

/-- C26, the refusals that happen: text that is neither figures and separators, nor a number with a sign, nor the words for a period,
gives 0. -/
theorem c26_refused_partial (today : Int) (s : Str) (h : dateFromString today s ≠ 0) : Figures s ∨ Number s ∨ PeriodWords s := by
  unfold dateFromString at h
  cases h1 : reYMD s with
  | some x => exact .inl (reYMD_figures h1)
  | none =>
    cases h2 : reDMY s with
    | some x => exact .inl (reDMY_figures h2)
    | none =>
      cases h3 : reDesc s with
      | some x =>
        right; right
        unfold reDesc at h3
        simp only at h3
        split at h3
        · rename_i hc
          obtain ⟨hw, hsp, hu⟩ := hc
          refine ⟨_, _, _, ?_, by rcases hw with h | h | h; exacts [.inr (.inl h), .inl h, .inr (.inr h)], hsp, ?_,
            by rcases hu with h | h | h; exacts [.inr (.inr h), .inl h, .inr (.inl h)]⟩
          · rw [List.append_assoc, List.takeWhile_append_dropWhile, List.take_append_drop]
          · intro c hc
            have := List.all_eq_true.1 List.all_takeWhile c hc
            simp only [Bool.or_eq_true, decide_eq_true_eq] at this
            rcases this with ((h | h) | h) | h <;> simp [WordSep, h]
        · simp at h3
      | none =>
        rw [h1, h2, h3] at h
        simp only at h
        right; left
        cases h4 : atoi s with
        | none => rw [h4] at h; simp at h
        | some v =>
          unfold atoi at h4
          simp only at h4
          by_cases hc : (if s.head? = some 45 ∨ s.head? = some 43 then s.tail else s) ≠ [] ∧
              (if s.head? = some 45 ∨ s.head? = some 43 then s.tail else s).all isDigit = true
          · obtain ⟨hne, hall⟩ := hc
            have key : ∀ ds : Str, ds ≠ [] → ds.all isDigit = true → Digits 1 ds.length ds := fun ds a b =>
              ⟨by cases ds <;> simp at a ⊢, Nat.le_refl _, fun c hc => by rw [digitChar_eq]; exact List.all_eq_true.1 b c hc⟩
            cases s with
            | nil => simp at hne
            | cons c r =>
              by_cases hsg : c = 45 ∨ c = 43
              · have e : (if (c :: r).head? = some 45 ∨ (c :: r).head? = some 43 then (c :: r).tail else c :: r) = r := by
                  rw [if_pos (by simpa using hsg)]; rfl
                rw [e] at hne hall
                exact ⟨r, key r hne hall, by rcases hsg with h | h <;> simp [h]⟩
              · have e : (if (c :: r).head? = some 45 ∨ (c :: r).head? = some 43 then (c :: r).tail else c :: r) = c :: r := by
                  rw [if_neg (by simpa using hsg)]
                rw [e] at hne hall
                exact ⟨c :: r, key _ hne hall, .inl rfl⟩
          · rw [if_neg hc] at h4; simp at h4

/-- The hypotheses are met, and the refusal happens. -/
example : MeansDay ⟨2020, 2, 29⟩ b!"7.11-2021" ⟨2021, 11, 7⟩ ∧ MeansDay ⟨2020, 2, 29⟩ b!"2021/3" ⟨2021, 3, 1⟩ ∧
    MeansDay ⟨2020, 2, 29⟩ b!"last._quarter" ⟨2019, 10, 1⟩ ∧ dateFromString 20200229 b!"7.11-2021" = 20211107 ∧
    dateFromString 20200229 b!"2021/3" = 20210301 ∧ dateFromString 20200229 b!"last._quarter" = 20191001 ∧
    dateFromString 20200229 b!"3 March" = 0 ∧ dateFromString 20200229 b!"last week" = 0 := by
  have dg : ∀ (ds : Str) (lo hi : Nat), lo ≤ ds.length → ds.length ≤ hi → ds.all digitChar = true → Digits lo hi ds :=
    fun ds lo hi a b c => ⟨a, b, List.all_eq_true.1 c⟩
  refine ⟨.dmy b!"7" 46 b!"11" 45 b!"2021" (dg _ _ _ ?_ ?_ ?_) (.inr (.inr rfl)) (dg _ _ _ ?_ ?_ ?_) (.inl rfl) (dg _ _ _ ?_ ?_ ?_),
    .month b!"2021" 47 b!"3" (dg _ _ _ ?_ ?_ ?_) (.inr (.inl rfl)) (dg _ _ _ ?_ ?_ ?_),
    .relative b!"last" b!"._" b!"quarter" (-1) _ (.inl ⟨rfl, rfl⟩) (by decide) ?_ ⟨3, .inr (.inl ⟨rfl, rfl⟩), by decide, by decide, by decide, by decide⟩, ?_⟩
  all_goals try decide +kernel
  intro c hc
  have : c = 46 ∨ c = 95 := by simpa using hc
  rcases this with h | h <;> simp [WordSep, h]

end Verif
