import Verif.Spec.Print

/-! # C62, C63: padding and columns -/

namespace Verif
open Spec

/-! ## C62 -/

theorem skip_take_ansi {body : List Nat} (h : 109 ∉ body) (s : List Nat) :
    skipAnsi (body ++ 109 :: s) = s ∧ takeAnsi (body ++ 109 :: s) = body ++ [109] := by
  induction body with
  | nil => simp [skipAnsi, takeAnsi]
  | cons x xs ih =>
    simp only [List.mem_cons, not_or] at h
    have := ih h.2
    simp [skipAnsi, takeAnsi, Ne.symm h.1, this]

theorem skip_take_open {body : List Nat} (h : 109 ∉ body) : skipAnsi body = [] ∧ takeAnsi body = body := by
  induction body with
  | nil => simp [skipAnsi, takeAnsi]
  | cons x xs ih =>
    simp only [List.mem_cons, not_or] at h
    have := ih h.2
    simp [skipAnsi, takeAnsi, Ne.symm h.1, this]

theorem runesOf_cons (t : Tok) (ts : List Tok) : runesOf (t :: ts) = t.runes ++ runesOf ts := by
  simp [runesOf]

theorem strLength_tok (prt : Nat → Bool) {t : Tok} (ht : t.Ok) (s : List Nat) :
    strLength prt (t.runes ++ s) = (if t.visible prt then 1 else 0) + strLength prt s := by
  cases t with
  | esc body =>
    simp only [Tok.runes, Tok.visible, List.cons_append, List.append_assoc, List.nil_append]
    rw [strLength]
    simp [(skip_take_ansi ht s).1]
  | chr r =>
    have hr : r ≠ 27 := ht
    simp only [Tok.runes, Tok.visible, List.cons_append, List.nil_append]
    rw [strLength]
    simp only [hr, if_false]
    by_cases h1 : prt r = true
    · simp [h1]
    · by_cases h2 : r = 9
      · simp [h2]
      · simp [h1, h2]

theorem strLength_append (prt : Nat → Bool) {ts : List Tok} (h : ∀ t ∈ ts, t.Ok) (s : List Nat) :
    strLength prt (runesOf ts ++ s) = visibleCount prt ts + strLength prt s := by
  induction ts with
  | nil => simp [runesOf, visibleCount]
  | cons t ts ih =>
    rw [runesOf_cons, List.append_assoc, strLength_tok prt (h t (by simp)), ih fun x hx => h x (by simp [hx])]
    simp only [visibleCount, List.filter_cons]
    split <;> simp <;> omega

/-- The places a terminated string takes up are its visible characters. -/
theorem strLength_runes (prt : Nat → Bool) {ts : List Tok} (h : ∀ t ∈ ts, t.Ok) :
    strLength prt (runesOf ts) = visibleCount prt ts := by
  have := strLength_append prt h []
  simpa [strLength] using this

theorem padLoop_tok (prt : Nat → Bool) (max count : Int) {t : Tok} (ht : t.Ok) (s : List Nat) :
    padLoop prt max count (t.runes ++ s) =
      (match t with
        | .esc body => (Tok.runes (.esc body) ++ (padLoop prt max count s).1, (padLoop prt max count s).2)
        | .chr r =>
          if prt r || r == 9 then
            (if count + 1 ≤ max then (if r = 9 then 32 else r) :: (padLoop prt max (count + 1) s).1
              else (padLoop prt max (count + 1) s).1, (padLoop prt max (count + 1) s).2)
          else padLoop prt max count s) := by
  cases t with
  | esc body =>
    simp only [Tok.runes, List.cons_append, List.append_assoc, List.nil_append]
    rw [padLoop]
    simp [(skip_take_ansi ht s).1, (skip_take_ansi ht s).2]
  | chr r =>
    have hr : r ≠ 27 := ht
    simp only [Tok.runes, List.cons_append, List.nil_append]
    rw [padLoop]
    simp only [hr, if_false]
    by_cases h1 : prt r = true
    · simp [h1]
    · by_cases h2 : r = 9
      · simp [h2]
      · simp [h1, h2]

theorem padLoop_runes (prt : Nat → Bool) {ts : List Tok} (h : ∀ t ∈ ts, t.Ok) (max count : Int) (s : List Nat) :
    padLoop prt max count (runesOf ts ++ s) =
      (runesOf (clip prt (max - count).toNat ts) ++ (padLoop prt max (count + visibleCount prt ts) s).1,
        (padLoop prt max (count + visibleCount prt ts) s).2) := by
  induction ts generalizing count with
  | nil => simp [runesOf, clip, visibleCount]
  | cons t ts ih =>
    have ih' := fun c => ih (fun x hx => h x (by simp [hx])) c
    rw [runesOf_cons, List.append_assoc, padLoop_tok prt max count (h t (by simp))]
    cases t with
    | esc body =>
      simp only [ih', clip, runesOf_cons, List.append_assoc]
      have : visibleCount prt (.esc body :: ts) = visibleCount prt ts := by simp [visibleCount, Tok.visible]
      rw [this]
    | chr r =>
      by_cases hv : (prt r || r == 9) = true
      · have : visibleCount prt (.chr r :: ts) = visibleCount prt ts + 1 := by
          simp only [visibleCount, Tok.visible, List.filter_cons, hv, if_true, List.length_cons]
        rw [this]
        simp only [hv, if_true, ih', clip]
        have e1 : count + 1 + (visibleCount prt ts : Int) = count + ((visibleCount prt ts + 1 : Nat) : Int) := by
          push_cast; ring
        rw [e1]
        by_cases hc : count + 1 ≤ max
        · obtain ⟨k, hk⟩ : ∃ k, (max - count).toNat = k + 1 := ⟨(max - count).toNat - 1, by omega⟩
          have hk' : (max - (count + 1)).toNat = k := by omega
          rw [hk]
          simp [hc, runesOf_cons, Tok.runes, hk']
        · have hk : (max - count).toNat = 0 := by omega
          have hk' : (max - (count + 1)).toNat = 0 := by omega
          rw [hk]
          simp [hc, hk']
      · have : visibleCount prt (.chr r :: ts) = visibleCount prt ts := by
          simp only [visibleCount, Tok.visible, List.filter_cons, hv]
          simp
        rw [this]
        simp only [hv, ih', clip]
        simp

theorem clip_ok (prt : Nat → Bool) {ts : List Tok} (h : ∀ t ∈ ts, t.Ok) (n : Nat) : ∀ t ∈ clip prt n ts, t.Ok := by
  induction ts generalizing n with
  | nil => simp [clip]
  | cons t ts ih =>
    have ih' := fun n => ih (fun x hx => h x (by simp [hx])) n
    cases t with
    | esc b =>
      simp only [clip, List.mem_cons, forall_eq_or_imp]
      exact ⟨h _ (by simp), ih' n⟩
    | chr r =>
      simp only [clip]
      split
      · cases n with
        | zero => exact ih' 0
        | succ n =>
          simp only [List.mem_cons, forall_eq_or_imp]
          refine ⟨?_, ih' n⟩
          have hr : r ≠ 27 := h (.chr r) (by simp)
          show (if r = 9 then 32 else r) ≠ 27
          split <;> simp [hr]
      · exact ih' n

theorem clip_count (prt : Nat → Bool) (hsp : prt 32 = true) (ts : List Tok) (n : Nat) :
    visibleCount prt (clip prt n ts) = min n (visibleCount prt ts) := by
  induction ts generalizing n with
  | nil => simp [clip, visibleCount]
  | cons t ts ih =>
    cases t with
    | esc b =>
      have h1 : ∀ l, visibleCount prt (.esc b :: l) = visibleCount prt l := by
        intro l; simp [visibleCount, Tok.visible]
      simp only [clip, h1, ih]
    | chr r =>
      have h1 : ∀ q l, visibleCount prt (.chr q :: l) = visibleCount prt l + (if prt q || q == 9 then 1 else 0) := by
        intro q l
        show ((Tok.chr q :: l).filter (Tok.visible prt)).length = _
        rw [List.filter_cons]
        by_cases hq : (prt q || q == 9) = true
        · rw [if_pos hq, if_pos (show Tok.visible prt (.chr q) = true from hq)]; simp [visibleCount]
        · rw [if_neg hq, if_neg (show ¬ Tok.visible prt (.chr q) = true from hq)]; simp [visibleCount]
      simp only [clip]
      split
      · next hv =>
        rw [h1, if_pos hv]
        cases n with
        | zero => simp [ih]
        | succ n =>
          simp only
          rw [h1, ih]
          have : (prt (if r = 9 then 32 else r) || (if r = 9 then 32 else r) == 9) = true := by
            by_cases h9 : r = 9
            · simp [h9, hsp]
            · simpa [h9] using hv
          rw [if_pos this]
          omega
      · next hv => rw [h1, if_neg hv, ih]; simp

theorem spaces_tok (n : Nat) : List.replicate n 32 = runesOf (List.replicate n (.chr 32)) ∧
    (∀ t ∈ List.replicate n (Tok.chr 32), t.Ok) := by
  constructor
  · induction n with
    | zero => rfl
    | succ n ih => rw [List.replicate_succ, List.replicate_succ, runesOf_cons, ← ih]; rfl
  · intro t ht
    rw [List.eq_of_mem_replicate ht]
    show (32 : Nat) ≠ 27
    decide

theorem visibleCount_spaces (prt : Nat → Bool) (hsp : prt 32 = true) (n : Nat) :
    visibleCount prt (List.replicate n (.chr 32)) = n := by
  simp [visibleCount, List.filter_replicate, Tok.visible, hsp]

/-- C62: `PadString` on a string with terminated escape sequences: the first `w` visible
characters with all escape sequences intact, and spaces up to the width on the asked side. -/
theorem c62_padString_exact (prt : Nat → Bool) (ts : List Tok) (h : ∀ t ∈ ts, t.Ok) (w : Nat) (left : Bool) :
    padString prt (runesOf ts) w left =
      (if left then runesOf (clip prt w ts) ++ List.replicate (w - visibleCount prt ts) 32
        else List.replicate (w - visibleCount prt ts) 32 ++ runesOf (clip prt w ts)) := by
  have hp := padLoop_runes prt h w 0 []
  simp only [List.append_nil, padLoop, Int.sub_zero, Int.toNat_natCast, Int.zero_add] at hp
  unfold padString
  rw [hp]
  simp only
  by_cases hc : (visibleCount prt ts : Int) ≥ w
  · have h0 : w - visibleCount prt ts = 0 := by omega
    rw [if_pos hc, h0]
    cases left <;> simp
  · have h0 : ((w : Int) - visibleCount prt ts).toNat = w - visibleCount prt ts := by omega
    rw [if_neg hc, h0]

theorem padString_terminated (prt : Nat → Bool) (hsp : prt 32 = true) {s : List Nat} (hs : Terminated s) (w : Nat)
    (left : Bool) : ∃ ts, (∀ t ∈ ts, t.Ok) ∧ padString prt s w left = runesOf ts ∧ visibleCount prt ts = w := by
  obtain ⟨ts, h, rfl⟩ := hs
  have hsps := spaces_tok (w - visibleCount prt ts)
  have hcnt := clip_count prt hsp ts w
  have hv := visibleCount_spaces prt hsp (w - visibleCount prt ts)
  have happ : ∀ a b, visibleCount prt (a ++ b) = visibleCount prt a + visibleCount prt b := by
    intro a b; simp [visibleCount]
  have hr : ∀ a b, runesOf (a ++ b) = runesOf a ++ runesOf b := by intro a b; simp [runesOf]
  rw [c62_padString_exact prt ts h]
  cases left with
  | true =>
    refine ⟨clip prt w ts ++ List.replicate (w - visibleCount prt ts) (.chr 32), ?_, ?_, ?_⟩
    · intro t ht
      rcases List.mem_append.1 ht with ht | ht
      · exact clip_ok prt h w t ht
      · exact hsps.2 t ht
    · simp [hr, ← hsps.1]
    · rw [happ, hcnt, hv]; omega
  | false =>
    refine ⟨List.replicate (w - visibleCount prt ts) (.chr 32) ++ clip prt w ts, ?_, ?_, ?_⟩
    · intro t ht
      rcases List.mem_append.1 ht with ht | ht
      · exact hsps.2 t ht
      · exact clip_ok prt h w t ht
    · simp [hr, ← hsps.1]
    · rw [happ, hcnt, hv]; omega

/-- C62: the padded string takes up exactly `w` places. -/
theorem c62_width (prt : Nat → Bool) (hsp : prt 32 = true) (s : List Nat) (hs : Terminated s) (w : Nat) (left : Bool) :
    strLength prt (padString prt s w left) = w := by
  obtain ⟨ts, h, e, hc⟩ := padString_terminated prt hsp hs w left
  rw [e, strLength_runes prt h, hc]

/-- Every string is characters and terminated escape sequences, possibly followed by one that
is not terminated. -/
theorem tokens_exist (s : List Nat) : ∃ ts tail, (∀ t ∈ ts, Tok.Ok t) ∧ s = runesOf ts ++ tail ∧
    (tail = [] ∨ ∃ body, tail = 27 :: body ∧ 109 ∉ body) := by
  induction hn : s.length using Nat.strong_induction_on generalizing s with
  | _ n ih =>
    cases s with
    | nil => exact ⟨[], [], by simp, rfl, .inl rfl⟩
    | cons r rs =>
      by_cases hr : r = 27
      · subst hr
        by_cases hm : 109 ∈ rs
        · obtain ⟨body, rest, rfl, hb⟩ := List.append_of_mem hm |>.elim fun a h => h.elim fun b h => by
            have := List.eq_append_cons_of_mem hm
            obtain ⟨a', b', h1, h2⟩ := this
            exact (⟨a', b', h1, h2⟩ : ∃ body rest, rs = body ++ 109 :: rest ∧ 109 ∉ body)
          obtain ⟨ts, tail, h1, h2, h3⟩ := ih rest.length (by simp at hn; omega) rest rfl
          refine ⟨.esc body :: ts, tail, ?_, ?_, h3⟩
          · simp only [List.mem_cons, forall_eq_or_imp]; exact ⟨hb, h1⟩
          · rw [runesOf_cons, h2]; simp [Tok.runes]
        · exact ⟨[], 27 :: rs, by simp, rfl, .inr ⟨rs, rfl, hm⟩⟩
      · obtain ⟨ts, tail, h1, h2, h3⟩ := ih rs.length (by simp at hn; omega) rs rfl
        refine ⟨.chr r :: ts, tail, ?_, ?_, h3⟩
        · simp only [List.mem_cons, forall_eq_or_imp]; exact ⟨hr, h1⟩
        · rw [runesOf_cons, h2]; simp [Tok.runes]

/-- C62: right-justified, the width is right for every string, terminated or not. -/
theorem c62_width_right (prt : Nat → Bool) (hsp : prt 32 = true) (s : List Nat) (w : Nat) :
    strLength prt (padString prt s w false) = w := by
  obtain ⟨ts, tail, h, rfl, htail⟩ := tokens_exist s
  rcases htail with rfl | ⟨body, rfl, hb⟩
  · exact c62_width prt hsp _ ⟨ts, h, by simp⟩ w false
  · have hp := padLoop_runes prt h w 0 (27 :: body)
    have ho : ∀ c, padLoop prt (w : Int) c (27 :: body) = (27 :: body, c) := by
      intro c
      rw [padLoop]
      simp [skip_take_open hb, padLoop]
    have hl : strLength prt (27 :: body) = 0 := by
      rw [strLength]
      simp [skip_take_open hb, strLength]
    rw [ho] at hp
    simp only [Int.sub_zero, Int.toNat_natCast, Int.zero_add] at hp
    have hcnt := clip_count prt hsp ts w
    have hcl := strLength_append prt (clip_ok prt h w) (27 :: body)
    unfold padString
    rw [hp]
    simp only
    by_cases hc : (visibleCount prt ts : Int) ≥ w
    · rw [if_pos hc, hcl, hl, hcnt]; omega
    · rw [if_neg hc]
      simp only [Bool.false_eq_true, if_false]
      have hsps := spaces_tok ((w : Int) - visibleCount prt ts).toNat
      rw [hsps.1, strLength_append prt hsps.2, hcl, hl, hcnt, visibleCount_spaces prt hsp]
      omega

/-- Non-vacuity: a coloured word with a tab, cut to three and padded to eight; the reset
sequence survives the cut. -/
example : (∀ t ∈ [Tok.esc b!"[0;34", .chr 97, .chr 9, .chr 98, .chr 99, .esc b!"[0"], t.Ok) ∧
    padString (fun c => decide (32 ≤ c)) (runesOf [.esc b!"[0;34", .chr 97, .chr 9, .chr 98, .chr 99, .esc b!"[0"]) 3 true
      = [27] ++ b!"[0;34ma b" ++ [27] ++ b!"[0m" ∧
    padString (fun c => decide (32 ≤ c)) (runesOf [.esc b!"[0;34", .chr 97, .chr 9, .chr 98, .chr 99, .esc b!"[0"]) 8 false
      = b!"    " ++ [27] ++ b!"[0;34ma bc" ++ [27] ++ b!"[0m" := by
  refine ⟨?_, by decide +kernel, by decide +kernel⟩
  intro t ht
  simp at ht
  rcases ht with rfl | rfl | rfl | rfl | rfl | rfl <;> simp [Tok.Ok]

/-- The restriction to terminated sequences is needed when padding on the right: the spaces
become part of the open sequence. -/
example : strLength (fun c => decide (32 ≤ c)) (padString (fun c => decide (32 ≤ c)) [97, 27] 5 true) = 1 := by
  decide +kernel

/-! ## C63 -/

theorem shrinkSums_eq {ws : List Int} {ss : List Bool} (h : ws.length ≤ ss.length) :
    shrinkSums ws ss = some ((shrinkable ws ss).sum, ((shrinkable ws ss).length : Int)) := by
  induction ws generalizing ss with
  | nil => simp [shrinkSums, shrinkable]
  | cons w ws ih =>
    cases ss with
    | nil => simp at h
    | cons s ss =>
      simp only [shrinkSums, ih (by simpa using h)]
      cases s <;> simp [shrinkable, add_comm]

theorem shrinkable_cons (w : Int) (ws : List Int) (s : Bool) (ss : List Bool) :
    shrinkable (w :: ws) (s :: ss) = if s then w :: shrinkable ws ss else shrinkable ws ss := by
  cases s <;> simp [shrinkable]

/-- No column may shrink: nothing changes. -/
theorem shrinkLoop_none {ws : List Int} {ss : List Bool} (s S : Int) (h : shrinkable ws ss = []) :
    shrinkLoop s S ws ss = some ws := by
  induction ws generalizing ss s S with
  | nil => simp [shrinkLoop]
  | cons w ws ih =>
    cases ss with
    | nil => simp [shrinkLoop]
    | cons b ss =>
      rw [shrinkable_cons] at h
      cases b with
      | true => simp at h
      | false => simp [shrinkLoop, ih s S (by simpa using h)]

theorem sum_nonneg_int {l : List Int} (h : ∀ x ∈ l, 0 ≤ x) : 0 ≤ l.sum := by
  induction l with
  | nil => simp
  | cons x l ih =>
    have h1 := h x (by simp)
    have h2 := ih fun y hy => h y (by simp [hy])
    simp only [List.sum_cons]
    omega

theorem le_sum_int {l : List Int} (h : ∀ x ∈ l, 0 ≤ x) : ∀ x ∈ l, x ≤ l.sum := by
  induction l with
  | nil => simp
  | cons y l ih =>
    intro x hx
    have h1 := h y (by simp)
    have h2 := sum_nonneg_int (l := l) fun z hz => h z (by simp [hz])
    simp only [List.sum_cons]
    rcases List.mem_cons.1 hx with rfl | hx
    · omega
    · have := ih (fun z hz => h z (by simp [hz])) x hx
      omega

theorem shrinkable_mem {ws : List Int} {ss : List Bool} {x : Int} (h : x ∈ shrinkable ws ss) : x ∈ ws := by
  simp only [shrinkable, List.mem_map, List.mem_filter] at h
  obtain ⟨⟨a, b⟩, ⟨h1, _⟩, rfl⟩ := h
  exact (List.of_mem_zip h1).1

/-- The division by zero: the loop crashes exactly when the last column that may shrink is
empty. -/
theorem shrinkLoop_crash {ws : List Int} {ss : List Bool} (s : Int) (hpos : ∀ w ∈ ws, 0 ≤ w) :
    shrinkLoop s (shrinkable ws ss).sum ws ss = none ↔ (shrinkable ws ss).getLast? = some 0 := by
  induction ws generalizing ss s with
  | nil => simp [shrinkLoop, shrinkable]
  | cons w ws ih =>
    have ih' := fun ss s => @ih ss s fun x hx => hpos x (by simp [hx])
    cases ss with
    | nil => simp [shrinkLoop, shrinkable]
    | cons b ss =>
      rw [shrinkable_cons]
      cases b with
      | false =>
        simp only [shrinkLoop, Bool.false_eq_true, if_false, Option.map_eq_none_iff]
        exact ih' ss s
      | true =>
        simp only [shrinkLoop, if_true, List.sum_cons]
        have hw : 0 ≤ w := hpos w (by simp)
        have hrest : 0 ≤ (shrinkable ws ss).sum :=
          sum_nonneg_int fun x hx => hpos x (by simp [shrinkable_mem hx])
        by_cases hz : w + (shrinkable ws ss).sum = 0
        · rw [if_pos hz]
          simp only [true_iff]
          have hw0 : w = 0 := by omega
          have hs0 : (shrinkable ws ss).sum = 0 := by omega
          have hall : ∀ x ∈ w :: shrinkable ws ss, x = 0 := by
            intro x hx
            have hx0 : 0 ≤ x := by
              rcases List.mem_cons.1 hx with rfl | hx
              · exact hw
              · exact hpos x (by simp [shrinkable_mem hx])
            have := le_sum_int (l := w :: shrinkable ws ss) (by
              intro y hy
              rcases List.mem_cons.1 hy with rfl | hy
              · exact hw
              · exact hpos y (by simp [shrinkable_mem hy])) x hx
            rw [List.sum_cons, hz] at this
            omega
          cases hl : (w :: shrinkable ws ss).getLast? with
          | none => simp at hl
          | some y => rw [hall y (List.mem_of_getLast? hl)]
        · rw [if_neg hz]
          rw [show w + (shrinkable ws ss).sum - w = (shrinkable ws ss).sum by ring]
          simp only [Option.map_eq_none_iff]
          rw [ih']
          cases hl : shrinkable ws ss with
          | nil =>
            rw [hl] at hz
            simp only [List.sum_nil, add_zero] at hz
            simp [hz]
          | cons x xs => simp [List.getLast?_cons_cons]

theorem shrinkLoop_sum {ws ws' : List Int} {ss : List Bool} (s : Int)
    (hne : shrinkable ws ss ≠ []) (h : shrinkLoop s (shrinkable ws ss).sum ws ss = some ws') :
    ws'.sum = ws.sum - s := by
  induction ws generalizing ss s ws' with
  | nil => simp [shrinkable] at hne
  | cons w ws ih =>
    cases ss with
    | nil => simp [shrinkable] at hne
    | cons b ss =>
      rw [shrinkable_cons] at h hne
      cases b with
      | false =>
        simp only [shrinkLoop, Bool.false_eq_true, if_false, Option.map_eq_some_iff] at h
        obtain ⟨r, hr, rfl⟩ := h
        rw [List.sum_cons, List.sum_cons, ih s (by simpa using hne) hr]
        ring
      | true =>
        simp only [shrinkLoop, if_true, List.sum_cons] at h
        split at h
        · simp at h
        · next hz =>
          rw [show w + (shrinkable ws ss).sum - w = (shrinkable ws ss).sum by ring] at h
          simp only [Option.map_eq_some_iff] at h
          obtain ⟨r, hr, rfl⟩ := h
          by_cases hl : shrinkable ws ss = []
          · rw [shrinkLoop_none _ _ hl, Option.some.injEq] at hr
            subst hr
            rw [hl] at hz ⊢
            simp only [List.sum_nil, add_zero] at hz ⊢
            rw [Int.mul_comm, Int.mul_tdiv_cancel _ hz, List.sum_cons, List.sum_cons]
            ring
          · rw [List.sum_cons, List.sum_cons, ih _ hl hr]
            ring

/-- Every column against its old width, its flag and its new width. -/
inductive Cols (P : Int → Bool → Int → Prop) : List Int → List Bool → List Int → Prop
  | nil (ss) : Cols P [] ss []
  | cons {w s w' ws ss ws'} : P w s w' → Cols P ws ss ws' → Cols P (w :: ws) (s :: ss) (w' :: ws')

theorem shrinkLoop_cols {ws ws' : List Int} {ss : List Bool} (s S : Int) (hl : ws.length ≤ ss.length)
    (h : shrinkLoop s S ws ss = some ws') : Cols (fun w sh w' => sh = false → w' = w) ws ss ws' := by
  induction ws generalizing ss s S ws' with
  | nil => simp only [shrinkLoop, Option.some.injEq] at h; subst h; exact .nil ss
  | cons w ws ih =>
    cases ss with
    | nil => simp at hl
    | cons b ss =>
      have hl' : ws.length ≤ ss.length := by simpa using hl
      cases b with
      | false =>
        simp only [shrinkLoop, Option.map_eq_some_iff] at h
        obtain ⟨r, hr, rfl⟩ := h
        exact .cons (fun _ => rfl) (ih s S hl' hr)
      | true =>
        simp only [shrinkLoop] at h
        split at h
        · simp at h
        · simp only [Option.map_eq_some_iff] at h
          obtain ⟨r, hr, rfl⟩ := h
          exact .cons (by simp) (ih _ _ hl' hr)

theorem shrinkLoop_bounds {ws ws' : List Int} {ss : List Bool} (s : Int) (hl : ws.length ≤ ss.length)
    (hpos : ∀ w ∈ ws, 0 ≤ w) (hs0 : 0 ≤ s) (hs : s ≤ (shrinkable ws ss).sum)
    (h : shrinkLoop s (shrinkable ws ss).sum ws ss = some ws') :
    Cols (fun w _ w' => 0 ≤ w' ∧ w' ≤ w) ws ss ws' := by
  induction ws generalizing ss s ws' with
  | nil => simp only [shrinkLoop, Option.some.injEq] at h; subst h; exact .nil ss
  | cons w ws ih =>
    have hw : 0 ≤ w := hpos w (by simp)
    have hpos' : ∀ x ∈ ws, 0 ≤ x := fun x hx => hpos x (by simp [hx])
    cases ss with
    | nil => simp at hl
    | cons b ss =>
      have hl' : ws.length ≤ ss.length := by simpa using hl
      rw [shrinkable_cons] at h hs
      cases b with
      | false =>
        simp only [shrinkLoop, Bool.false_eq_true, if_false, Option.map_eq_some_iff] at h hs
        obtain ⟨r, hr, rfl⟩ := h
        exact .cons ⟨hw, le_refl _⟩ (ih s hl' hpos' hs0 hs hr)
      | true =>
        simp only [shrinkLoop, if_true, List.sum_cons] at h hs
        split at h
        · simp at h
        · next hz =>
          have hR : 0 ≤ (shrinkable ws ss).sum := sum_nonneg_int fun x hx => hpos' x (shrinkable_mem hx)
          rw [show w + (shrinkable ws ss).sum - w = (shrinkable ws ss).sum by ring] at h
          generalize hSR : (shrinkable ws ss).sum = R at *
          have hSpos : 0 < w + R := by omega
          simp only [Option.map_eq_some_iff] at h
          rw [Int.tdiv_eq_ediv_of_nonneg (Int.mul_nonneg hw hs0)] at h
          obtain ⟨r, hr, rfl⟩ := h
          have ht0 : 0 ≤ w * s / (w + R) := Int.ediv_nonneg (Int.mul_nonneg hw hs0) (by omega)
          have htw : w * s / (w + R) ≤ w := by
            apply Int.ediv_le_of_le_mul hSpos
            exact Int.mul_le_mul_of_nonneg_left hs hw
          have hts : w * s / (w + R) ≤ s := by
            apply Int.ediv_le_of_le_mul hSpos
            rw [Int.mul_comm]
            exact Int.mul_le_mul_of_nonneg_left (by omega) hs0
          have htR : s - w * s / (w + R) ≤ R := by
            have : s - R ≤ w * s / (w + R) := by
              rw [Int.le_ediv_iff_mul_le hSpos]
              nlinarith
            omega
          subst hSR
          exact .cons ⟨by omega, by omega⟩ (ih _ hl' hpos' (by omega) htR hr)

/-- C63: when the content is wider than the terminal and some columns may shrink, then,
provided the last of these is not empty, the printed widths fill the terminal exactly and the
other columns keep their width; if there is enough to take away, no width becomes negative
and none grows. -/
theorem c63_layout_partial (termWidth : Int) (ws : List Int) (shrink : List Bool)
    (hl : ws.length ≤ shrink.length) (hpos : ∀ w ∈ ws, 0 ≤ w) (hterm : 0 < termWidth)
    (hwide : termWidth < rowWidth ws) (hsome : shrinkable ws shrink ≠ [])
    (hlast : (shrinkable ws shrink).getLast? ≠ some 0) :
    ∃ ws', layout termWidth ws shrink = some ws' ∧ rowWidth ws' = termWidth ∧
      Cols (fun w sh w' => sh = false → w' = w) ws shrink ws' ∧
      (rowWidth ws - termWidth ≤ (shrinkable ws shrink).sum →
        Cols (fun w _ w' => 0 ≤ w' ∧ w' ≤ w) ws shrink ws') := by
  have hlay : layout termWidth ws shrink =
      shrinkLoop (rowWidth ws - termWidth) (shrinkable ws shrink).sum ws shrink := by
    unfold layout
    rw [shrinkSums_eq hl]
    simp only
    rw [if_pos]
    · rfl
    · refine ⟨hterm, ?_, hwide⟩
      have : 0 < (shrinkable ws shrink).length := List.length_pos_iff.2 hsome
      omega
  rw [hlay]
  cases h : shrinkLoop (rowWidth ws - termWidth) (shrinkable ws shrink).sum ws shrink with
  | none => exact absurd ((shrinkLoop_crash _ hpos).1 h) hlast
  | some ws' =>
    have hc := shrinkLoop_cols _ _ hl h
    have hlen : ws'.length = ws.length := by
      clear h hlay hlast hsome hwide hpos hl
      induction hc with
      | nil => rfl
      | cons _ _ ih => simp [ih]
    refine ⟨ws', rfl, ?_, hc, fun hle => shrinkLoop_bounds _ hl hpos (by omega) hle h⟩
    have hsum := shrinkLoop_sum _ hsome h
    unfold rowWidth at hsum ⊢
    rw [hsum, hlen]
    ring

/-- C63: otherwise the widths stay as they are. -/
theorem c63_layout_unchanged (termWidth : Int) (ws : List Int) (shrink : List Bool) (hl : ws.length ≤ shrink.length)
    (h : termWidth ≤ 0 ∨ rowWidth ws ≤ termWidth ∨ shrinkable ws shrink = []) :
    layout termWidth ws shrink = some ws := by
  unfold layout
  rw [shrinkSums_eq hl]
  simp only
  rw [if_neg]
  rintro ⟨h1, h2, h3⟩
  rcases h with h | h | h
  · omega
  · unfold rowWidth at h; omega
  · rw [h] at h2; simp at h2

/-- C63 is false of the code: with an empty last column among those that may shrink, the
program divides by zero. -/
theorem c63_layout_fails :
    ¬ ∀ (termWidth : Int) (ws : List Int) (shrink : List Bool), ws.length ≤ shrink.length → (∀ w ∈ ws, 0 ≤ w) →
      0 < termWidth → termWidth < rowWidth ws → shrinkable ws shrink ≠ [] → layout termWidth ws shrink ≠ none := by
  intro h
  exact h 3 [5, 0] [true, true] (by decide) (by decide) (by decide) (by decide) (by decide) (by decide)

/-! ### Rows -/

theorem widenRow_spec (prt : Nat → Bool) {ws ws' : List Int} {r : List (Option Cell)}
    (h : widenRow prt ws r = some ws') :
    ws'.length = ws.length ∧ (∀ j (h1 : j < ws.length) (h2 : j < ws'.length), ws[j] ≤ ws'[j]) ∧
    (∀ j, j < ws.length → ∃ c, r[j]? = some (some c) ∧ ∃ h2 : j < ws'.length, (c.length prt : Int) ≤ ws'[j]) := by
  induction ws generalizing r ws' with
  | nil =>
    simp only [widenRow, Option.some.injEq] at h
    subst h
    simp
  | cons w ws ih =>
    cases r with
    | nil => simp [widenRow] at h
    | cons c r =>
      cases c with
      | none => simp [widenRow] at h
      | some c =>
        simp only [widenRow] at h
        cases hr : widenRow prt ws r with
        | none => rw [hr] at h; simp at h
        | some ws1 =>
          rw [hr] at h
          simp only [Option.some.injEq] at h
          subst h
          obtain ⟨h1, h2, h3⟩ := ih hr
          refine ⟨by simp [h1], ?_, ?_⟩
          · intro j hj1 hj2
            cases j with
            | zero => simp only [List.getElem_cons_zero]; split <;> omega
            | succ j => simp only [List.getElem_cons_succ]; exact h2 j _ _
          · intro j hj
            cases j with
            | zero =>
              refine ⟨c, rfl, by simp, ?_⟩
              simp only [List.getElem_cons_zero]; split <;> omega
            | succ j =>
              obtain ⟨c', e1, hlt, e2⟩ := h3 j (by simpa using hj)
              exact ⟨c', by simpa using e1, by simp [hlt], by simpa using e2⟩

theorem widen_spec (prt : Nat → Bool) {rows : List Row} {ws ws' : List Int} (h : widen prt ws rows = some ws') :
    ws'.length = ws.length ∧ (∀ j (h1 : j < ws.length) (h2 : j < ws'.length), ws[j] ≤ ws'[j]) ∧
    (∀ r, some r ∈ rows → ∀ j, j < ws.length → ∃ c, r[j]? = some (some c) ∧
      ∃ h2 : j < ws'.length, (c.length prt : Int) ≤ ws'[j]) := by
  induction rows generalizing ws with
  | nil =>
    simp only [widen, Option.some.injEq] at h
    subst h
    simp
  | cons row rows ih =>
    cases row with
    | none =>
      simp only [widen] at h
      obtain ⟨h1, h2, h3⟩ := ih h
      exact ⟨h1, h2, fun r hr => h3 r (by simpa using hr)⟩
    | some r =>
      simp only [widen] at h
      cases hr : widenRow prt ws r with
      | none => rw [hr] at h; simp at h
      | some ws1 =>
        rw [hr] at h
        obtain ⟨a1, a2, a3⟩ := widenRow_spec prt hr
        obtain ⟨b1, b2, b3⟩ := ih h
        refine ⟨by omega, fun j h1 h2 => le_trans (a2 j h1 (by omega)) (b2 j (by omega) h2), ?_⟩
        intro r' hr' j hj
        rcases List.mem_cons.1 hr' with hr' | hr'
        · simp only [Option.some.injEq] at hr'
          subst hr'
          obtain ⟨c, e1, hlt, e2⟩ := a3 j hj
          exact ⟨c, e1, by omega, le_trans e2 (b2 j hlt (by omega))⟩
        · exact b3 r' hr' j (by omega)

/-- What a cell prints fills its column: escape sequences are terminated, the width is not
negative, and a currency symbol fits. -/
def CellFits (prt : Nat → Bool) (w : Int) : Cell → Prop
  | .str s => Terminated s ∧ 0 ≤ w
  | .right s => Terminated s ∧ 0 ≤ w
  | .money sym amt => Terminated sym ∧ Terminated amt ∧ (strLength prt sym : Int) ≤ w

theorem cell_pad (prt : Nat → Bool) (hsp : prt 32 = true) {w : Int} {c : Cell} (h : CellFits prt w c) :
    ∃ ts, (∀ t ∈ ts, Tok.Ok t) ∧ c.pad prt w = runesOf ts ∧ (visibleCount prt ts : Int) = w := by
  cases c with
  | str s =>
    obtain ⟨h1, h2⟩ := h
    obtain ⟨n, rfl⟩ := Int.eq_ofNat_of_zero_le h2
    obtain ⟨ts, a, b, c⟩ := padString_terminated prt hsp h1 n true
    exact ⟨ts, a, b, by rw [c]⟩
  | right s =>
    obtain ⟨h1, h2⟩ := h
    obtain ⟨n, rfl⟩ := Int.eq_ofNat_of_zero_le h2
    obtain ⟨ts, a, b, c⟩ := padString_terminated prt hsp h1 n false
    exact ⟨ts, a, b, by rw [c]⟩
  | money sym amt =>
    obtain ⟨h1, h2, h3⟩ := h
    obtain ⟨n, hn⟩ := Int.eq_ofNat_of_zero_le (show 0 ≤ w - strLength prt sym by omega)
    obtain ⟨ts, a, b, c⟩ := padString_terminated prt hsp h2 n false
    obtain ⟨ts1, a1, rfl⟩ := h1
    rw [strLength_runes prt a1] at hn
    refine ⟨ts1 ++ ts, ?_, ?_, ?_⟩
    · intro t ht
      rcases List.mem_append.1 ht with ht | ht
      · exact a1 t ht
      · exact a t ht
    · show runesOf ts1 ++ padString prt amt (w - strLength prt (runesOf ts1)) false = _
      rw [strLength_runes prt a1, hn, b]
      simp [runesOf]
    · have : visibleCount prt (ts1 ++ ts) = visibleCount prt ts1 + visibleCount prt ts := by simp [visibleCount]
      rw [this, c]
      push_cast
      omega

theorem printRow_spec (prt : Nat → Bool) (hsp : prt 32 = true) {ws : List Int} {r : List (Option Cell)} (hne : ws ≠ [])
    (hfit : ∀ j (hj : j < ws.length), ∃ c, r[j]? = some (some c) ∧ CellFits prt ws[j] c) :
    ∃ ts, (∀ t ∈ ts, Tok.Ok t) ∧ printRow prt ws r = some (runesOf ts ++ [10]) ∧
      (visibleCount prt ts : Int) = rowWidth ws := by
  induction ws generalizing r with
  | nil => exact absurd rfl hne
  | cons w ws ih =>
    obtain ⟨c, e1, hc⟩ := hfit 0 (by simp)
    cases r with
    | nil => simp at e1
    | cons c' r =>
      simp only [List.getElem?_cons_zero, Option.some.injEq] at e1
      subst e1
      obtain ⟨ts, a, b, d⟩ := cell_pad prt hsp hc
      simp only [List.getElem_cons_zero] at b d
      cases ws with
      | nil => exact ⟨ts, a, by simp [printRow, b], by rw [d]; simp [rowWidth]⟩
      | cons w2 ws =>
        obtain ⟨ts2, a2, b2, d2⟩ := ih (r := r) (by simp) fun j hj => by
          obtain ⟨c2, x, y⟩ := hfit (j + 1) (by simpa using hj)
          exact ⟨c2, by simpa using x, by simpa using y⟩
        refine ⟨ts ++ .chr 32 :: ts2, ?_, ?_, ?_⟩
        · intro t ht
          rcases List.mem_append.1 ht with ht | ht
          · exact a t ht
          · rcases List.mem_cons.1 ht with rfl | ht
            · show (32 : Nat) ≠ 27; decide
            · exact a2 t ht
        · rw [printRow, b2]
          simp [b, runesOf, Tok.runes]
        · have : visibleCount prt (ts ++ .chr 32 :: ts2) = visibleCount prt ts + 1 + visibleCount prt ts2 := by
            simp [visibleCount, Tok.visible, hsp]; omega
          rw [this]
          push_cast
          rw [d, d2]
          unfold rowWidth
          simp only [List.sum_cons, List.length_cons]
          push_cast
          ring

theorem printRows_spec (prt : Nat → Bool) (hsp : prt 32 = true) {ws : List Int} (hne : ws ≠ []) {rows : List Row}
    (hfit : ∀ r, some r ∈ rows → ∀ j (hj : j < ws.length), ∃ c, r[j]? = some (some c) ∧ CellFits prt ws[j] c) :
    ∃ lines, printRows prt ws rows = some lines ∧
      List.Forall₂ (fun (row : Row) line => (row = none → line = [10]) ∧
        (row ≠ none → ∃ s, line = s ++ [10] ∧ Terminated s ∧ (strLength prt s : Int) = rowWidth ws)) rows lines := by
  induction rows with
  | nil => exact ⟨[], rfl, .nil⟩
  | cons row rows ih =>
    obtain ⟨lines, e, f⟩ := ih fun r hr => hfit r (by simp [hr])
    cases row with
    | none => exact ⟨[10] :: lines, by simp [printRows, e], .cons (by simp) f⟩
    | some r =>
      obtain ⟨ts, a, b, d⟩ := printRow_spec prt hsp hne (hfit r (by simp))
      refine ⟨(runesOf ts ++ [10]) :: lines, by simp [printRows, b, e], .cons ⟨by simp, fun _ => ?_⟩ f⟩
      exact ⟨runesOf ts, rfl, ⟨ts, a, rfl⟩, by rw [strLength_runes prt a, d]⟩

/-- All escape sequences in the cell are terminated. -/
def Cell.Closed : Cell → Prop
  | .str s => Terminated s
  | .right s => Terminated s
  | .money sym amt => Terminated sym ∧ Terminated amt

def Cell.isMoney : Cell → Bool
  | .money _ _ => true
  | _ => false

theorem cols_get {P : Int → Bool → Int → Prop} {ws ws' : List Int} {ss : List Bool} (h : Cols P ws ss ws') :
    ws'.length = ws.length ∧ ∀ j (h1 : j < ws.length) (h2 : j < ws'.length), ∃ s, ss[j]? = some s ∧ P ws[j] s ws'[j] := by
  induction h with
  | nil => simp
  | cons hp _ ih =>
    refine ⟨by simp [ih.1], ?_⟩
    intro j h1 h2
    cases j with
    | zero => exact ⟨_, rfl, hp⟩
    | succ j => simpa using ih.2 j (by simpa using h1) (by simpa using h2)

/-- Non-vacuity: a header and a row, one column shrinking. -/
def demoRows : List Row :=
  [some [some (.str b!"Date"), some (.str b!"Payee"), some (.right b!"Amount")], none,
   some [some (.str b!"2020-01-02"), some (.str b!"A rather long payee"), some (.money b!"EUR " b!"1,234.50")]]
example : printColumns (fun c => decide (32 ≤ c)) 30 demoRows [false, true, false] =
    some [b!"Date       Payee        Amount\n", b!"\n", b!"2020-01-02 A rath EUR 1,234.50\n"] := by
  decide +kernel
example : ∀ r, some r ∈ demoRows → ∀ c, some c ∈ r → c.Closed := by
  have ht : ∀ s : List Nat, 27 ∉ s → Terminated s := by
    intro s hs
    refine ⟨s.map .chr, ?_, ?_⟩
    · intro t ht
      obtain ⟨x, hx, rfl⟩ := List.mem_map.1 ht
      show x ≠ 27
      rintro rfl
      exact hs hx
    · simp [runesOf, List.flatMap_map, Tok.runes]
  intro r hr c hc
  simp [demoRows] at hr
  rcases hr with rfl | rfl <;> simp at hc <;> rcases hc with rfl | rfl | rfl <;>
    first | exact ht _ (by decide) | exact ⟨ht _ (by decide), ht _ (by decide)⟩
example : widen (fun c => decide (32 ≤ c)) [0, 0, 0] demoRows = some [10, 19, 12] ∧
    (shrinkable [10, 19, 12] [false, true, false]).getLast? ≠ some 0 ∧
    rowWidth [10, 19, 12] - 30 ≤ (shrinkable [10, 19, 12] [false, true, false]).sum := by
  refine ⟨by decide +kernel, by decide +kernel, by decide +kernel⟩

end Verif
