import Verif.Spec.Register
import Verif.Proofs.Book
import Verif.Proofs.Group
import Mathlib.Tactic.FieldSimp
import Mathlib.Tactic.Positivity

/-! Lemmas on the register. -/

namespace Verif
open Spec

/-! ### Signs -/

theorem ratSign_ne {a b : Rat} (ha : a ≠ 0) (hb : b ≠ 0) : ratSign a ≠ ratSign b ↔ a * b < 0 := by
  unfold ratSign
  rcases lt_or_gt_of_ne ha with h1 | h1 <;> rcases lt_or_gt_of_ne hb with h2 | h2
  · simp [h1, h2, le_of_lt, mul_pos_of_neg_of_neg h1 h2]
  · have : ¬ b < 0 := not_lt.2 h2.le
    simp [h1, this, hb, mul_neg_of_neg_of_pos h1 h2]
  · have : ¬ a < 0 := not_lt.2 h1.le
    simp [h2, this, ha, mul_neg_of_pos_of_neg h1 h2]
  · have e1 : ¬ a < 0 := not_lt.2 h1.le
    have e2 : ¬ b < 0 := not_lt.2 h2.le
    simp [e1, e2, ha, hb, le_of_lt (mul_pos h1 h2)]

theorem ratSign_opp {a b : Rat} (ha : a ≠ 0) (hb : b ≠ 0) : ratSign a + ratSign b = 0 ↔ a * b < 0 := by
  unfold ratSign
  rcases lt_or_gt_of_ne ha with h1 | h1 <;> rcases lt_or_gt_of_ne hb with h2 | h2
  · have := mul_pos_of_neg_of_neg h1 h2
    simp [h1, h2]; linarith
  · have : ¬ b < 0 := not_lt.2 h2.le
    simp [h1, this, hb, mul_neg_of_neg_of_pos h1 h2]
  · have : ¬ a < 0 := not_lt.2 h1.le
    simp [h2, this, ha, mul_neg_of_pos_of_neg h1 h2]
  · have e1 : ¬ a < 0 := not_lt.2 h1.le
    have e2 : ¬ b < 0 := not_lt.2 h2.le
    simp [e1, e2, ha, hb, le_of_lt (mul_pos h1 h2)]

theorem counterPosts_eq {t : Txn} {p : Posting} (ht : ∀ q ∈ t, q.val ≠ 0) (hp : p.val ≠ 0) :
    counterPosts t p = counterparts t p := by
  unfold counterPosts counterparts
  apply List.filter_congr
  intro q hq
  have := ratSign_ne (ht q hq) hp
  by_cases h1 : q.acct = p.acct <;> by_cases h2 : q.ccy = p.ccy <;> simp [h1, h2, this]

theorem joinStr_eq (sep : Str) (l : List Str) : joinStr sep l = List.intercalate sep l := by
  induction l with
  | nil => rfl
  | cons s l ih =>
    cases l with
    | nil => simp [joinStr, List.intercalate]
    | cons s' l => simp only [joinStr, ih]; simp [List.intercalate]

/-! ### Counterparts of a posting in a balanced transaction -/

theorem sum_opp {l : List Posting} {v : Rat} (h : ∀ q ∈ l, q.val * v < 0) (hne : l ≠ []) :
    (l.map (·.val)).sum * v < 0 := by
  induction l with
  | nil => exact absurd rfl hne
  | cons q l ih =>
    simp only [List.map_cons, List.sum_cons, add_mul]
    have h1 := h q List.mem_cons_self
    by_cases hl : l = []
    · subst hl; simpa using h1
    · have := ih (fun x hx => h x (List.mem_cons_of_mem _ hx)) hl
      linarith

theorem sum_same {l : List Posting} {v : Rat} (h : ∀ q ∈ l, 0 ≤ q.val * v) : 0 ≤ (l.map (·.val)).sum * v := by
  induction l with
  | nil => simp
  | cons q l ih =>
    simp only [List.map_cons, List.sum_cons, add_mul]
    have h1 := h q List.mem_cons_self
    have := ih (fun x hx => h x (List.mem_cons_of_mem _ hx))
    linarith

/-- What the register needs of a transaction. -/
structure GoodTxn (t : Txn) : Prop where
  one : ∀ p ∈ t, ∀ q ∈ t, p.date = q.date ∧ p.payee = q.payee
  order : t.Pairwise PostBefore
  nonzero : ∀ p ∈ t, p.val ≠ 0
  bal : Balanced t

theorem postBefore_ne {p q : Posting} (h : PostBefore p q) : ¬ (p.acct = q.acct ∧ p.ccy = q.ccy) := by
  rintro ⟨a, b⟩
  unfold PostBefore at h
  rw [a, b] at h
  rcases h with h | ⟨_, h⟩
  · exact lt_irrefl _ h
  · exact lt_irrefl _ h

/-- The total of one (account, currency) of the transaction is its posting. -/
theorem own_total {t : Txn} (ho : t.Pairwise PostBefore) {p : Posting} (hp : p ∈ t) :
    total (fun q => decide (q.acct = p.acct ∧ q.ccy = p.ccy)) t = p.val := by
  induction t with
  | nil => cases hp
  | cons q t ih =>
    obtain ⟨h1, h2⟩ := List.pairwise_cons.1 ho
    rw [total_cons]
    rcases List.mem_cons.1 hp with e | e
    · subst e
      have : total (fun q => decide (q.acct = p.acct ∧ q.ccy = p.ccy)) t = 0 := by
        unfold total
        have : t.filter (fun q => decide (q.acct = p.acct ∧ q.ccy = p.ccy)) = [] := by
          rw [List.filter_eq_nil_iff]
          intro x hx
          have := postBefore_ne (h1 x hx)
          simp only [decide_eq_true_eq]
          rintro ⟨a, b⟩
          exact this ⟨a.symm, b.symm⟩
        rw [this]; rfl
      rw [this]; simp
    · rw [ih h2 e]
      have := postBefore_ne (h1 p e)
      rw [if_neg (by simpa using this)]
      simp

theorem GoodTxn.ccy_total {t : Txn} (h : GoodTxn t) {p : Posting} (hp : p ∈ t) :
    total (fun q => decide (q.ccy = p.ccy)) t = 0 := by
  rw [← h.bal p.date p.payee p.ccy]
  apply total_congr
  intro q hq
  have := h.one q hq p hp
  simp [this.1, this.2]

theorem GoodTxn.counterparts_spec {t : Txn} (h : GoodTxn t) {p : Posting} (hp : p ∈ t) :
    counterparts t p ≠ [] ∧ ((counterparts t p).map (·.val)).sum ≠ 0 := by
  have hpz := h.nonzero p hp
  have hne : counterparts t p ≠ [] := by
    intro he
    have hall : ∀ q ∈ t, ¬ (q.acct ≠ p.acct ∧ q.ccy = p.ccy ∧ q.val * p.val < 0) := by
      intro q hq
      have := (List.filter_eq_nil_iff.1 he) q hq
      simpa using this
    have hs : 0 ≤ ((t.filter fun q => decide (q.ccy = p.ccy ∧ q.acct ≠ p.acct)).map (·.val)).sum * p.val := by
      apply sum_same
      intro q hq
      obtain ⟨hq1, hq2⟩ := List.mem_filter.1 hq
      simp only [decide_eq_true_eq] at hq2
      have := hall q hq1
      by_contra hc
      exact this ⟨hq2.2, hq2.1, not_le.1 hc⟩
    have hsplit : total (fun q => decide (q.ccy = p.ccy)) t =
        total (fun q => decide (q.acct = p.acct ∧ q.ccy = p.ccy)) t +
        total (fun q => decide (q.ccy = p.ccy ∧ q.acct ≠ p.acct)) t := by
      clear hs hall he
      generalize p.acct = a
      generalize p.ccy = c
      clear hp hpz
      clear h
      induction t with
      | nil => simp [total]
      | cons q t ih =>
        rw [total_cons, total_cons, total_cons, ih]
        by_cases h1 : q.ccy = c <;> by_cases h2 : q.acct = a <;> simp [h1, h2] <;> ring
    rw [h.ccy_total hp, own_total h.order hp] at hsplit
    unfold total at hsplit
    have hneg : ((t.filter fun q => decide (q.ccy = p.ccy ∧ q.acct ≠ p.acct)).map (·.val)).sum = - p.val := by linarith
    rw [hneg] at hs
    have : 0 < p.val * p.val := mul_self_pos.2 hpz
    linarith
  refine ⟨hne, ?_⟩
  have := sum_opp (l := counterparts t p) (v := p.val) (fun q hq => by
    have := (List.mem_filter.1 hq).2
    simp only [decide_eq_true_eq] at this
    exact this.2.2) hne
  intro e
  rw [e] at this
  simp at this

/-- The allocation of a posting. -/
theorem GoodTxn.allocs {t : Txn} (h : GoodTxn t) {p : Posting} (hp : p ∈ t) (split : Bool) :
    ∃ as, regAllocs t p split = some as ∧
      as.map (·.1) = (if split then (counterparts t p).map (·.acct)
        else [List.intercalate b!";" ((counterparts t p).map (·.acct))]) ∧
      (as.map (·.2)).sum = p.val ∧
      (split = true → as.map (·.2) = (counterparts t p).map fun c => p.val * (c.val / ((counterparts t p).map (·.val)).sum)) ∧
      (split = false → as.map (·.2) = [p.val]) := by
  obtain ⟨hne, hs⟩ := h.counterparts_spec hp
  unfold regAllocs
  rw [counterPosts_eq h.nonzero (h.nonzero p hp)]
  simp only
  generalize counterparts t p = cs at hne hs
  have shares : ∀ s : Rat, (cs.map fun tp => tp.val * p.val * s⁻¹).sum = (cs.map (·.val)).sum * (p.val * s⁻¹) := by
    intro s
    clear hne hs
    induction cs with
    | nil => simp
    | cons c cs ih => simp only [List.map_cons, List.sum_cons, ih]; ring
  have hsum : (cs.map fun tp => tp.val * p.val * ((cs.map (·.val)).sum)⁻¹).sum = p.val := by
    rw [shares]; field_simp
  by_cases hc : (decide (cs.length > 1) && !split) = true
  · rw [if_pos hc]
    simp only [Bool.and_eq_true, decide_eq_true_eq, Bool.not_eq_true'] at hc
    refine ⟨_, rfl, ?_, by simp, ?_, by simp⟩
    · rw [if_neg (by rw [hc.2]; simp), joinStr_eq]; rfl
    · intro h'; rw [hc.2] at h'; cases h'
  · rw [if_neg hc, if_neg hs]
    refine ⟨_, rfl, ?_, ?_, ?_, ?_⟩
    · by_cases hsp : split = true
      · rw [if_pos hsp]; simp
      · rw [if_neg hsp]
        simp only [Bool.not_eq_true] at hsp
        rw [hsp] at hc
        simp only [Bool.not_false, Bool.and_true, decide_eq_true_eq, not_lt] at hc
        cases cs with
        | nil => exact absurd rfl hne
        | cons c cs =>
          cases cs with
          | nil => simp [List.intercalate]
          | cons c' cs => simp at hc
    · rw [List.map_map]; exact hsum
    · intro _
      rw [List.map_map]
      apply List.map_congr_left
      intro c _
      simp only [Function.comp_apply]
      ring
    · intro hsp
      rw [hsp] at hc
      simp only [Bool.not_false, Bool.and_true, decide_eq_true_eq, not_lt] at hc
      cases cs with
      | nil => exact absurd rfl hne
      | cons c cs =>
        cases cs with
        | nil =>
          simp only [List.map_cons, List.map_nil, List.sum_cons, List.sum_nil, add_zero] at hsum ⊢
          rw [hsum]
        | cons c' cs => simp at hc

/-! ### The inferred rate -/

theorem inferLoop_spec {t : Txn} (hz : ∀ p ∈ t, p.val ≠ 0) {base unit : Str} (hbu : base ≠ unit) :
    ∀ (f i : Nat) (last : Int), i ≤ t.length → t.length - i < f →
      ((i = 0 ∧ last = -1) ∨ (1 ≤ i ∧ 0 ≤ last ∧ last < i ∧
        (∀ j a b, last.toNat ≤ j → j < i → t[last.toNat]? = some a → t[j]? = some b → a.acct = b.acct) ∧
        (last.toNat = 0 ∨ ∃ a c, t[last.toNat]? = some a ∧ t[last.toNat - 1]? = some c ∧ c.acct ≠ a.acct))) →
      (∀ k r, k + 2 < i → ¬ Exchange t base unit k r) →
      ∃ o, inferLoop t base unit f last i = some o ∧ FirstExchange t base unit o := by
  intro f
  induction f with
  | zero => intro i last _ h; omega
  | succ f ih =>
    intro i last hi hf hlast hno
    -- the continuation
    have hnext : (∀ k r, k + 2 = i → ¬ Exchange t base unit k r) →
        ∃ o, (if i = t.length then some none
          else
            match t[i]? with
            | none => none
            | some ti =>
              if last = -1 then inferLoop t base unit f i (i + 1)
              else
                match t[last.toNat]? with
                | none => none
                | some tl => inferLoop t base unit f (if tl.acct ≠ ti.acct then (i : Int) else last) (i + 1)) = some o ∧
          FirstExchange t base unit o := by
      intro hk
      have hno' : ∀ k r, k + 2 < i + 1 → ¬ Exchange t base unit k r := by
        intro k r h
        rcases Nat.lt_or_eq_of_le (Nat.lt_succ_iff.1 h) with h | h
        · exact hno k r h
        · exact hk k r h
      by_cases hlen : i = t.length
      · rw [if_pos hlen]
        refine ⟨none, rfl, ?_⟩
        intro k r hex
        have hex' := hex
        obtain ⟨a, b, h1, h2, _⟩ := hex'
        obtain ⟨hb, _⟩ := List.getElem?_eq_some_iff.1 h2
        exact hno' k r (by omega) hex
      · rw [if_neg hlen]
        have hti : t[i]? = some (t[i]'(by omega)) := List.getElem?_eq_getElem (by omega)
        rw [hti]
        simp only
        by_cases hl : last = -1
        · rw [if_pos hl]
          have hi0 : i = 0 := by rcases hlast with h | h; exact h.1; omega
          subst hi0
          apply ih 1 0 (by omega) (by omega) _ (fun k r h => by omega)
          right
          refine ⟨by omega, by omega, by omega, ?_, Or.inl rfl⟩
          intro j a b h1 h2 h3 h4
          have : j = 0 := by omega
          subst this
          simp at h3 h4
          rw [h3] at h4; cases h4; rfl
        · rw [if_neg hl]
          obtain ⟨h1, h2, h3, h4, h5⟩ := hlast.resolve_left (fun h => hl h.2)
          have htl : t[last.toNat]? = some (t[last.toNat]'(by omega)) := List.getElem?_eq_getElem (by omega)
          rw [htl]
          simp only
          apply ih (i + 1) _ (by omega) (by omega) _ hno'
          right
          split
          · rename_i hne
            refine ⟨by omega, by omega, by omega, ?_, ?_⟩
            · intro j a b e1 e2 e3 e4
              have : j = i := by omega
              subst this
              simp only [Int.toNat_natCast] at e3
              rw [e3] at e4; cases e4; rfl
            · right
              simp only [Int.toNat_natCast]
              have hpi : t[i - 1]? = some (t[i - 1]'(by omega)) := List.getElem?_eq_getElem (by omega)
              refine ⟨_, _, hti, hpi, ?_⟩
              have := h4 (i - 1) _ _ (by omega) (by omega) htl hpi
              rw [← this]; exact hne
          · rename_i heq
            simp only [ne_eq, not_not] at heq
            refine ⟨by omega, h2, by omega, ?_, h5⟩
            intro j a b e1 e2 e3 e4
            rcases Nat.lt_or_ge j i with hj | hj
            · exact h4 j a b e1 hj e3 e4
            · have : j = i := by omega
              subst this
              rw [htl] at e3; cases e3
              rw [hti] at e4; cases e4
              exact heq
    unfold inferLoop
    simp only
    by_cases h2 : (i : Int) - last = 2
    · rw [if_pos h2]
      obtain ⟨g1, g2, g3, g4, g5⟩ : 1 ≤ i ∧ 0 ≤ last ∧ last < i ∧
        (∀ j a b, last.toNat ≤ j → j < i → t[last.toNat]? = some a → t[j]? = some b → a.acct = b.acct) ∧
        (last.toNat = 0 ∨ ∃ a c, t[last.toNat]? = some a ∧ t[last.toNat - 1]? = some c ∧ c.acct ≠ a.acct) := by
        rcases hlast with h | h
        · omega
        · exact h
      have hl : last.toNat = i - 2 := by omega
      rw [if_pos (by omega), if_pos (by omega)]
      have ha : t[i - 1]? = some (t[i - 1]'(by omega)) := List.getElem?_eq_getElem (by omega)
      have hb : t[i - 2]? = some (t[i - 2]'(by omega)) := List.getElem?_eq_getElem (by omega)
      have haz := hz _ (List.mem_of_getElem? ha)
      have hbz := hz _ (List.mem_of_getElem? hb)
      have hacct := g4 (i - 1) _ _ (by omega) (by omega) (by rw [hl]; exact hb) ha
      rw [ha, hb]
      simp only
      generalize t[i - 1]'(by omega) = a at ha haz hacct
      generalize t[i - 2]'(by omega) = b at hb hbz hacct
      rw [hl] at g5
      have hstart : i - 2 = 0 ∨ ∃ c, t[i - 2 - 1]? = some c ∧ c.acct ≠ b.acct := by
        rcases g5 with h | ⟨x, c, h1, h2, h3⟩
        · exact Or.inl h
        · right
          rw [hb] at h1; cases h1
          exact ⟨c, h2, h3⟩
      have hidx : i - 2 + 1 = i - 1 := by omega
      have mk : ∀ r, Exchange t base unit (i - 2) r → FirstExchange t base unit (some r) := by
        intro r h
        exact ⟨i - 2, h, fun j r' hj => hno j r' (by omega)⟩
      have contra : ∀ k r, k + 2 = i → Exchange t base unit k r →
          b.val * a.val < 0 ∧ ((b.ccy = base ∧ a.ccy = unit) ∨ (b.ccy = unit ∧ a.ccy = base)) := by
        intro k r hk h
        have : k = i - 2 := by omega
        subst this
        obtain ⟨x, y, h1, h2, _, _, h5, h6⟩ := h
        rw [hb] at h1; cases h1
        rw [hidx, ha] at h2; cases h2
        refine ⟨h5, ?_⟩
        rcases h6 with h | h
        · exact Or.inl ⟨h.1, h.2.1⟩
        · exact Or.inr ⟨h.1, h.2.1⟩
      by_cases hs : ratSign a.val + ratSign b.val = 0
      · rw [if_pos hs]
        have hs' := (ratSign_opp haz hbz).1 hs
        by_cases c1 : a.ccy = base ∧ b.ccy = unit
        · rw [if_pos c1]
          refine ⟨some (-(a.val / b.val)), by simp [ratQuo, hbz], mk _ ?_⟩
          exact ⟨b, a, hb, by rw [hidx]; exact ha, hacct, hstart, by rw [mul_comm]; exact hs',
            Or.inr ⟨c1.2, c1.1, rfl⟩⟩
        · rw [if_neg c1]
          by_cases c2 : a.ccy = unit ∧ b.ccy = base
          · rw [if_pos c2]
            refine ⟨some (-(b.val / a.val)), by simp [ratQuo, haz], mk _ ?_⟩
            exact ⟨b, a, hb, by rw [hidx]; exact ha, hacct, hstart, by rw [mul_comm]; exact hs',
              Or.inl ⟨c2.2, c2.1, rfl⟩⟩
          · rw [if_neg c2]
            apply hnext
            intro k r hk hex
            rcases (contra k r hk hex).2 with h | h
            · exact c2 ⟨h.2, h.1⟩
            · exact c1 ⟨h.2, h.1⟩
      · rw [if_neg hs]
        apply hnext
        intro k r hk hex
        apply hs
        rw [ratSign_opp haz hbz, mul_comm]
        exact (contra k r hk hex).1
    · rw [if_neg h2]
      apply hnext
      intro k r hk hex
      obtain ⟨x, y, e1, e2, e3, e4, _⟩ := hex
      rcases hlast with h | ⟨g1, g2, g3, g4, g5⟩
      · omega
      · rcases Nat.lt_or_ge last.toNat (i - 2) with hlt | hge
        · -- not the start of an account
          rcases e4 with h0 | ⟨c, h1, h2⟩
          · omega
          · have htl : t[last.toNat]? = some (t[last.toNat]'(by omega)) := List.getElem?_eq_getElem (by omega)
            have q1 := g4 (k - 1) _ c (by omega) (by omega) htl h1
            have q2 := g4 k _ x (by omega) (by omega) htl e1
            exact h2 (by rw [← q1, q2])
        · have hl1 : last.toNat = i - 1 := by omega
          rcases g5 with h | ⟨a, c, h1, h2, h3⟩
          · omega
          · rw [hl1] at h1 h2
            have : k + 1 = i - 1 := by omega
            rw [this, h1] at e2; cases e2
            have : i - 1 - 1 = k := by omega
            rw [this, e1] at h2; cases h2
            exact h3 e3

theorem inferRate_spec {t : Txn} (hz : ∀ p ∈ t, p.val ≠ 0) {base unit : Str} (hbu : base ≠ unit) :
    ∃ o, inferRate t base unit = some o ∧ FirstExchange t base unit o :=
  inferLoop_spec hz hbu (t.length + 1) 0 (-1) (by omega) (by omega) (Or.inl ⟨rfl, rfl⟩) (fun k r h => by omega)

/-! ### The rows -/

/-- The carried totals are those of the rows so far. -/
def StateOK (s : RegState) (prev : List RegEntry) : Prop :=
  (∀ c, amtAt s.bals c = rowTotal c prev) ∧ s.baseBal = baseTotal prev

/-- Each row carries the totals up to it. -/
def RunFrom : List RegEntry → List RegEntry → Prop
  | _, [] => True
  | prev, r :: rs => r.balance = rowTotal r.ccy (prev ++ [r]) ∧ r.baseBalance = baseTotal (prev ++ [r]) ∧ RunFrom (prev ++ [r]) rs

theorem runFrom_append {prev rows rows' : List RegEntry} (h : RunFrom prev rows) (h' : RunFrom (prev ++ rows) rows') :
    RunFrom prev (rows ++ rows') := by
  induction rows generalizing prev with
  | nil => simpa using h'
  | cons r rs ih =>
    obtain ⟨h1, h2, h3⟩ := h
    exact ⟨h1, h2, ih h3 (by simpa using h')⟩

theorem runFrom_get {prev rows : List RegEntry} (h : RunFrom prev rows) (pre : List RegEntry) (r : RegEntry) (post : List RegEntry)
    (e : rows = pre ++ r :: post) :
    r.balance = rowTotal r.ccy (prev ++ (pre ++ [r])) ∧ r.baseBalance = baseTotal (prev ++ (pre ++ [r])) := by
  induction pre generalizing prev rows with
  | nil =>
    subst e
    exact ⟨by simpa using h.1, by simpa using h.2.1⟩
  | cons q pre ih =>
    subst e
    have := ih h.2.2 rfl
    simpa using this

theorem rowTotal_append (c : Str) (l m : List RegEntry) : rowTotal c (l ++ m) = rowTotal c l + rowTotal c m := by
  simp [rowTotal]
theorem baseTotal_append (l m : List RegEntry) : baseTotal (l ++ m) = baseTotal l + baseTotal m := by
  simp [baseTotal]

theorem regRows_spec (prices : PriceBook) (base : Str) (t : Txn) (date : Int) (payee : Str) (p : Posting) (as : List (Str × Rat)) :
    ∀ (s : RegState) (prev : List RegEntry), StateOK s prev → (∀ amt, (regBase prices base t date p amt).isSome = true) →
    ∃ s' rows, regRows prices base t date payee p as s = some (s', rows) ∧ StateOK s' (prev ++ rows) ∧ RunFrom prev rows ∧
      rows.map (·.counterAccount) = as.map (·.1) ∧ rows.map (·.amount) = as.map (·.2) ∧
      ∀ r ∈ rows, r.date = date ∧ r.payee = payee ∧ r.account = p.acct ∧ r.ccy = p.ccy ∧ r.note = p.note ∧ r.tnote = p.tnote ∧
        r.baseCCY = base ∧ regBase prices base t date p r.amount = some (r.baseAmount, r.baseSource) := by
  induction as with
  | nil => intro s prev h _; exact ⟨s, [], rfl, by simpa using h, trivial, rfl, rfl, by simp⟩
  | cons va as ih =>
    obtain ⟨v, amt⟩ := va
    intro s prev h hb
    obtain ⟨⟨ba, src⟩, hba⟩ := Option.isSome_iff_exists.1 (hb amt)
    simp only [regRows, hba]
    obtain ⟨row, hrow⟩ : ∃ row : RegEntry, row = ⟨date, p.acct, payee, v, amt, p.ccy, (amtFind (amtAdd s.bals p.ccy amt) p.ccy).getD 0,
      p.note, p.tnote, base, ba, src, s.baseBal + ba⟩ := ⟨_, rfl⟩
    have h' : StateOK ⟨amtAdd s.bals p.ccy amt, s.baseBal + ba⟩ (prev ++ [row]) := by
      refine ⟨?_, ?_⟩
      · intro c
        simp only
        rw [amtAt_add, h.1 c, rowTotal_append]
        congr 1
        subst hrow
        by_cases e : p.ccy = c <;> simp [rowTotal, e]
      · rw [baseTotal_append, ← h.2]
        subst hrow
        simp [baseTotal]
    obtain ⟨s', rows, e1, e2, e3, e4, e5, e6⟩ := ih ⟨amtAdd s.bals p.ccy amt, s.baseBal + ba⟩ (prev ++ [row]) h' hb
    rw [e1]
    refine ⟨s', row :: rows, by rw [hrow], by simpa using e2, ⟨?_, ?_, e3⟩, ?_, ?_, ?_⟩
    · have := h'.1 p.ccy
      subst hrow
      exact this
    · have := h'.2
      subst hrow
      exact this
    · subst hrow; simp [e4]
    · subst hrow; simp [e5]
    · intro r hr
      rcases List.mem_cons.1 hr with e | e
      · subst e; subst hrow
        exact ⟨rfl, rfl, rfl, rfl, rfl, rfl, rfl, hba⟩
      · exact e6 r e

/-- Everything about the rows of one posting. -/
structure GroupOK (prices : PriceBook) (base : Str) (split : Bool) (tp : Txn × Posting) (g : List RegEntry) : Prop where
  rows : RowsFor split tp.1 tp.2 g
  amounts : AmountsFor split tp.1 tp.2 g
  base : ∀ r ∈ g, r.baseCCY = base ∧ regBase prices base tp.1 tp.2.date tp.2 r.amount = some (r.baseAmount, r.baseSource)

theorem regBase_isSome {prices : PriceBook} {base : Str} {t : Txn} (h : GoodTxn t) (date : Int) (p : Posting)
    (hp : p.ccy ≠ base → prices.getPrice date base p.ccy ≠ none) (amt : Rat) :
    (regBase prices base t date p amt).isSome = true := by
  unfold regBase
  split
  · rfl
  · rename_i hne
    obtain ⟨o, ho, _⟩ := inferRate_spec h.nonzero (base := base) (unit := p.ccy) (fun e => hne e.symm)
    rw [ho]
    cases o with
    | some r => rfl
    | none =>
      simp only
      cases hg : prices.getPrice date base p.ccy with
      | none => exact absurd hg (hp hne)
      | some r => rfl

theorem regTxn_spec {prices : PriceBook} {base : Str} {mat : Str → Bool} {split : Bool} {all : Txn} (h : GoodTxn all)
    (hpr : ∀ p ∈ all, mat p.acct = true → ∀ amt, (regBase prices base all p.date p amt).isSome = true) (ps : List Posting) :
    ∀ (s : RegState) (prev : List RegEntry), (∀ p ∈ ps, p ∈ all) → StateOK s prev →
    ∃ s' groups, regTxn prices base mat split all ps s = some (s', List.flatten groups) ∧ StateOK s' (prev ++ groups.flatten) ∧
      RunFrom prev groups.flatten ∧
      List.Forall₂ (GroupOK prices base split) ((ps.filter fun p => mat p.acct).map fun p => (all, p)) groups := by
  induction ps with
  | nil => intro s prev _ hs; exact ⟨s, [], rfl, by simpa using hs, trivial, .nil⟩
  | cons p ps ih =>
    intro s prev hsub hs
    have hp := hsub p List.mem_cons_self
    have hsub' : ∀ q ∈ ps, q ∈ all := fun q hq => hsub q (List.mem_cons_of_mem _ hq)
    unfold regTxn
    by_cases hm : mat p.acct = true
    · rw [if_pos hm]
      obtain ⟨as, ha, a1, a2, a3, a4⟩ := h.allocs hp split
      rw [ha]
      cases all with
      | nil => cases hp
      | cons f fs =>
        have hf : f ∈ f :: fs := List.mem_cons_self
        have hfp := h.one f hf p hp
        simp only
        rw [hfp.1, hfp.2]
        obtain ⟨s1, rows, e1, e2, e3, e4, e5, e6⟩ :=
          regRows_spec prices base (f :: fs) p.date p.payee p as s prev hs
            (hpr p hp hm)
        rw [e1]
        simp only
        obtain ⟨s2, groups, g1, g2, g3, g4⟩ := ih s1 (prev ++ rows) hsub' e2
        rw [g1]
        refine ⟨s2, rows :: groups, by simp, by simpa using g2, ?_, ?_⟩
        · rw [List.flatten_cons]; exact runFrom_append e3 g3
        · rw [List.filter_cons, if_pos hm, List.map_cons]
          refine .cons ?_ g4
          refine ⟨⟨?_, (h.counterparts_spec hp).1, ?_⟩, ⟨?_, ?_, ?_⟩, ?_⟩
          · intro r hr
            obtain ⟨q1, q2, q3, q4, q5, q6, _, _⟩ := e6 r hr
            exact ⟨q1, q2, q3, q4, q5, q6⟩
          · rw [e4]; exact a1
          · rw [e5]; exact a2
          · rw [e5]; exact a3
          · rw [e5]; exact a4
          · intro r hr
            obtain ⟨_, _, _, _, _, _, q7, q8⟩ := e6 r hr
            exact ⟨q7, q8⟩
    · rw [if_neg hm]
      rw [List.filter_cons, if_neg hm]
      exact ih s prev hsub' hs

theorem regAll_spec {prices : PriceBook} {base : Str} {mat : Str → Bool} {split : Bool} (ts : List Txn) :
    ∀ (s : RegState) (prev : List RegEntry), (∀ t ∈ ts, GoodTxn t) →
    (∀ t ∈ ts, ∀ p ∈ t, mat p.acct = true → ∀ amt, (regBase prices base t p.date p amt).isSome = true) → StateOK s prev →
    ∃ s' groups, regAll prices base mat split ts s = some (s', List.flatten groups) ∧ StateOK s' (prev ++ groups.flatten) ∧
      RunFrom prev groups.flatten ∧ List.Forall₂ (GroupOK prices base split) (matching mat ts) groups := by
  induction ts with
  | nil => intro s prev _ _ hs; exact ⟨s, [], rfl, by simpa using hs, trivial, .nil⟩
  | cons t ts ih =>
    intro s prev hg hpr hs
    obtain ⟨s1, g, e1, e2, e3, e4⟩ := regTxn_spec (mat := mat) (split := split) (hg t List.mem_cons_self)
      (hpr t List.mem_cons_self) t s prev (fun _ h => h) hs
    obtain ⟨s2, g', f1, f2, f3, f4⟩ := ih s1 (prev ++ g.flatten) (fun u hu => hg u (List.mem_cons_of_mem _ hu))
      (fun u hu => hpr u (List.mem_cons_of_mem _ hu)) e2
    unfold regAll
    rw [e1]
    simp only
    rw [f1]
    refine ⟨s2, g ++ g', by simp, by simpa using f2, ?_, ?_⟩
    · rw [List.flatten_append]; exact runFrom_append e3 f3
    · unfold matching
      rw [List.flatMap_cons]
      exact List.rel_append e4 f4

theorem regBase_isSome_amt {prices : PriceBook} {base : Str} {t : Txn} {date : Int} {p : Posting} {amt : Rat}
    (h : (regBase prices base t date p amt).isSome = true) (amt' : Rat) : (regBase prices base t date p amt').isSome = true := by
  unfold regBase at h ⊢
  by_cases hc : p.ccy = base
  · rw [if_pos hc]; rfl
  · rw [if_neg hc] at h ⊢
    cases hi : inferRate t base p.ccy with
    | none => rw [hi] at h; cases h
    | some o =>
      rw [hi] at h
      cases o with
      | some r => rfl
      | none =>
        simp only at h ⊢
        cases hg : prices.getPrice date base p.ccy with
        | none => rw [hg] at h; cases h
        | some x => rfl

theorem regTxn_answers {prices : PriceBook} {base : Str} {mat : Str → Bool} {split : Bool} {all : Txn} (h : GoodTxn all) (ps : List Posting) :
    ∀ (s : RegState) (x : RegState × List RegEntry), (∀ p ∈ ps, p ∈ all) → regTxn prices base mat split all ps s = some x →
    ∀ p ∈ ps, mat p.acct = true → ∀ amt, (regBase prices base all p.date p amt).isSome = true := by
  induction ps with
  | nil => intro s x _ _ p hp; cases hp
  | cons p ps ih =>
    intro s x hsub hx
    have hp := hsub p List.mem_cons_self
    have hsub' : ∀ q ∈ ps, q ∈ all := fun q hq => hsub q (List.mem_cons_of_mem _ hq)
    unfold regTxn at hx
    by_cases hm : mat p.acct = true
    · rw [if_pos hm] at hx
      obtain ⟨as, ha, a1, _⟩ := h.allocs hp split
      rw [ha] at hx
      cases all with
      | nil => cases hp
      | cons f fs =>
        have hfp := h.one f List.mem_cons_self p hp
        simp only at hx
        rw [hfp.1, hfp.2] at hx
        cases hr : regRows prices base (f :: fs) p.date p.payee p as s with
        | none => rw [hr] at hx; cases hx
        | some y =>
          rw [hr] at hx
          simp only at hx
          cases ht : regTxn prices base mat split (f :: fs) ps y.1 with
          | none => rw [ht] at hx; cases hx
          | some z =>
            have hrest := ih y.1 z hsub' ht
            intro q hq hmq amt
            rcases List.mem_cons.1 hq with e | e
            · subst e
              have hne : as ≠ [] := by
                intro e
                rw [e] at a1
                have hc := (h.counterparts_spec hp).1
                cases split with
                | true => simp only [List.map_nil, if_true] at a1; exact hc (by simpa using a1.symm)
                | false => simp at a1
              cases as with
              | nil => exact absurd rfl hne
              | cons va as =>
                obtain ⟨v, am⟩ := va
                simp only [regRows] at hr
                cases hb : regBase prices base (f :: fs) q.date q am with
                | none => rw [hb] at hr; cases hr
                | some w => exact regBase_isSome_amt (amt := am) (by rw [hb]; rfl) amt
            · exact hrest q e hmq amt
    · rw [if_neg hm] at hx
      intro q hq hmq
      rcases List.mem_cons.1 hq with e | e
      · rw [e] at hmq; exact absurd hmq hm
      · exact ih s x hsub' hx q e hmq

theorem regAll_answers {prices : PriceBook} {base : Str} {mat : Str → Bool} {split : Bool} (ts : List Txn) :
    ∀ (s : RegState) (x : RegState × List RegEntry), (∀ t ∈ ts, GoodTxn t) → regAll prices base mat split ts s = some x →
    ∀ t ∈ ts, ∀ p ∈ t, mat p.acct = true → ∀ amt, (regBase prices base t p.date p amt).isSome = true := by
  induction ts with
  | nil => intro s x _ _ t ht; cases ht
  | cons t ts ih =>
    intro s x hg hx
    simp only [regAll] at hx
    cases h1 : regTxn prices base mat split t t s with
    | none => rw [h1] at hx; cases hx
    | some y =>
      rw [h1] at hx
      simp only at hx
      cases h2 : regAll prices base mat split ts y.1 with
      | none => rw [h2] at hx; cases hx
      | some z =>
        intro u hu
        rcases List.mem_cons.1 hu with e | e
        · rw [e]; exact regTxn_answers (hg t List.mem_cons_self) t s y (fun _ h => h) h1
        · exact ih y.1 z (fun u hu => hg u (List.mem_cons_of_mem _ hu)) h2 u e

end Verif
