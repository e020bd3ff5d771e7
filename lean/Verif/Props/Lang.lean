import Verif.Model.Lang
import Verif.Props.Export

/-! # C104: the language does not change what an export says -/

namespace Verif
open Spec

/-! ## English -/

theorem grouped_comma (n : Nat) : ∀ s, grouped [44] n s = commas n s := by
  induction n with
  | zero => intro s; rfl
  | succ n ih => intro s; unfold grouped commas; rw [ih]; rfl

/-- A printer for English prints numbers as the loader reads them. -/
theorem english_sound (letter : Nat → Bool) {fl : Rat → Rat} (hf : DoubleRounding fl) {rd : Rat → Nat} (hr : NearestNat rd)
    (decs : Str → Option Nat) : SoundFmt (langFmt .english letter fl rd decs) := by
  refine ⟨?_, hf, hr, rfl⟩
  intro n
  show (grouped [44] (natDec n).length (natDec n)).filter digitChar = _ ∧ _
  have hx : (langFmt .english letter fl rd decs).grp (natDec n) = commas (natDec n).length (natDec n) := grouped_comma _ _
  rw [hx, grouped_comma]
  exact commas_ok _ (natDec n) (natDec_ne_nil n) (isDigit_natDec n)

/-- **C104** (partial: English, and what the format can express).  With the language set to English, the transactions of any book,
printed in ledger format and loaded again, come back as they were. -/
theorem c104_language_partial (srt : List Posting → List Posting) (hs : IsSort srt) (today : Int) (b : Book) (hr : Reachable srt today b)
    (letter : Nat → Bool) (fl : Rat → Rat) (hf : DoubleRounding fl) (rd : Rat → Nat) (hn : NearestNat rd) (decs : Str → Option Nat)
    (hp : ∀ t ∈ b.transactions srt, PrintableTxn (langFmt .english letter fl rd decs) t) :
    ∃ text, showTxns (langFmt .english letter fl rd decs) (b.transactions srt) = some text ∧
      ∀ (e : Env), e.letter 10 = false → ∀ (depth : Nat) (fn : Str), e.files fn = some text →
        ∃ bk, loadBook srt e (depth + 1) fn = .ok bk ∧ bk.transactions srt = (b.transactions srt).map asLoaded :=
  c57_export_reload_partial srt hs today b hr _ (english_sound letter hf hn decs) hp

/-! ## Other languages -/

/-- The number as the loader sees it: the comma is skipped. -/
def commaNumeral (neg : Bool) (dec n : Nat) : Numeral :=
  ⟨neg, natDec (n / 10 ^ dec) ++ (if dec = 0 then [] else 44 :: padZero dec (natDec (n % 10 ^ dec))), none⟩

theorem commaNumeral_digits (neg : Bool) (dec n : Nat) :
    digitsVal ((commaNumeral neg dec n).ip.filter digitChar) = n ∧ (commaNumeral neg dec n).Valid ∧
      ∃ c r, (commaNumeral neg dec n).ip = c :: r ∧ isDigit c = true := by
  have hne := natDec_ne_nil (n / 10 ^ dec)
  have hdig := isDigit_natDec (n / 10 ^ dec)
  have hf : (natDec (n / 10 ^ dec)).filter digitChar = natDec (n / 10 ^ dec) := List.filter_eq_self.2 hdig
  refine ⟨?_, ?_, ?_⟩
  · unfold commaNumeral
    simp only [List.filter_append, hf]
    by_cases hd : dec = 0
    · subst hd
      simp [digitsVal_natDec]
    · obtain ⟨p1, p2, p3⟩ := padZero_facts (d := dec) (n := n % 10 ^ dec) (by omega) (Nat.mod_lt _ (by positivity))
      rw [if_neg hd, List.filter_cons_of_neg (by decide)]
      have hp : (padZero dec (natDec (n % 10 ^ dec))).filter digitChar = padZero dec (natDec (n % 10 ^ dec)) := List.filter_eq_self.2 p3
      rw [hp]
      have : digitsVal (natDec (n / 10 ^ dec) ++ padZero dec (natDec (n % 10 ^ dec))) =
          digitsFrom (digitsVal (natDec (n / 10 ^ dec))) (padZero dec (natDec (n % 10 ^ dec))) := by
        unfold digitsVal digitsFrom
        rw [List.foldl_append]
      rw [this, digitsFrom_eq, digitsVal_natDec, p1, p2]
      exact Nat.div_add_mod' n (10 ^ dec)
  · refine ⟨?_, by intro f hf; cases hf⟩
    intro c hc
    unfold commaNumeral at hc
    rcases List.mem_append.1 hc with hc | hc
    · exact Or.inl (hdig c hc)
    · by_cases hd : dec = 0
      · rw [if_pos hd] at hc; cases hc
      · rw [if_neg hd] at hc
        rcases List.mem_cons.1 hc with hc | hc
        · exact Or.inr hc
        · exact Or.inl ((padZero_facts (by omega) (Nat.mod_lt _ (by positivity))).2.2 c hc)
  · obtain ⟨c, r, e⟩ := List.exists_cons_of_ne_nil hne
    refine ⟨c, r ++ _, by unfold commaNumeral; rw [e]; rfl, hdig c (by rw [e]; simp)⟩

/-- A number printed with a decimal comma is read as the number of units of its last decimal. -/
theorem numReads_comma {f : Fmt} (hp : f.point = 44) (hf : DoubleRounding f.fl) (hr : NearestNat f.rd)
    (hg : ∀ n, n < 1000 → f.grp (natDec n) = natDec n) {ccy : Str} {v : Rat} (h : FitsDecimals (decimalsOf f ccy) v)
    (hv : |v| < 1000) : NumReads f ccy v (v * 10 ^ decimalsOf f ccy) := by
  unfold decimalsOf at *
  generalize hdec : (f.decs ccy).getD 2 = dec at *
  obtain ⟨h18, k, hk, hb⟩ := h
  obtain ⟨e1, e2⟩ := rounded_units hf hr (by omega) hk hb
  have h10 : (0 : Rat) < 10 ^ dec := by positivity
  have hkabs : |v| * 10 ^ dec = (k.natAbs : Rat) := by
    rw [← abs_of_pos h10, ← abs_mul, hk, Nat.cast_natAbs]; simp
  have hlt : k.natAbs / 10 ^ dec < 1000 := by
    rw [Nat.div_lt_iff_lt_mul (by positivity)]
    have : (k.natAbs : Rat) < 1000 * 10 ^ dec := by rw [← hkabs]; exact mul_lt_mul_of_pos_right hv h10
    exact_mod_cast this
  obtain ⟨c1, c2, c3⟩ := commaNumeral_digits (decide (f.fl v < 0)) dec k.natAbs
  refine ⟨commaNumeral (decide (f.fl v < 0)) dec k.natAbs, ?_, c2, ?_, by simp [commaNumeral, Numeral.fracDigits], ?_, c3⟩
  · unfold Fmt.number fmtFixedAt
    rw [hdec, hp]
    simp only [e1, hg _ hlt]
    unfold commaNumeral Numeral.text Numeral.fracText
    simp
  · unfold Numeral.mantissa
    have : (commaNumeral (decide (f.fl v < 0)) dec k.natAbs).fracDigits = [] := rfl
    rw [this, List.append_nil, c1]
    rw [Int.abs_eq_natAbs] at hb; omega
  · unfold Numeral.value
    have : (commaNumeral (decide (f.fl v < 0)) dec k.natAbs).fracDigits = [] := rfl
    rw [this, c1, ← hkabs]
    have e3 : (commaNumeral (decide (f.fl v < 0)) dec k.natAbs).neg = decide (f.fl v < 0) := rfl
    rw [e3]
    simp only [decide_eq_true_eq, e2, digitsVal, List.foldl_nil, Nat.cast_zero, zero_div, add_zero]
    by_cases hv : v < 0
    · rw [if_pos hv, abs_of_neg hv]; ring
    · rw [if_neg hv, abs_of_nonneg (not_lt.1 hv)]; ring

/-- A posting without the decimal sign. -/
def unpoint (f : Fmt) (p : Posting) : Posting :=
  { p with val := p.val * 10 ^ decimalsOf f p.ccy, bal := p.bal * 10 ^ decimalsOf f p.ccy }

theorem withoutPoint_eq (f : Fmt) (t : Txn) : withoutPoint f t = t.map (unpoint f) := rfl

theorem total_unpoint (f : Fmt) (d : Int) (py c : Str) (l : List Posting) :
    txnTotal d py c (l.map (unpoint f)) = txnTotal d py c l * 10 ^ decimalsOf f c := by
  unfold txnTotal total
  induction l with
  | nil => simp
  | cons p l ih =>
    have e : decide ((unpoint f p).date = d ∧ (unpoint f p).payee = py ∧ (unpoint f p).ccy = c) =
        decide (p.date = d ∧ p.payee = py ∧ p.ccy = c) := rfl
    by_cases h : p.date = d ∧ p.payee = py ∧ p.ccy = c
    · rw [List.map_cons, List.filter_cons_of_pos (by rw [e]; simpa using h), List.filter_cons_of_pos (by simpa using h), List.map_cons,
        List.map_cons, List.sum_cons, List.sum_cons, ih, add_mul]
      congr 1
      show p.val * 10 ^ decimalsOf f p.ccy = _
      rw [h.2.2]
    · rw [List.map_cons, List.filter_cons_of_neg (by rw [e]; simpa using h), List.filter_cons_of_neg (by simpa using h), ih]

theorem setBals_unpoint (f : Fmt) : ∀ (l : List Posting) (amts : Str × Str → Rat), setBals amts l = l →
    setBals (fun k => amts k * 10 ^ decimalsOf f k.2) (l.map (unpoint f)) = l.map (unpoint f) := by
  intro l
  induction l with
  | nil => intro _ _; rfl
  | cons p l ih =>
    intro amts h
    simp only [setBals, List.cons.injEq] at h
    obtain ⟨h1, h2⟩ := h
    have hbal : amts (p.acct, p.ccy) + p.val = p.bal := congrArg Posting.bal h1
    have := ih _ h2
    simp only [List.map_cons, setBals]
    have e : amts ((unpoint f p).acct, (unpoint f p).ccy) * 10 ^ decimalsOf f (unpoint f p).ccy + (unpoint f p).val = (unpoint f p).bal := by
      show amts (p.acct, p.ccy) * 10 ^ decimalsOf f p.ccy + p.val * 10 ^ decimalsOf f p.ccy = p.bal * 10 ^ decimalsOf f p.ccy
      rw [← add_mul, hbal]
    rw [e]
    congr 1
    rw [← this]
    congr 1
    funext k
    by_cases hk : k = (p.acct, p.ccy)
    · have hk2 : k = ((unpoint f p).acct, (unpoint f p).ccy) := hk
      rw [if_pos hk2, if_pos hk, hbal, hk]; rfl
    · have hk2 : ¬ k = ((unpoint f p).acct, (unpoint f p).ccy) := hk
      rw [if_neg hk2, if_neg hk]

theorem canonical_unpoint (f : Fmt) {ts : List Txn} (h : Canonical ts) : Canonical (ts.map (withoutPoint f)) := by
  constructor
  · intro t ht
    obtain ⟨u, hu, rfl⟩ := List.mem_map.1 ht
    simp only [withoutPoint_eq, ne_eq, List.map_eq_nil_iff]
    exact h.nonempty u hu
  · intro t ht p hp q hq
    obtain ⟨u, hu, rfl⟩ := List.mem_map.1 ht
    obtain ⟨p', hp', rfl⟩ := List.mem_map.1 hp
    obtain ⟨q', hq', rfl⟩ := List.mem_map.1 hq
    exact h.oneTxn u hu p' hp' q' hq'
  · rw [List.pairwise_map]
    refine h.txnOrder.imp ?_
    intro t u htu p hp q hq
    obtain ⟨p', hp', rfl⟩ := List.mem_map.1 hp
    obtain ⟨q', hq', rfl⟩ := List.mem_map.1 hq
    exact htu p' hp' q' hq'
  · intro t ht
    obtain ⟨u, hu, rfl⟩ := List.mem_map.1 ht
    rw [withoutPoint_eq, List.pairwise_map]
    exact (h.postOrder u hu).imp fun h => h
  · intro t ht p hp
    obtain ⟨u, hu, rfl⟩ := List.mem_map.1 ht
    obtain ⟨p', hp', rfl⟩ := List.mem_map.1 hp
    have := h.nonzero u hu p' hp'
    show p'.val * 10 ^ decimalsOf f p'.ccy ≠ 0
    exact mul_ne_zero this (by positivity)

theorem txnCalls_unpoint (f : Fmt) (t : Txn) :
    txnCalls (t.map fun p => { p with val := p.val * 10 ^ decimalsOf f p.ccy }) = txnCalls (withoutPoint f t) := by
  cases t with
  | nil => rfl
  | cons p t => simp [txnCalls, withoutPoint]

/-- A printer of a language other than English. -/
structure CommaFmt (f : Fmt) : Prop where
  point : f.point = 44
  short : ∀ n, n < 1000 → f.grp (natDec n) = natDec n
  float : DoubleRounding f.fl
  nearest : NearestNat f.rd

theorem comma_reload (srt : List Posting → List Posting) (hs : IsSort srt) (today : Int) (b : Book)
    (hr : Reachable srt today b) (f : Fmt) (hg : CommaFmt f) (hp : ∀ t ∈ b.transactions srt, PrintableTxn f t)
    (hv : ∀ p ∈ reported srt b, |p.val| < 1000) :
    ∃ text, showTxns f (b.transactions srt) = some text ∧
      ∀ (e : Env), e.letter 10 = false → ∀ (depth : Nat) (fn : Str), e.files fn = some text →
        ∃ bk, loadBook srt e (depth + 1) fn = .ok bk ∧ bk.transactions srt = (b.transactions srt).map fun t => asLoaded (withoutPoint f t) := by
  obtain ⟨hwf, hbal⟩ := reachable_wf hs hr
  have hwf1 := compact_wf hs hwf.plain hwf.nil_trans
  have hcan : Canonical (b.transactions srt) := compact_canonical hs hwf
  have hflat := transactions_flatten hs hwf
  have hpost : (b.transactions srt).flatten = compactPost srt b.post := by rw [hflat, compact_post b (srt_nil hs)]
  have hplain : ∀ p ∈ (b.transactions srt).flatten, Plain p := by rw [hflat]; exact hwf1.plain
  have hbt : ∀ t ∈ b.transactions srt, Balanced t := wf_balanced_trans hwf1 (compact_balanced hs hbal)
  have hfix : setBals (fun _ => 0) (b.transactions srt).flatten = (b.transactions srt).flatten := by
    rw [hpost]; unfold compactPost; exact setBals_setBals _ _
  have hv' : ∀ t ∈ b.transactions srt, ∀ p ∈ t, |p.val| < 1000 := fun t ht p hpt => hv p (List.mem_flatten.2 ⟨t, ht, hpt⟩)
  clear hv
  obtain ⟨text, k1, _, _, k4⟩ := read_txns_as (f := f) (fun p => p.val * 10 ^ decimalsOf f p.ccy) (b.transactions srt) fun t ht =>
    ⟨⟨(hp t ht).nonempty, (hp t ht).date, (hp t ht).payee, (hp t ht).tnote⟩, fun p hpt =>
      ⟨⟨((hp t ht).posts p hpt).acct, ((hp t ht).posts p hpt).ccy, ((hp t ht).posts p hpt).note⟩,
        numReads_comma hg.point hg.float hg.nearest hg.short ((hp t ht).posts p hpt).amount (hv' t ht p hpt)⟩⟩
  generalize b.transactions srt = ts at *
  refine ⟨text, k1, ?_⟩
  intro e he depth fn hfile
  have hcalls : ((ts.map fun t => t.map fun p => { p with val := p.val * 10 ^ decimalsOf f p.ccy }).flatMap txnCalls) =
      (ts.map (withoutPoint f)).flatMap txnCalls := by
    rw [List.flatMap_map, List.flatMap_map]
    congr 1
    funext t
    exact txnCalls_unpoint f t
  have hflat' : (ts.map (withoutPoint f)).flatten = ts.flatten.map (unpoint f) := by
    rw [List.map_flatten]; rfl
  obtain ⟨b', m1, m2, m3, m4⟩ := append_all_named (ts.map (withoutPoint f)) Builder.new [] seenInv_new openInv_new (canonical_unpoint f hcan)
    (by
      intro t ht
      obtain ⟨u, hu, rfl⟩ := List.mem_map.1 ht
      intro d py c
      rw [withoutPoint_eq, total_unpoint, hbt u hu d py c, zero_mul]) (by simp)
  have hld : parseFile e (depth + 1) Builder.new fn = .ok b' [] := by
    have := k4 e he depth fn Builder.new
    rw [hcalls, m1] at this
    unfold parseFile parseFileLocal
    rw [hfile]; exact this
  obtain ⟨bk, hbk, hbt, _⟩ := reload_build hs (canonical_unpoint f hcan) (by
      rw [hflat']
      intro p hp
      obtain ⟨q, hq, rfl⟩ := List.mem_map.1 hp
      exact hplain q hq) (by
      rw [hflat']
      have := setBals_unpoint f _ _ hfix
      simpa using this) m1 m2 (by rw [m4]; rfl)
  refine ⟨bk, ?_, ?_⟩
  · unfold loadBook; rw [hld]; simp only [hbk]
  · rw [hbt, List.map_map]; rfl

theorem grouped_short (sep : Str) {n : Nat} (h : n < 1000) (m : Nat) : grouped sep m (natDec n) = natDec n := by
  cases m with
  | zero => rfl
  | succ m => unfold grouped; rw [if_pos (natDec_length 3 (by decide) (by simpa using h))]

theorem lang_comma {l : Lang} (hl : l ≠ .english) (letter : Nat → Bool) {fl : Rat → Rat} (hf : DoubleRounding fl) {rd : Rat → Nat}
    (hn : NearestNat rd) (decs : Str → Option Nat) : CommaFmt (langFmt l letter fl rd decs) :=
  ⟨by cases l <;> first | exact absurd rfl hl | rfl, fun _ h => grouped_short _ h _, hf, hn⟩

/-- **C104**, what the code does instead: with the language set to Dutch, German or French, the transactions of any book whose amounts
are below 1000, printed in ledger format and loaded again, come back without any error, every amount and balance multiplied by ten for each
decimal its currency is printed with. -/
theorem c104_scaled (l : Lang) (hl : l ≠ .english) (srt : List Posting → List Posting) (hs : IsSort srt) (today : Int) (b : Book)
    (hr : Reachable srt today b) (letter : Nat → Bool) (fl : Rat → Rat) (hf : DoubleRounding fl) (rd : Rat → Nat) (hn : NearestNat rd)
    (decs : Str → Option Nat) (hp : ∀ t ∈ b.transactions srt, PrintableTxn (langFmt l letter fl rd decs) t)
    (hv : ∀ p ∈ reported srt b, |p.val| < 1000) :
    ∃ text, showTxns (langFmt l letter fl rd decs) (b.transactions srt) = some text ∧
      ∀ (e : Env), e.letter 10 = false → ∀ (depth : Nat) (fn : Str), e.files fn = some text →
        ∃ bk, loadBook srt e (depth + 1) fn = .ok bk ∧
          bk.transactions srt = (b.transactions srt).map fun t => asLoaded (withoutPoint (langFmt l letter fl rd decs) t) :=
  comma_reload srt hs today b hr _ (lang_comma hl letter hf hn decs) hp hv

/-- **C104**: in these languages the amounts come back as they were exactly if every currency is printed without decimals. -/
theorem c104_other_iff (l : Lang) (hl : l ≠ .english) (srt : List Posting → List Posting) (hs : IsSort srt) (today : Int) (b : Book)
    (hr : Reachable srt today b) (letter : Nat → Bool) (fl : Rat → Rat) (hf : DoubleRounding fl) (rd : Rat → Nat) (hn : NearestNat rd)
    (decs : Str → Option Nat) (hp : ∀ t ∈ b.transactions srt, PrintableTxn (langFmt l letter fl rd decs) t)
    (hv : ∀ p ∈ reported srt b, |p.val| < 1000) :
    ∃ text, showTxns (langFmt l letter fl rd decs) (b.transactions srt) = some text ∧
      ∀ (e : Env), e.letter 10 = false → ∀ (depth : Nat) (fn : Str), e.files fn = some text →
        ∃ bk, loadBook srt e (depth + 1) fn = .ok bk ∧
          (bk.transactions srt = (b.transactions srt).map asLoaded ↔
            ∀ p ∈ reported srt b, decimalsOf (langFmt l letter fl rd decs) p.ccy = 0) := by
  obtain ⟨text, h1, h2⟩ := c104_scaled l hl srt hs today b hr letter fl hf rd hn decs hp hv
  refine ⟨text, h1, fun e he depth fn hfile => ?_⟩
  obtain ⟨bk, h3, h4⟩ := h2 e he depth fn hfile
  refine ⟨bk, h3, ?_⟩
  rw [h4]
  have hcan := c04_transactions_canonical srt hs today b hr
  have hvals : ∀ t : Txn, (asLoaded t).map (·.val) = t.map (·.val) := by
    intro t; cases t with
    | nil => rfl
    | cons p t => simp [asLoaded]
  constructor
  · intro h p hp
    obtain ⟨t, ht, hpt⟩ := List.mem_flatten.1 hp
    have h6 := (List.map_inj_left.1 h) t ht
    have h7 := congrArg (List.map (·.val)) h6
    rw [hvals, hvals, withoutPoint_eq, List.map_map] at h7
    have h8 : p.val * 10 ^ decimalsOf _ p.ccy = p.val := (List.map_inj_left.1 h7) p hpt
    have h9 := hcan.nonzero t ht p hpt
    have h10 : (10 : Rat) ^ decimalsOf (langFmt l letter fl rd decs) p.ccy = 1 := by
      have : p.val * (10 ^ decimalsOf (langFmt l letter fl rd decs) p.ccy - 1) = 0 := by rw [mul_sub, h8]; ring
      rcases mul_eq_zero.1 this with h | h
      · exact absurd h h9
      · linarith
    by_contra hd
    have : (1 : Rat) < 10 ^ decimalsOf (langFmt l letter fl rd decs) p.ccy := one_lt_pow₀ (by norm_num) hd
    linarith
  · intro h
    apply List.map_congr_left
    intro t ht
    have : withoutPoint (langFmt l letter fl rd decs) t = t := by
      unfold withoutPoint
      conv_rhs => rw [← List.map_id t]
      apply List.map_congr_left
      intro p hp
      rw [h p (List.mem_flatten.2 ⟨t, ht, hp⟩)]
      simp
    rw [this]

/-- Lunch for 12.50. -/
def lunchCalls : List Call :=
  [.newTransaction 20200131 b!"lunch" [], .addPosting b!"Cash" b!"EUR" (-25/2) [], .addPosting b!"Exp" b!"EUR" (25/2) []]

/-- The printer of a language with the decimals of a book. -/
def demoLang (l : Lang) (b : Book) : Fmt := langFmt l (demoFmt b).letter toDouble halfEven (demoFmt b).decs

/-- What a German prints for it. -/
example : showTxns (demoLang .german (bookOf lunchCalls)) ((bookOf lunchCalls).transactions insSort) =
    some b!"2020/01/31 lunch\n  Cash  EUR -12,5\n  Exp  EUR 12,5\n\n" := by decide +kernel

/-- Non-vacuity: the hypotheses of `c104_scaled` and `c104_other_iff`. -/
example : Reachable insSort 0 (bookOf lunchCalls) ∧ DoubleRounding toDouble ∧ NearestNat halfEven ∧
    (∀ t ∈ (bookOf lunchCalls).transactions insSort, PrintableTxn (demoLang .german (bookOf lunchCalls)) t) ∧
    (∀ p ∈ reported insSort (bookOf lunchCalls), |p.val| < 1000) ∧
    ∃ p ∈ reported insSort (bookOf lunchCalls), decimalsOf (demoLang .german (bookOf lunchCalls)) p.ccy = 1 := by
  refine ⟨?_, toDouble_rounding, halfEven_nearest, ?_, by decide +kernel, by decide +kernel⟩
  · obtain ⟨bb, h1, h2⟩ := bookOf_built (cs := lunchCalls) (by decide +kernel)
    exact ⟨_, bb, _, [], h1, h2, rfl⟩
  · have h : (((bookOf lunchCalls).transactions insSort).all fun t => printableB (demoLang .german (bookOf lunchCalls)) t) = true := by decide +kernel
    intro t ht
    exact printable_of_b (List.all_eq_true.1 h t ht)

/-- C104 is false of the code: in German, 12.50 comes back as 125. -/
theorem c104_language_fails : ¬ ∀ (l : Lang) (cs : List Call) (b : Book), Built insSort cs b →
    (∀ t ∈ b.transactions insSort, PrintableTxn (demoLang l b) t) →
    ∀ text, showTxns (demoLang l b) (b.transactions insSort) = some text →
      (loadBook insSort (demoEnv [(b!"f", text)]) 1 b!"f").obs? insSort = some ((b.transactions insSort).map (·.map obs)) := by
  intro h
  have h1 : Built insSort lunchCalls (bookOf lunchCalls) := bookOf_built (by decide +kernel)
  have h3 : (((bookOf lunchCalls).transactions insSort).all fun t => printableB (demoLang .german (bookOf lunchCalls)) t) = true := by decide +kernel
  have h2 : showTxns (demoLang .german (bookOf lunchCalls)) ((bookOf lunchCalls).transactions insSort) =
      some b!"2020/01/31 lunch\n  Cash  EUR -12,5\n  Exp  EUR 12,5\n\n" := by decide +kernel
  have := h .german _ _ h1 (fun t ht => printable_of_b (List.all_eq_true.1 h3 t ht)) _ h2
  revert this
  decide +kernel

end Verif
