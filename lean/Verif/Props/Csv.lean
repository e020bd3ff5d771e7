import Verif.Model.Csv
import Verif.Spec.Csv
import Verif.Proofs.Export
import Verif.Props.Export

/-! # C94: printed amounts; C89: CSV -/

namespace Verif
open Spec

/-! ## Reading a printed number -/

theorem numeral_decimal {num : Numeral} (h : num.Valid) : decimalValue num.text = num.value := by
  obtain ⟨neg, ip, frac⟩ := num
  obtain ⟨h1, h2⟩ := h
  have ne46 : ∀ c ∈ ip, (c != 46) = true := by
    intro c hc
    rcases h1 c hc with h | h
    · simp only [digitChar, Bool.and_eq_true, decide_eq_true_eq] at h; simp; omega
    · simp [h]
  have ne45 : ∀ c ∈ ip, c ≠ 45 := by
    intro c hc
    rcases h1 c hc with h | h
    · simp only [digitChar, Bool.and_eq_true, decide_eq_true_eq] at h; omega
    · omega
  have hbody : ∀ fr : Option Str, ((ip ++ Numeral.fracText ⟨neg, ip, fr⟩).takeWhile fun c => c != 46) = ip ∧
      ((ip ++ Numeral.fracText ⟨neg, ip, fr⟩).dropWhile fun c => c != 46).drop 1 = fr.getD [] := by
    intro fr
    cases fr with
    | none =>
      simp only [Numeral.fracText, List.append_nil, Option.getD_none]
      have h1 := List.takeWhile_append_of_pos (l₂ := []) ne46
      have h2 := List.dropWhile_append_of_pos (l₂ := []) ne46
      simp only [List.append_nil, List.takeWhile_nil, List.dropWhile_nil] at h1 h2
      exact ⟨h1, by rw [h2]; rfl⟩
    | some f =>
      simp only [Numeral.fracText, Option.getD_some]
      rw [List.takeWhile_append_of_pos ne46, List.dropWhile_append_of_pos ne46]
      simp
  obtain ⟨b1, b2⟩ := hbody frac
  unfold decimalValue Numeral.value Numeral.text
  cases neg with
  | true =>
    simp only [if_true, List.cons_append, List.nil_append, List.head?_cons, List.drop_succ_cons, List.drop_zero]
    rw [b1, b2]
    rfl
  | false =>
    have hh : (ip ++ Numeral.fracText ⟨false, ip, frac⟩).head? ≠ some 45 := by
      cases ip with
      | nil => cases frac <;> simp [Numeral.fracText]
      | cons c r => simp; exact ne45 c (by simp)
    simp only [Bool.false_eq_true, if_false, List.nil_append]
    rw [if_neg hh, if_neg hh, b1, b2]
    rfl

/-- What any number prints as. -/
theorem fmtFixed_value {rd : Rat → Nat} {grp : Str → Str} (hg : GroupsDigits grp) (dec : Nat) (x : Rat) :
    decimalValue (fmtFixed rd grp dec x) = (if x < 0 then -1 else 1) * ((rd (|x| * 10 ^ dec) : Rat) / 10 ^ dec) := by
  obtain ⟨f1, f2, f3, f4, f5⟩ := printed_facts hg dec x (rd (|x| * 10 ^ dec))
  rw [printed_text rd grp dec x _ rfl, numeral_decimal f1, f4]

/-- **C94** (partial: fewer than 2^52 units of the last decimal).  An amount with no more decimals than its currency is
printed with is printed exactly, although printing goes through `float64`. -/
theorem c94_printed_exact_partial (f : Fmt) (hf : SoundFmt f) (ccy : Str) (v : Rat) (h : FitsDecimals (decimalsOf f ccy) v) :
    decimalValue (f.number ccy v) = v := by
  obtain ⟨num, n1, n2, n3, n4, n5, n6⟩ := fmtFixed_exact hf.float hf.nearest hf.groups h
  rw [number_sound hf.point]
  unfold decimalsOf at n1
  rw [n1, numeral_decimal n2, n5]

/-- **C94**: every amount is printed with an error of at most half a unit of the last decimal and 2^-53 of the amount. -/
theorem c94_printed_close (f : Fmt) (hf : SoundFmt f) (ccy : Str) (v : Rat) (hb : |v| ≤ 10 ^ 300)
    (hs : v = 0 ∨ 1 / 10 ^ 300 ≤ |v|) :
    |decimalValue (f.number ccy v) - v| ≤ 1 / 2 / 10 ^ decimalsOf f ccy + |v| / 2 ^ 53 := by
  rw [number_sound hf.point]
  rw [fmtFixed_value hf.groups]
  unfold decimalsOf
  generalize (f.decs ccy).getD 2 = dec
  have hc := hf.float.close v hb hs
  generalize f.fl v = x at *
  have h10 : (0 : Rat) < 10 ^ dec := by positivity
  have hr := hf.nearest (|x| * 10 ^ dec) (by positivity)
  have h1 : abs ((f.rd (|x| * 10 ^ dec) : Rat) / 10 ^ dec - |x|) ≤ 1 / 2 / 10 ^ dec := by
    have e : (f.rd (|x| * 10 ^ dec) : Rat) / 10 ^ dec - |x| = ((f.rd (|x| * 10 ^ dec) : Rat) - |x| * 10 ^ dec) / 10 ^ dec := by
      rw [sub_div, mul_div_assoc, div_self h10.ne', mul_one]
    rw [e, abs_div, abs_of_pos h10]
    exact div_le_div_of_nonneg_right hr h10.le
  have h2 : |(if x < 0 then -1 else 1) * ((f.rd (|x| * 10 ^ dec) : Rat) / 10 ^ dec) - x| ≤ 1 / 2 / 10 ^ dec := by
    by_cases hx : x < 0
    · rw [if_pos hx]
      have e : -1 * ((f.rd (|x| * 10 ^ dec) : Rat) / 10 ^ dec) - x = -((f.rd (|x| * 10 ^ dec) : Rat) / 10 ^ dec - |x|) := by
        rw [abs_of_neg hx]; ring
      rw [e, abs_neg]; exact h1
    · rw [if_neg hx, one_mul]
      have e : |x| = x := abs_of_nonneg (not_lt.1 hx)
      rw [e] at h1 ⊢; exact h1
  calc _ ≤ _ := abs_sub_le _ x v
    _ ≤ _ := add_le_add h2 hc

/-- C94 is false of the code for large amounts, whatever the rounding of halves: 2^53 + 1 has no decimals, but is
not printed as such. -/
theorem c94_large_fails (f : Fmt) (hf : SoundFmt f) (ccy : Str) (hd : decimalsOf f ccy = 0) :
    decimalValue (f.number ccy (2 ^ 53 + 1)) ≠ 2 ^ 53 + 1 := by
  rw [number_sound hf.point]
  unfold decimalsOf at hd
  rw [fmtFixed_value hf.groups, hd]
  have hbig : |(2 ^ 53 + 1 : Rat)| ≤ 10 ^ 300 := by
    rw [abs_of_pos (by positivity)]
    have h2 : (2 : Rat) ^ 53 + 1 ≤ 10 ^ 30 := by norm_num
    exact le_trans h2 (pow_le_pow_right₀ (by norm_num) (by norm_num))
  have hdb := hf.float.double _ hbig
  have hc := hf.float.close (2 ^ 53 + 1) hbig (Or.inr (by
    rw [abs_of_pos (by positivity), div_le_iff₀ (by positivity)]
    have : (1 : Rat) ≤ 10 ^ 300 := one_le_pow₀ (by norm_num)
    have h3 : (1 : Rat) ≤ 2 ^ 53 + 1 := by norm_num
    calc (1 : Rat) = 1 * 1 := by ring
      _ ≤ (2 ^ 53 + 1) * 10 ^ 300 := mul_le_mul h3 this (by norm_num) (by norm_num)))
  generalize f.fl (2 ^ 53 + 1) = x at *
  have hnd : x ≠ 2 ^ 53 + 1 := fun h => not_double (h ▸ hdb)
  rw [abs_of_pos (show (0 : Rat) < 2 ^ 53 + 1 by positivity)] at hc
  have hlow : (2 : Rat) ^ 53 - 1 < x := by
    have := (abs_le.1 hc).1
    have e : ((2 : Rat) ^ 53 + 1) / 2 ^ 53 < 2 := by norm_num
    linarith
  have hx : ¬ x < 0 := by
    have : (0 : Rat) < 2 ^ 53 - 1 := by norm_num
    intro h; linarith
  -- x is whole
  obtain ⟨m, e, hm, he⟩ := hdb
  have hint : ∃ k : Int, x = k := by
    by_cases h0 : 0 ≤ e
    · obtain ⟨k, rfl⟩ := Int.eq_ofNat_of_zero_le h0
      exact ⟨m * 2 ^ k, by rw [he]; push_cast; rw [zpow_natCast]⟩
    · exfalso
      have h1 : (2 : Rat) ^ e ≤ 1 / 2 := by
        have := zpow_le_zpow_right₀ (a := (2 : Rat)) (by norm_num) (show e ≤ -1 by omega)
        rw [zpow_neg_one] at this
        rw [one_div]; exact this
      have h0' : (0 : Rat) < 2 ^ e := by positivity
      have hm' : (m : Rat) ≤ 2 ^ 53 := by
        have : m ≤ 2 ^ 53 := le_trans (le_abs_self m) hm
        exact_mod_cast this
      have h3 : (m : Rat) * 2 ^ e ≤ 2 ^ 53 * (1 / 2) := by
        by_cases hmm : 0 ≤ (m : Rat)
        · exact mul_le_mul hm' h1 h0'.le (by positivity)
        · have : (m : Rat) * 2 ^ e ≤ 0 := mul_nonpos_of_nonpos_of_nonneg (by linarith) h0'.le
          exact le_trans this (by positivity)
      rw [← he] at h3
      have : (2 : Rat) ^ 53 * (1 / 2) < 2 ^ 53 - 1 := by norm_num
      linarith
  obtain ⟨k, hk⟩ := hint
  have hr := hf.nearest (|x| * 10 ^ 0) (by positivity)
  rw [pow_zero, mul_one, abs_of_nonneg (not_lt.1 hx)] at hr ⊢
  rw [if_neg hx, div_one, one_mul]
  intro heq
  rw [heq, hk] at hr
  have h4 : |(((2 : Int) ^ 53 + 1 - k : Int) : Rat)| ≤ 1 / 2 := by push_cast; norm_num at hr ⊢; exact hr
  have h5 : |(2 : Int) ^ 53 + 1 - k| < 1 := by
    have : ((|(2 : Int) ^ 53 + 1 - k| : Int) : Rat) < 1 := by push_cast at h4 ⊢; linarith
    exact_mod_cast this
  have h6 := Int.abs_lt_one_iff.1 h5
  apply hnd
  rw [hk]
  have : k = 2 ^ 53 + 1 := by omega
  rw [this]; norm_num

/-- Non-vacuity: a sound printer and an amount it prints exactly; and one with an unprintable amount. -/
example : SoundFmt (demoFmt (bookOf exportCalls)) ∧ FitsDecimals (decimalsOf (demoFmt (bookOf exportCalls)) b!"$") (-2469/2) ∧
    decimalsOf (demoFmt (bookOf exportCalls)) b!"A B" = 0 :=
  ⟨demoFmt_sound _, by
    have : decimalsOf (demoFmt (bookOf exportCalls)) b!"$" = 1 := by decide +kernel
    rw [this]; exact ⟨by decide, -12345, by norm_num, by norm_num⟩, by decide +kernel⟩

/-! ## C89: CSV -/

/-- Characters that need no quotes. -/
def csvPlain (c : Nat) : Prop := c ≠ 10 ∧ c ≠ 13 ∧ c ≠ 34 ∧ c ≠ 44

theorem read_bare (s : Str) : ∀ (f : Str) r rows rest, (∀ c ∈ s, csvPlain c) →
    readCsv .bare f r rows (s ++ rest) = readCsv .bare (f ++ s) r rows rest := by
  induction s with
  | nil => intros; simp
  | cons c s ih =>
    intro f r rows rest h
    obtain ⟨h1, h2, h3, h4⟩ := h c (by simp)
    rw [List.cons_append, readCsv, if_neg (by simp [h2, h3]), if_neg h4, if_neg h1, ih _ _ _ _ (fun d hd => h d (List.mem_cons_of_mem _ hd))]
    simp

theorem read_quoted (s : Str) : ∀ (f : Str) r rows rest,
    readCsv .quoted f r rows (csvEscape s ++ rest) = readCsv .quoted (f ++ s) r rows rest := by
  induction s with
  | nil => intros; simp [csvEscape]
  | cons c s ih =>
    intro f r rows rest
    unfold csvEscape
    by_cases hc : c = 34
    · subst hc
      simp only [if_true, List.cons_append, List.nil_append]
      rw [readCsv, if_pos rfl, readCsv, if_pos rfl, ih]
      simp
    · simp only [hc, if_false, List.cons_append, List.nil_append]
      rw [readCsv, if_neg hc, ih]
      simp

/-- After a field comes a comma or the end of the record. -/
theorem read_field (space : Nat → Bool) (s : Str) (r : List Str) (rows : List (List Str)) (rest : Str) :
    readCsv .start [] r rows (csvField space s ++ 44 :: rest) = readCsv .start [] (r ++ [s]) rows rest ∧
    readCsv .start [] r rows (csvField space s ++ 10 :: rest) = readCsv .start [] [] (rows ++ [r ++ [s]]) rest := by
  unfold csvField
  split
  · simp only [List.cons_append, List.append_assoc, List.nil_append]
    constructor <;>
    · rw [readCsv, if_pos rfl, read_quoted, readCsv, if_pos rfl, readCsv, if_neg (by decide)]
      simp
  · rename_i h
    cases s with
    | nil => constructor <;> simp [readCsv]
    | cons c s =>
      simp only [csvNeedsQuotes, Bool.or_eq_true, not_or, List.any_eq_true, not_exists, not_and, decide_eq_true_eq] at h
      have hp : ∀ d ∈ c :: s, csvPlain d := by
        intro d hd
        have := h.1.2 d hd
        simp only [beq_iff_eq, not_or] at this
        exact ⟨this.1.1.1, this.1.1.2, this.1.2, this.2⟩
      obtain ⟨h1, h2, h3, h4⟩ := hp c (by simp)
      constructor <;>
      · rw [List.cons_append, readCsv, if_neg h3, if_neg h4, if_neg h1, if_neg h2, read_bare _ _ _ _ _ (fun d hd => hp d (List.mem_cons_of_mem _ hd)), readCsv]
        simp

theorem read_rest (space : Nat → Bool) (fs : List Str) : ∀ (s : Str) (r : List Str) (rows : List (List Str)) (rest : Str),
    readCsv .start [] r rows (csvField space s ++ csvRest space fs ++ rest) = readCsv .start [] [] (rows ++ [r ++ s :: fs]) rest := by
  induction fs with
  | nil =>
    intro s r rows rest
    simp only [csvRest, List.append_assoc, List.cons_append, List.nil_append]
    exact (read_field space s r rows rest).2
  | cons g fs ih =>
    intro s r rows rest
    simp only [csvRest, List.append_assoc, List.cons_append]
    rw [(read_field space s r rows _).1, ← List.append_assoc, ih]
    simp

theorem read_records (space : Nat → Bool) (rs : List (List Str)) : ∀ rows, (∀ r ∈ rs, r ≠ []) →
    readCsv .start [] [] rows (csvText space rs) = some (rows ++ rs) := by
  induction rs with
  | nil => intro rows _; simp [csvText, readCsv]
  | cons r rs ih =>
    intro rows h
    obtain ⟨s, fs, rfl⟩ := List.exists_cons_of_ne_nil (h r (by simp))
    have := read_rest space fs s [] rows (csvText space rs)
    simp only [csvText, List.map_cons, List.flatten_cons, csvRecord] at this ⊢
    rw [this]
    have := ih (rows ++ [s :: fs]) (fun r hr => h r (List.mem_cons_of_mem _ hr))
    rw [csvText] at this
    simpa using this

/-- **C89**: whatever the text of the fields, reading the CSV gives the records back. -/
theorem c89_fields_roundtrip (space : Nat → Bool) (rows : List (List Str)) (h : ∀ r ∈ rows, r ≠ []) :
    parseCsv (csvText space rows) = some rows := by
  simpa [parseCsv] using read_records space rows [] h

theorem groupsDigits_id : GroupsDigits id := by
  intro n
  refine ⟨List.filter_eq_self.2 (isDigit_natDec n), fun c hc => Or.inl (isDigit_natDec n c hc), ?_⟩
  obtain ⟨c, r, h⟩ := List.exists_cons_of_ne_nil (natDec_ne_nil n)
  exact ⟨c, r, h, isDigit_natDec n c (by rw [h]; simp)⟩

/-- An amount in millionths, fewer than 2^52 of them. -/
def Millionths (v : Rat) : Prop := ∃ k : Int, v * 10 ^ 6 = k ∧ |k| < 2 ^ 52

theorem fmtF_exact {fl : Rat → Rat} (hf : DoubleRounding fl) {rd : Rat → Nat} (hr : NearestNat rd) {v : Rat} (h : Millionths v) :
    decimalValue (fmtF rd (fl v)) = v := by
  obtain ⟨num, n1, n2, n3, n4, n5, n6⟩ := fmtFixed_exact hf hr groupsDigits_id (dec := 6) ⟨by decide, h⟩
  unfold fmtF
  rw [n1, numeral_decimal n2, n5]

/-- **C89** (partial: amounts in millionths below 2^52, and transactions whose postings carry the same transaction
note).  Reading the exported CSV gives the header and then, in the order of the report, one row for each posting of
the book that says its date, payee, transaction note, account, currency, amount and note. -/
theorem c89_export_rows_partial {srt : List Posting → List Posting} (hs : IsSort srt) {today : Int} {b : Book}
    (hb : Reachable srt today b) (space : Nat → Bool) (fl : Rat → Rat) (hf : DoubleRounding fl) (rd : Rat → Nat) (hr : NearestNat rd)
    (hn : ∀ t ∈ b.transactions srt, ∀ p ∈ t, ∀ q ∈ t, p.tnote = q.tnote)
    (hm : ∀ t ∈ b.transactions srt, ∀ p ∈ t, Millionths p.val) :
    ∃ rows, parseCsv (exportCSV space fl rd (b.transactions srt)) = some (exportHeadings :: rows) ∧
      List.Forall₂ (RowSays dateString) rows (b.transactions srt).flatten := by
  have hc : ∀ t ∈ b.transactions srt, ∀ p ∈ t, ∀ q ∈ t, p.date = q.date ∧ p.payee = q.payee := by
    have hcb : Canonical (b.transactions srt) := compact_canonical hs (reachable_wf hs hb).1
    exact hcb.oneTxn
  refine ⟨_, c89_fields_roundtrip space _ ?_, ?_⟩
  · intro r hr
    rcases List.mem_cons.1 hr with rfl | hr
    · simp [csvHeader]
    · obtain ⟨l, hl, hrl⟩ := List.mem_flatten.1 hr
      obtain ⟨t, ht, rfl⟩ := List.mem_map.1 hl
      cases t with
      | nil => cases hrl
      | cons p t =>
        simp only [csvTxn] at hrl
        obtain ⟨q, _, rfl⟩ := List.mem_map.1 hrl
        simp
  · generalize b.transactions srt = ts at *
    clear hb
    induction ts with
    | nil => simp
    | cons t ts ih =>
      simp only [List.map_cons, List.flatten_cons]
      refine List.rel_append (R := RowSays dateString) ?_ (ih (fun t ht => hn t (List.mem_cons_of_mem _ ht))
        (fun t ht => hm t (List.mem_cons_of_mem _ ht)) (fun t ht => hc t (List.mem_cons_of_mem _ ht)))
      have hn := hn t (by simp); have hm := hm t (by simp); have hc := hc t (by simp)
      cases t with
      | nil => simp [csvTxn]
      | cons h t =>
        simp only [csvTxn]
        rw [List.forall₂_map_left_iff, List.forall₂_same]
        intro p hp
        refine ⟨_, ?_, fmtF_exact hf hr (hm p hp)⟩
        rw [(hc h (by simp) p hp).1, (hc h (by simp) p hp).2, hn h (by simp) p hp]

/-- The transaction note is a function of date and payee. -/
def NotesAgree (f : Int → Str → Str) (l : List Posting) : Prop := ∀ p ∈ l, p.tnote = f p.date p.payee

theorem calls_notes (cs : List Call) : ∀ (b b' : Builder) (names : List (Int × Str)) (f : Int → Str → Str), SeenInv b names →
    NotesAgree f b.post → b.currNote = f b.currDate b.currPayee →
    (∀ p ∈ b.post, (p.date, p.payee) ∈ (-1, []) :: names) → (b.currDate, b.currPayee) ∈ (-1, []) :: names →
    (∀ d p n, Call.newTransaction d p n ∈ cs → d ≠ -1) → b.calls cs = some b' →
    ∃ g, NotesAgree g b'.post := by
  induction cs with
  | nil => intro b b' names f _ h _ _ _ _ hb; cases hb; exact ⟨f, h⟩
  | cons c cs ih =>
    intro b b' names f hs hn hc hp hcur hd hb
    have hd' : ∀ d p n, Call.newTransaction d p n ∈ cs → d ≠ -1 := fun d p n hm => hd d p n (List.mem_cons_of_mem _ hm)
    unfold Builder.calls at hb
    cases c with
    | newTransaction d p n =>
      simp only [Builder.call] at hb
      cases hnt : b.newTransaction d p n with
      | none => rw [hnt] at hb; cases hb
      | some b1 =>
        rw [hnt] at hb
        obtain ⟨e1, e2, e3, _⟩ := newTransaction_step hs hnt
        have e4 : b1.post = b.post ∧ b1.currNote = n := by
          unfold Builder.newTransaction at hnt
          cases hcc : b.checkAndClear with
          | none => rw [hcc] at hnt; cases hnt
          | some b2 =>
            have : b2.post = b.post := by
              unfold Builder.checkAndClear at hcc
              split at hcc
              · cases hcc; rfl
              · cases hcc
            rw [hcc] at hnt
            simp only at hnt
            split at hnt
            · cases hnt
            · cases hnt; exact ⟨this, rfl⟩
        refine ih b1 b' _ (fun d' p' => if (d', p') = (d, b1.currPayee) then n else f d' p') e3 ?_ ?_ ?_ ?_ hd' hb
        · rw [e4.1]
          intro q hq
          show q.tnote = if (q.date, q.payee) = (d, b1.currPayee) then n else f q.date q.payee
          rw [if_neg, hn q hq]
          intro e
          rcases List.mem_cons.1 (e ▸ hp q hq) with h | h
          · exact hd d p n (by simp) (by simpa using congrArg Prod.fst h)
          · exact e2 h
        · simp [e4.2, e1]
        · rw [e4.1]
          intro q hq
          rcases List.mem_cons.1 (hp q hq) with h | h
          · rw [h]; simp
          · exact List.mem_cons_of_mem _ (List.mem_cons_of_mem _ h)
        · rw [e1]; simp
    | addPosting a c v n =>
      simp only [Builder.call] at hb
      refine ih (b.addPosting a c v n) b' names f hs ?_ hc ?_ hcur hd' hb
      · intro q hq
        rcases List.mem_append.1 hq with hq | hq
        · exact hn q hq
        · rw [List.mem_singleton.1 hq]; exact hc
      · intro q hq
        rcases List.mem_append.1 hq with hq | hq
        · exact hp q hq
        · rw [List.mem_singleton.1 hq]; exact hcur
    | addPrice d u c v =>
      simp only [Builder.call] at hb
      exact ih (b.addPrice d u c v) b' names f hs hn hc hp hcur hd' hb

/-- In a built book all postings of a transaction carry the same transaction note. -/
theorem built_notes {srt : List Posting → List Posting} (hs : IsSort srt) {cs : List Call} {b : Book} (h : Built srt cs b)
    (hd : ∀ d p n, Call.newTransaction d p n ∈ cs → d ≠ -1) :
    ∃ g, NotesAgree g (b.transactions srt).flatten := by
  have hwf := (Built.wf hs h).1
  obtain ⟨bb, h1, h2⟩ := h
  obtain ⟨g, hg⟩ := calls_notes cs Builder.new bb [] (fun _ _ => []) seenInv_new (by simp [NotesAgree, Builder.new]) rfl
    (by simp [Builder.new]) (by simp [Builder.new]) hd h1
  refine ⟨g, ?_⟩
  have hq1 : ∀ (p : Posting) v, p.tnote = g p.date p.payee → ({ p with val := v } : Posting).tnote = g ({ p with val := v } : Posting).date ({ p with val := v } : Posting).payee := fun _ _ h => h
  have hq2 : ∀ (p : Posting) v, p.tnote = g p.date p.payee → ({ p with bal := v } : Posting).tnote = g ({ p with bal := v } : Posting).date ({ p with bal := v } : Posting).payee := fun _ _ h => h
  have hb1 : NotesAgree g b.post := by
    unfold Builder.build at h2
    cases hc : bb.checkAndClear with
    | none => rw [hc] at h2; cases h2
    | some b2 =>
      have e : b2.post = bb.post := by
        unfold Builder.checkAndClear at hc
        split at hc
        · cases hc; rfl
        · cases hc
      rw [hc] at h2
      cases h2
      rw [compact_post _ (srt_nil hs)]
      exact compactPost_all hs hq1 hq2 (by rw [e]; exact hg)
  rw [transactions_flatten hs hwf, compact_post _ (srt_nil hs)]
  exact compactPost_all hs hq1 hq2 hb1

/-- **C89** (partial: amounts in millionths below 2^52).  For a book as built (or loaded), without any condition on notes. -/
theorem c89_built_rows_partial {srt : List Posting → List Posting} (hs : IsSort srt) {cs : List Call} {b : Book} (h : Built srt cs b)
    (hd : ∀ d p n, Call.newTransaction d p n ∈ cs → d ≠ -1) (space : Nat → Bool) (fl : Rat → Rat) (hf : DoubleRounding fl)
    (rd : Rat → Nat) (hr : NearestNat rd) (hm : ∀ t ∈ b.transactions srt, ∀ p ∈ t, Millionths p.val) :
    ∃ rows, parseCsv (exportCSV space fl rd (b.transactions srt)) = some (exportHeadings :: rows) ∧
      List.Forall₂ (RowSays dateString) rows (b.transactions srt).flatten := by
  obtain ⟨g, hg⟩ := built_notes hs h hd
  have hr0 : Reachable srt 0 b := by
    obtain ⟨bb, h1, h2⟩ := h
    exact ⟨_, bb, _, [], h1, h2, rfl⟩
  have hcb : Canonical (b.transactions srt) := compact_canonical hs (reachable_wf hs hr0).1
  refine c89_export_rows_partial hs hr0 space fl hf rd hr ?_ hm
  intro t ht p hp q hq
  obtain ⟨e1, e2⟩ := hcb.oneTxn t ht p hp q hq
  rw [hg p (List.mem_flatten.2 ⟨t, ht, hp⟩), hg q (List.mem_flatten.2 ⟨t, ht, hq⟩), e1, e2]

/-- **C89** (partial, as above) for the register. -/
theorem c89_register_rows_partial (space : Nat → Bool) (fl : Rat → Rat) (hf : DoubleRounding fl) (rd : Rat → Nat) (hr : NearestNat rd)
    (rep : List RegEntry) (hm : ∀ e ∈ rep, Millionths e.amount ∧ Millionths e.balance) :
    ∃ text rows, registerCSV space fl rd (rep.map some) = some text ∧ parseCsv text = some (registerHeadings :: rows) ∧
      List.Forall₂ EntrySays rows rep := by
  have e : ((rep.map some).mapM fun (e : Option RegEntry) => e.map (csvEntry fl rd)) = some (rep.map (csvEntry fl rd)) := by
    clear hm
    induction rep with
    | nil => rfl
    | cons x l ih => rw [List.map_cons, List.mapM_cons, ih]; rfl
  refine ⟨csvText space (registerHeader :: rep.map (csvEntry fl rd)), rep.map (csvEntry fl rd), ?_, c89_fields_roundtrip space _ ?_, ?_⟩
  · unfold registerCSV; rw [e]; rfl
  · intro r hr
    rcases List.mem_cons.1 hr with rfl | hr
    · simp [registerHeader]
    · obtain ⟨q, _, rfl⟩ := List.mem_map.1 hr
      simp [csvEntry]
  · rw [List.forall₂_map_left_iff, List.forall₂_same]
    intro x hx
    exact ⟨_, _, rfl, fmtF_exact hf hr (hm x hx).1, fmtF_exact hf hr (hm x hx).2⟩

/-- What the rows must contain in the third and sixth column. -/
theorem says_columns {rows : List (List Str)} {ps : List Posting} (h : List.Forall₂ (RowSays dateString) rows ps) :
    rows.map (fun r => r[2]?) = ps.map (fun p => some p.tnote) ∧
    rows.map (fun r => (r[5]?).map decimalValue) = ps.map (fun p => some p.val) := by
  induction h with
  | nil => exact ⟨rfl, rfl⟩
  | cons hd _ ih =>
    obtain ⟨amt, rfl, ha⟩ := hd
    simp [ih.1, ih.2, ha]

/-- The book of the round trip meets the hypotheses; payee with a comma and a quote. -/
def csvCalls : List Call :=
  [.newTransaction 20200131 b!"A, \"B\" & C" b!"n1", .addPosting b!"Exp:Food" b!"$" (2469/2) b!"lunch", .addPosting b!"Cash" b!"$" (-2469/2) []]

example : exportCSV isSpace toDouble halfEven ((bookOf csvCalls).transactions insSort) =
    b!"date,payee,transaction_note,account,currency,amount,post_note\n2020/01/31,\"A, \"\"B\"\" & C\",n1,Cash,$,-1234.500000,\n2020/01/31,\"A, \"\"B\"\" & C\",n1,Exp:Food,$,1234.500000,lunch\n" := by
  decide +kernel

/-- Non-vacuity: the book meets the hypotheses of `c89_export_rows_partial`. -/
example : Reachable insSort 0 (bookOf csvCalls) ∧ DoubleRounding toDouble ∧ NearestNat halfEven ∧
    (∀ t ∈ (bookOf csvCalls).transactions insSort, ∀ p ∈ t, ∀ q ∈ t, p.tnote = q.tnote) ∧
    ∀ t ∈ (bookOf csvCalls).transactions insSort, ∀ p ∈ t, Millionths p.val := by
  refine ⟨?_, toDouble_rounding, halfEven_nearest, by decide +kernel, ?_⟩
  · obtain ⟨bb, h1, h2⟩ := bookOf_built (cs := csvCalls) (by decide +kernel)
    exact ⟨_, bb, _, [], h1, h2, rfl⟩
  · intro t ht p hp
    have h : ((bookOf csvCalls).transactions insSort).flatten.map (·.val) = [-2469/2, 2469/2] := by decide +kernel
    have : p.val ∈ [(-2469/2 : Rat), 2469/2] := by
      rw [← h]; exact List.mem_map_of_mem (List.mem_flatten.2 ⟨t, ht, hp⟩)
    rcases List.mem_cons.1 this with h | h
    · rw [h]; exact ⟨-1234500000, by norm_num, by norm_num⟩
    · rw [List.mem_singleton.1 h]; exact ⟨1234500000, by norm_num, by norm_num⟩

/-- Two transactions with different notes, at the same shop. -/
def mergedNotes : List Call :=
  [.newTransaction 20200110 b!"shop" b!"first", .addPosting b!"Exp:Food" b!"EUR" 1 [], .addPosting b!"Cash" b!"EUR" (-1) [],
   .newTransaction 20200120 b!"shop" b!"second", .addPosting b!"Exp:Shoes" b!"EUR" 2 [], .addPosting b!"Bank" b!"EUR" (-2) []]

/-- The book after combining by month. -/
def mergedBook : Book := (bookOf mergedNotes).splitBy insSort 20200601 b!"monthly"

/-- C89 is false of the code: every row of a transaction carries the transaction note of the first posting. -/
theorem c89_note_fails : ¬ ∀ (today : Int) (b : Book), Reachable insSort today b →
    ∃ rows, parseCsv (exportCSV isSpace toDouble halfEven (b.transactions insSort)) = some (exportHeadings :: rows) ∧
      List.Forall₂ (RowSays dateString) rows (b.transactions insSort).flatten := by
  intro h
  have hr : Reachable insSort 20200601 mergedBook := by
    obtain ⟨bb, h1, h2⟩ := bookOf_built (cs := mergedNotes) (by decide +kernel)
    exact ⟨_, bb, _, [.splitBy b!"monthly"], h1, h2, rfl⟩
  obtain ⟨rows, h1, h2⟩ := h _ _ hr
  have h3 := (says_columns h2).1
  have h4 : (parseCsv (exportCSV isSpace toDouble halfEven (mergedBook.transactions insSort))).map (fun l => l.tail.map fun r => r[2]?) =
      some ((mergedBook.transactions insSort).flatten.map fun p => some p.tnote) := by
    rw [h1, ← h3]; rfl
  revert h4
  decide +kernel

/-- A posting of a hundred-millionth (one satoshi). -/
def satoshi : List Call :=
  [.newTransaction 20200131 b!"tip" [], .addPosting b!"Exp" b!"BTC" (1/100000000) [], .addPosting b!"Wallet" b!"BTC" (-1/100000000) []]

/-- C89 is false of the code: amounts are cut to six decimals, whatever the decimals of the currency. -/
theorem c89_decimals_fails : ¬ ∀ (cs : List Call) (b : Book), Built insSort cs b →
    ∃ rows, parseCsv (exportCSV isSpace toDouble halfEven (b.transactions insSort)) = some (exportHeadings :: rows) ∧
      List.Forall₂ (RowSays dateString) rows (b.transactions insSort).flatten := by
  intro h
  obtain ⟨rows, h1, h2⟩ := h _ _ (bookOf_built (cs := satoshi) (by decide +kernel))
  have h3 := (says_columns h2).2
  have h4 : (parseCsv (exportCSV isSpace toDouble halfEven ((bookOf satoshi).transactions insSort))).map (fun l => l.tail.map fun r => (r[5]?).map decimalValue) =
      some (((bookOf satoshi).transactions insSort).flatten.map fun p => some p.val) := by
    rw [h1, ← h3]; rfl
  revert h4
  decide +kernel

/-! ## C95: the register as a CSV file -/

theorem read_prefix (s : Str) : ∀ (st : CsvState) (f : Str) (r : List Str) (rows out : List (List Str)),
    readCsv st f r rows s = some out → ∃ more, out = rows ++ more := by
  induction s with
  | nil =>
    intro st f r rows out h
    simp only [readCsv] at h
    split at h
    · cases h; exact ⟨[], by simp⟩
    · cases h
  | cons c s ih =>
    have app : ∀ (st : CsvState) (f : Str) (r : List Str) (rows out : List (List Str)) (x : List Str), readCsv st f r (rows ++ [x]) s = some out →
        ∃ more, out = rows ++ more := by
      intro st f r rows out x h
      obtain ⟨m, rfl⟩ := ih _ _ _ _ _ h
      exact ⟨x :: m, by simp⟩
    intro st f r rows out h
    cases st <;> simp only [readCsv] at h <;> split_ifs at h <;>
      first
        | exact ih _ _ _ _ _ h
        | exact app _ _ _ _ _ _ h

/-- **C95** (partial: with `--combined`).  The register written as CSV is one table: the headings, and for each entry, in their order, a
row of as many fields. -/
theorem c95_combined_partial (space : Nat → Bool) (fl : Rat → Rat) (rd : Rat → Nat) (rep : List RegEntry) :
    ∃ text rows, registerCSV space fl rd (rep.map some) = some text ∧ parseCsv text = some (registerHeadings :: rows) ∧
      List.Forall₂ (fun row (e : RegEntry) => row.length = registerHeadings.length ∧ row[0]? = some (dateString e.date) ∧
        row[1]? = some e.payee ∧ row[2]? = some e.account ∧ row[3]? = some e.counterAccount ∧ row[4]? = some e.ccy) rows rep := by
  have e : ((rep.map some).mapM fun (e : Option RegEntry) => e.map (csvEntry fl rd)) = some (rep.map (csvEntry fl rd)) := by
    induction rep with
    | nil => rfl
    | cons x l ih => rw [List.map_cons, List.mapM_cons, ih]; rfl
  refine ⟨csvText space (registerHeader :: rep.map (csvEntry fl rd)), rep.map (csvEntry fl rd), ?_, c89_fields_roundtrip space _ ?_, ?_⟩
  · unfold registerCSV; rw [e]; rfl
  · intro r hr
    rcases List.mem_cons.1 hr with rfl | hr
    · simp [registerHeader]
    · obtain ⟨q, _, rfl⟩ := List.mem_map.1 hr
      simp [csvEntry]
  · rw [List.forall₂_map_left_iff, List.forall₂_same]
    intro x hx
    exact ⟨rfl, rfl, rfl, rfl, rfl, rfl⟩

/-- C95 is false of the code without `--combined`: whatever the accounts, the output does not begin with the header; it is not one table. -/
theorem c95_sections_fails (space : Nat → Bool) (fl : Rat → Rat) (rd : Rat → Nat) (ansi : Str → Str)
    (secs : List (Str × List (Option RegEntry))) (hs : secs ≠ []) (text : Str) (h : registerSectionsCSV space fl rd ansi secs = some text) :
    ¬ ∃ rows, parseCsv text = some (registerHeadings :: rows) := by
  rintro ⟨rows, hp⟩
  obtain ⟨⟨acct, rs⟩, secs, rfl⟩ := List.exists_cons_of_ne_nil hs
  simp only [registerSectionsCSV] at h
  cases h1 : registerCSV space fl rd rs with
  | none => rw [h1] at h; cases h
  | some s =>
    cases h2 : registerSectionsCSV space fl rd ansi secs with
    | none => rw [h1, h2] at h; cases h
    | some r =>
      rw [h1, h2] at h
      cases h
      simp only [parseCsv, List.cons_append, List.nil_append] at hp
      rw [readCsv, if_neg (by decide), if_neg (by decide), if_pos rfl] at hp
      obtain ⟨m, hm⟩ := read_prefix _ _ _ _ _ _ hp
      rw [List.nil_append, List.nil_append, List.singleton_append, List.cons.injEq] at hm
      exact absurd hm.1 (by decide)

/-- Non-vacuity: a section that is written. -/
example : registerSectionsCSV isSpace toDouble halfEven id
    [(b!"Cash", [some ⟨20200131, b!"Cash", b!"shop", b!"Exp", -5/2, b!"EUR", -5/2, [], [], b!"EUR", -5/2, .exact, -5/2⟩])] =
    some b!"\nCash\ndate,payee,account,counterAccount,ccy,amount,balance\n2020/01/31,shop,Cash,Exp,EUR,-2.500000,-2.500000\n" := by
  decide +kernel

end Verif
