import Verif.Proofs.Export

/-! # C57: a ledger printed can be loaded again -/

namespace Verif
open Spec

/-- What the loader should make of a sequence of builder calls. -/
def Outcome.ofCalls : Option Builder → Outcome
  | none => .err
  | some b => .ok b []

/-- The same with aliases in force. -/
def Outcome.ofCallsIn (als : Aliases) : Option Builder → Outcome
  | none => .err
  | some b => .ok b als

theorem readText_go {e : Env} {depth : Nat} {fn : Str} {b b' : Builder} {als als' : Aliases} {s : Reader}
    (h0 : s.ch ≠ 0) (h : parseStep e b als s = .go b' als' []) : readText e depth fn b als s = .ok b' als' := by
  cases s with
  | nil => exact absurd rfl h0
  | cons c s =>
    unfold readText
    simp only [List.length_cons, parseLoop, if_neg h0, h]
    simp [Reader.ch]

theorem readText_stop {e : Env} {depth : Nat} {fn : Str} {b : Builder} {als : Aliases} {s : Reader}
    (h0 : s.ch ≠ 0) (h : parseStep e b als s = .stop) : readText e depth fn b als s = .err := by
  unfold readText
  simp only [parseLoop, if_neg h0, h]

theorem headerText_head {p : Posting} {y : YMD} (hy : y.Valid) (hy2 : y.y ≤ 9999) (hd : p.date = y.code) (r : List Nat) :
    ∃ c t, headerText p ++ r = c :: t ∧ isDigit c = true := by
  have hy1 := hy.1
  unfold headerText
  rw [hd, dateString_code hy hy2]
  refine ⟨_, _, rfl, ?_⟩
  simp [isDigit]; omega

theorem header_no0 {p : Posting} {y : YMD} (hy : y.Valid) (hy2 : y.y ≤ 9999) (hd : p.date = y.code)
    (hp : PrintablePayee p.payee) (ht : OneLine p.tnote) : 0 ∉ headerText p := by
  have hin : ∀ c, inLine c = true → c ≠ 0 := by intro c hc e; subst e; simp [inLine] at hc
  have h1 : 0 ∉ p.payee := fun hm => hin 0 (hp.line 0 hm).1 rfl
  have h2 : 0 ∉ p.tnote := fun hm => hin 0 (ht.1 0 hm) rfl
  unfold headerText noteSuffix
  rw [hd, dateString_code hy hy2]
  by_cases hn : p.tnote = [] <;> simp [hn, h1, h2] <;> omega

theorem parseStep_header (e : Env) (b : Builder) (als : Aliases) {p : Posting} {y : YMD} (hy : y.Valid) (hy2 : y.y ≤ 9999)
    (hd : p.date = y.code) (hp : PrintablePayee p.payee) (ht : OneLine p.tnote) (rest : List Nat) :
    parseStep e b als (headerText p ++ 10 :: rest) =
      (match b.newTransaction p.date p.payee p.tnote with
        | none => .stop
        | some b => .go b als rest) := by
  obtain ⟨c, t, e1, hc⟩ := headerText_head hy hy2 hd (10 :: rest)
  have hpt := parseTransaction_header hy hy2 hd hp ht rest
  have hws : consumeWS (headerText p ++ 10 :: rest) = headerText p ++ 10 :: rest := by
    apply ws_exact (bl := []) (by simp)
    intro d hd
    have hd' : (headerText p ++ 10 :: rest).head? = some d := hd
    rw [e1] at hd'; simp at hd'; subst hd'; exact (digit_facts hc).1
  have hch : Reader.ch (headerText p ++ 10 :: rest) = c := by rw [e1]; rfl
  have hcc : 48 ≤ c ∧ c ≤ 57 := by simpa [isDigit] using hc
  unfold parseStep
  simp only [hws, hch, hpt]
  rw [if_neg (by omega), if_pos trivial, if_neg (by omega), if_neg (by omega), if_pos hc]
  rfl

theorem read_postings {f : Fmt} (r : Posting → Rat) : ∀ (t : List Posting), (∀ p ∈ t, TextPost p ∧ NumReads f p.ccy p.val (r p)) →
    ∃ text, concatOpt (showPosting f) t = some text ∧ 0 ∉ text ∧ Lines text ∧
      ∀ (e : Env), e.letter 10 = false → ∀ (depth : Nat) (fn : Str) (b : Builder) (als : Aliases), (∀ p ∈ t, als.resolve p.acct = p.acct) →
        readText e depth fn b als text = Outcome.ofCallsIn als (b.calls (t.map fun q => .addPosting q.acct q.ccy (r q) q.note)) := by
  intro t
  induction t with
  | nil => intro _; exact ⟨[], rfl, by simp, Or.inl rfl, fun _ _ _ _ _ _ _ => rfl⟩
  | cons p t ih =>
    intro h
    obtain ⟨text, k1, k2, k3, k4⟩ := ih fun q hq => h q (by simp [hq])
    obtain ⟨l, m1, m2, m3, m4, m5, m6, m7, m8⟩ := showPosting_line (h p (by simp)).2 (h p (by simp)).1
    refine ⟨l.text ++ [10] ++ text, ?_, ?_, ?_, ?_⟩
    · simp only [concatOpt, m1, k1, Option.bind_some, Option.map_some]
    · simp [m8, k2]
    · rcases k3 with e | ⟨s, e⟩
      · exact Or.inr ⟨l.text, by simp [e]⟩
      · exact Or.inr ⟨l.text ++ [10] ++ s, by simp [e]⟩
    · intro e he depth fn b als hals
      rw [c60_reads_on_partial e he depth fn b als (l.text ++ [10]) text (by simp [m8]) (Or.inr ⟨l.text, rfl⟩)]
      have hstep := c56_posting_line_exact_partial e b als l m2 m3 []
      have hch : Reader.ch (l.text ++ [10]) ≠ 0 := by
        have h0 := m8
        cases hx : l.text with
        | nil => simp [Reader.ch]
        | cons c r => rw [hx] at h0; simp [Reader.ch]; intro e; apply h0; simp [e]
      rw [readText_go hch hstep]
      have hp : als.resolve l.acct = p.acct := by rw [m4]; exact hals p List.mem_cons_self
      simp only [Outcome.andThen, k4 e he _ _ _ _ fun q hq => hals q (List.mem_cons_of_mem _ hq), hp, m5, m6, m7]
      rfl

/-- A transaction whose texts can be expressed. -/
structure TextTxn (t : Txn) : Prop where
  nonempty : t ≠ []
  date : ∀ p ∈ t, ∃ y : YMD, y.Valid ∧ y.y ≤ 9999 ∧ p.date = y.code
  payee : ∀ p ∈ t, PrintablePayee p.payee
  tnote : ∀ p ∈ t, OneLine p.tnote

/-- Reading a printed transaction does exactly the builder calls of the transaction, with the amounts as they are read. -/
theorem read_txn_as {f : Fmt} (r : Posting → Rat) {t : Txn} (h : TextTxn t) (hps : ∀ p ∈ t, TextPost p ∧ NumReads f p.ccy p.val (r p)) :
    ∃ text, showTxn f t = some text ∧ 0 ∉ text ∧ Lines text ∧
      ∀ (e : Env), e.letter 10 = false → ∀ (depth : Nat) (fn : Str) (b : Builder) (als : Aliases), (∀ p ∈ t, als.resolve p.acct = p.acct) →
        readText e depth fn b als text = Outcome.ofCallsIn als (b.calls (txnCalls (t.map fun p => { p with val := r p }))) := by
  obtain ⟨p, ps, rfl⟩ := List.exists_cons_of_ne_nil h.nonempty
  obtain ⟨text, k1, k2, k3, k4⟩ := read_postings r (p :: ps) hps
  obtain ⟨y, hy, hy2, hd⟩ := h.date p (by simp)
  have hp := h.payee p (by simp)
  have ht := h.tnote p (by simp)
  have h0 := header_no0 hy hy2 hd hp ht
  refine ⟨headerText p ++ [10] ++ text ++ [10], ?_, ?_, Or.inr ⟨_, rfl⟩, ?_⟩
  · unfold showTxn
    simp only [k1, Option.map_some, headerText]
  · simp [h0, k2]
  · intro e he depth fn b als hals
    have e1 : headerText p ++ [10] ++ text ++ [10] = (headerText p ++ [10]) ++ (text ++ [10]) := by simp
    rw [e1, c60_reads_on_partial e he depth fn b als (headerText p ++ [10]) _ (by simp [h0]) (Or.inr ⟨_, rfl⟩)]
    have hstep := parseStep_header e b als hy hy2 hd hp ht []
    have hch : Reader.ch (headerText p ++ [10]) ≠ 0 := by
      obtain ⟨c, t, e1, hc⟩ := headerText_head hy hy2 hd [10]
      rw [e1]
      have : 48 ≤ c ∧ c ≤ 57 := by simpa [isDigit] using hc
      simp [Reader.ch]; omega
    cases hn : b.newTransaction p.date p.payee p.tnote with
    | none =>
      rw [hn] at hstep
      rw [readText_stop hch hstep]
      simp [txnCalls, Builder.calls, Builder.call, hn, Outcome.ofCallsIn, Outcome.andThen]
    | some b1 =>
      rw [hn] at hstep
      rw [readText_go hch hstep]
      simp only [Outcome.andThen]
      rw [c60_reads_on_partial e he depth fn b1 als text [10] k2 k3, k4 e he _ _ _ _ hals]
      have hc : b.calls (txnCalls ((p :: ps).map fun p => { p with val := r p })) = b1.calls ((p :: ps).map fun q => .addPosting q.acct q.ccy (r q) q.note) := by
        simp only [txnCalls, Builder.calls, Builder.call, hn, List.map_cons, List.map_map]; rfl
      rw [hc]
      cases b1.calls ((p :: ps).map fun q => .addPosting q.acct q.ccy (r q) q.note) with
      | none => rfl
      | some b2 =>
        simp only [Outcome.ofCallsIn, Outcome.andThen]
        exact readText_go (by simp [Reader.ch]) (by rfl)

/-- Reading printed transactions does exactly their builder calls, with the amounts as they are read. -/
theorem read_txns_in {f : Fmt} (r : Posting → Rat) : ∀ (ts : List Txn), (∀ t ∈ ts, TextTxn t ∧ ∀ p ∈ t, TextPost p ∧ NumReads f p.ccy p.val (r p)) →
    ∃ text, showTxns f ts = some text ∧ 0 ∉ text ∧ Lines text ∧
      ∀ (e : Env), e.letter 10 = false → ∀ (depth : Nat) (fn : Str) (b : Builder) (als : Aliases), (∀ t ∈ ts, ∀ p ∈ t, als.resolve p.acct = p.acct) →
        readText e depth fn b als text = Outcome.ofCallsIn als (b.calls ((ts.map fun t => t.map fun p => { p with val := r p }).flatMap txnCalls)) := by
  intro ts
  induction ts with
  | nil => intro _; exact ⟨[], rfl, by simp, Or.inl rfl, fun _ _ _ _ _ _ _ => rfl⟩
  | cons t ts ih =>
    intro h
    obtain ⟨text, k1, k2, k3, k4⟩ := ih fun q hq => h q (by simp [hq])
    obtain ⟨s, m1, m2, m3, m4⟩ := read_txn_as r (h t (by simp)).1 (h t (by simp)).2
    refine ⟨s ++ text, ?_, by simp [m2, k2], ?_, ?_⟩
    · have : showTxns f (t :: ts) = (showTxn f t).bind fun a => (showTxns f ts).map fun b => a ++ b := rfl
      rw [this, m1, k1]; rfl
    · rcases k3 with e | ⟨x, e⟩
      · rw [e, List.append_nil]; exact m3
      · exact Or.inr ⟨s ++ x, by simp [e]⟩
    · intro e he depth fn b als hals
      rw [c60_reads_on_partial e he depth fn b als s text m2 m3, m4 e he _ _ _ _ (hals t List.mem_cons_self), List.map_cons, List.flatMap_cons, calls_append]
      generalize b.calls (txnCalls (t.map fun p => { p with val := r p })) = o
      cases o with
      | none => rfl
      | some b1 =>
        simp only [Outcome.ofCallsIn, Outcome.andThen, Option.bind_some]
        exact k4 e he depth fn b1 als fun u hu => hals u (List.mem_cons_of_mem _ hu)

theorem read_txns_as {f : Fmt} (r : Posting → Rat) (ts : List Txn) (h : ∀ t ∈ ts, TextTxn t ∧ ∀ p ∈ t, TextPost p ∧ NumReads f p.ccy p.val (r p)) :
    ∃ text, showTxns f ts = some text ∧ 0 ∉ text ∧ Lines text ∧
      ∀ (e : Env), e.letter 10 = false → ∀ (depth : Nat) (fn : Str) (b : Builder),
        readText e depth fn b [] text = Outcome.ofCalls (b.calls ((ts.map fun t => t.map fun p => { p with val := r p }).flatMap txnCalls)) := by
  obtain ⟨text, h1, h2, h3, h4⟩ := read_txns_in r ts h
  exact ⟨text, h1, h2, h3, fun e he depth fn b => h4 e he depth fn b [] fun _ _ _ _ => rfl⟩

/-- C57, text level, the part that holds: printable transactions are printed, and reading the text does, whatever
was loaded before, exactly the builder calls of these transactions: same dates, payees, notes,
accounts, currencies and amounts, in order.  Missing: what the format cannot express
(`PrintableTxn`). -/
theorem c57_text_roundtrip_partial (f : Fmt) (hg : SoundFmt f) : ∀ (ts : List Txn), (∀ t ∈ ts, PrintableTxn f t) →
    ∃ text, showTxns f ts = some text ∧ 0 ∉ text ∧ Lines text ∧
      ∀ (e : Env), e.letter 10 = false → ∀ (depth : Nat) (fn : Str) (b : Builder),
        readText e depth fn b [] text = Outcome.ofCalls (b.calls (ts.flatMap txnCalls)) := by
  intro ts h
  have := read_txns_as (f := f) (·.val) ts fun t ht => ⟨⟨(h t ht).nonempty, (h t ht).date, (h t ht).payee, (h t ht).tnote⟩,
    fun p hp => ⟨⟨((h t ht).posts p hp).acct, ((h t ht).posts p hp).ccy, ((h t ht).posts p hp).note⟩, numReads_exact hg ((h t ht).posts p hp)⟩⟩
  simpa using this

/-! ## Whole books -/

/-- Nothing open, and the transactions started so far. -/
theorem append_named {b : Builder} {names : List (Int × Str)} (hs : SeenInv b names) (ho : OpenInv b []) {t : Txn} (hne : t ≠ [])
    (hg : ∀ p ∈ t, ∀ q ∈ t, p.date = q.date ∧ p.payee = q.payee) (hb : Balanced t)
    (hn : ∀ p ∈ t, (p.date, p.payee) ∉ names) :
    ∃ b' n, b.calls (txnCalls t) = some b' ∧ SeenInv b' (n :: names) ∧ OpenInv b' [] ∧ (∀ p ∈ t, n = (p.date, p.payee)) ∧
      b'.post = b.post ++ (asLoaded t).map (fun p => { p with bal := 0, acctlevel := 0, acctsort := [] }) ∧ b'.prices = b.prices := by
  obtain ⟨p, ps, rfl⟩ := List.exists_cons_of_ne_nil hne
  obtain ⟨b1, hb1⟩ := (newTransaction_iff ho p.date p.payee p.tnote).2 (by intro c; rfl)
  obtain ⟨s1, s2, s3, k, hk, s4, s5⟩ := newTransaction_step hs hb1
  have o1 := newTransaction_inv ho hb1
  obtain ⟨e1, _, e3⟩ := newTransaction_post hb1
  obtain ⟨b', h1, h2, h3, h4, h5, h6⟩ := addPostings_spec (p :: ps) b1
  have hcc : ∀ c, total (fun p => decide (p.ccy = c)) (p :: ps) = 0 := by
    intro c
    have := hb p.date p.payee c
    unfold txnTotal at this
    rw [← this]
    apply total_congr
    intro q hq
    have := hg q hq p (by simp)
    simp [this.1, this.2]
  have hk1 : k = 1 := by
    by_contra hk1
    have := s5 1 (le_refl 1) (by omega)
    rw [show cand p.payee 1 = p.payee by simp [cand]] at this
    exact hn p (by simp) this
  have hcp : b1.currPayee = p.payee := by rw [s4, hk1]; simp [cand]
  have hcn : b1.currNote = p.tnote := by
    unfold Builder.newTransaction at hb1
    split at hb1
    · cases hb1
    · split at hb1
      · cases hb1
      · cases hb1; rfl
  refine ⟨b', (p.date, p.payee), ?_, ?_, ?_, ?_, ?_, by rw [h6, e3]⟩
  · show (match b.call (.newTransaction p.date p.payee p.tnote) with | none => none | some b => b.calls _) = some b'
    simp only [Builder.call]
    rw [hb1]; exact h1
  · intro key; rw [h2]; rw [hcp] at s3; exact s3 key
  · exact ⟨h4 o1.keys, fun c => by rw [h5, o1.amt, hcc]; simp [net]⟩
  · intro q hq
    have := hg q hq p (by simp)
    rw [this.1, this.2]
  · rw [h3, e1]
    congr 1
    unfold asLoaded
    simp only [List.map_map]
    apply List.map_congr_left
    intro q hq
    have := hg q hq p (by simp)
    simp [s1, hcp, hcn, this.1, this.2]

theorem append_all_named (ts : List Txn) : ∀ (b : Builder) (names : List (Int × Str)), SeenInv b names → OpenInv b [] →
    Canonical ts → (∀ t ∈ ts, Balanced t) → (∀ t ∈ ts, ∀ p ∈ t, (p.date, p.payee) ∉ names) →
    ∃ b', b.calls (ts.flatMap txnCalls) = some b' ∧ OpenInv b' [] ∧ b'.prices = b.prices ∧
      b'.post = b.post ++ (ts.map asLoaded).flatten.map (fun p => { p with bal := 0, acctlevel := 0, acctsort := [] }) := by
  induction ts with
  | nil => intro b names _ ho _ _ _; exact ⟨b, rfl, ho, rfl, by simp⟩
  | cons t ts ih =>
    intro b names hs ho hc hb hn
    obtain ⟨b1, n, k1, k2, k3, k4, k5, k6⟩ := append_named hs ho (hc.nonempty t (by simp)) (hc.oneTxn t (by simp)) (hb t (by simp))
      (hn t (by simp))
    obtain ⟨p, hp⟩ := List.exists_mem_of_ne_nil _ (hc.nonempty t (by simp))
    obtain ⟨b', m1, m2, m3, m4⟩ := ih b1 (n :: names) k2 k3 (hc.sublist (List.sublist_cons_self _ _)) (fun u hu => hb u (by simp [hu]))
      (by
        intro u hu q hq hm
        rcases List.mem_cons.1 hm with e | e
        · have hb := (List.pairwise_cons.1 hc.txnOrder).1 u hu p hp q hq
          rw [k4 p hp] at e
          have : q.date = p.date ∧ q.payee = p.payee := by simpa using e
          exact txnBefore_irrefl hb this
        · exact hn u (by simp [hu]) q hq e)
    refine ⟨b', ?_, m2, by rw [m3, k6], ?_⟩
    · rw [List.flatMap_cons, calls_append, k1]; exact m1
    · rw [m4, k5]; simp

theorem setBals_reload (g : Posting → Posting) (hg : ∀ p : Posting, (g p).acct = p.acct ∧ (g p).ccy = p.ccy ∧ (g p).val = p.val)
    (hgb : ∀ (p : Posting) b, { g p with bal := b } = { p with bal := b, acctlevel := 0, acctsort := [] }) :
    ∀ (m L : List Posting) (amts : Str × Str → Rat), (∀ p ∈ m, Plain p) →
    m.map (fun p => (p.acct, p.ccy, p.val, p.bal)) = L.map (fun p => (p.acct, p.ccy, p.val, p.bal)) →
    setBals amts L = L → setBals amts (m.map g) = m := by
  intro m
  induction m with
  | nil => intro L amts _ _ _; rfl
  | cons p m ih =>
    intro L amts hpl he hf
    cases L with
    | nil => cases he
    | cons q L =>
      simp only [List.map_cons, List.cons.injEq, Prod.mk.injEq] at he
      obtain ⟨⟨a1, a2, a3, a4⟩, he⟩ := he
      simp only [setBals, List.cons.injEq] at hf
      obtain ⟨f1, f2⟩ := hf
      obtain ⟨g1, g2, g3⟩ := hg p
      have hbal : amts (q.acct, q.ccy) + q.val = q.bal := congrArg Posting.bal f1
      simp only [List.map_cons, setBals, g1, g2, g3, hgb]
      rw [a1, a2, a3, hbal]
      rw [hbal] at f2
      rw [ih L _ (fun r hr => hpl r (by simp [hr])) he f2]
      congr 1
      obtain ⟨l1, l2⟩ := hpl p (by simp)
      rw [← a4]
      cases p
      simp_all

/-- A builder holding the postings of printed transactions builds a book with these transactions. -/
theorem reload_build {srt : List Posting → List Posting} (hs : IsSort srt) {ts : List Txn} (hcan : Canonical ts)
    (hplain : ∀ p ∈ ts.flatten, Plain p) (hfix : setBals (fun _ => 0) ts.flatten = ts.flatten)
    {cs : List Call} {b' : Builder} (hcalls : Builder.new.calls cs = some b') (m2 : OpenInv b' [])
    (m4 : b'.post = (ts.map asLoaded).flatten.map (fun p => { p with bal := 0, acctlevel := 0, acctsort := [] })) :
    ∃ bk, b'.build srt = some bk ∧ bk.transactions srt = ts.map asLoaded ∧ bk.prices = b'.prices.build := by
  -- the loaded transactions are in canonical form
  have hproj : ∀ {α : Type} (g : Posting → α), (∀ p n t, g { p with tnote := n, acctterm := t } = g p) →
      ∀ t : Txn, (asLoaded t).map g = t.map g := by
    intro α g hgp t
    cases t with
    | nil => rfl
    | cons h t => simp only [asLoaded, List.map_map]; apply List.map_congr_left; intro p _; exact hgp p _ _
  have hmem : ∀ t p, p ∈ asLoaded t → ∃ q ∈ t, p.date = q.date ∧ p.payee = q.payee ∧ p.acct = q.acct ∧ p.ccy = q.ccy ∧ p.val = q.val ∧
      p.acctlevel = q.acctlevel ∧ p.acctsort = q.acctsort := by
    intro t p hp
    cases t with
    | nil => cases hp
    | cons h t =>
      obtain ⟨q, hq, rfl⟩ := List.mem_map.1 hp
      exact ⟨q, hq, rfl, rfl, rfl, rfl, rfl, rfl, rfl⟩
  have hcan' : Canonical (ts.map asLoaded) := by
    constructor
    · intro t ht
      obtain ⟨u, hu, rfl⟩ := List.mem_map.1 ht
      have := hcan.nonempty u hu
      cases u with
      | nil => exact absurd rfl this
      | cons h u => simp [asLoaded]
    · intro t ht p hp q hq
      obtain ⟨u, hu, rfl⟩ := List.mem_map.1 ht
      obtain ⟨p', hp', e1, e2, _⟩ := hmem u p hp
      obtain ⟨q', hq', e3, e4, _⟩ := hmem u q hq
      rw [e1, e2, e3, e4]; exact hcan.oneTxn u hu p' hp' q' hq'
    · rw [List.pairwise_map]
      refine hcan.txnOrder.imp ?_
      intro t u htu p hp q hq
      obtain ⟨p', hp', e1, e2, _⟩ := hmem t p hp
      obtain ⟨q', hq', e3, e4, _⟩ := hmem u q hq
      unfold TxnBefore
      rw [e1, e2, e3, e4]; exact htu p' hp' q' hq'
    · intro t ht
      obtain ⟨u, hu, rfl⟩ := List.mem_map.1 ht
      have := hcan.postOrder u hu
      cases u with
      | nil => exact List.Pairwise.nil
      | cons h u => simp only [asLoaded]; rw [List.pairwise_map]; exact this.imp fun h => h
    · intro t ht p hp
      obtain ⟨u, hu, rfl⟩ := List.mem_map.1 ht
      obtain ⟨p', hp', _, _, _, _, e5, _⟩ := hmem u p hp
      rw [e5]; exact hcan.nonzero u hu p' hp'
  have hplain' : ∀ p ∈ (ts.map asLoaded).flatten, Plain p := by
    intro p hp
    obtain ⟨t, ht, hpt⟩ := List.mem_flatten.1 hp
    obtain ⟨u, hu, rfl⟩ := List.mem_map.1 ht
    obtain ⟨q, hq, _, _, _, _, _, e6, e7⟩ := hmem u p hpt
    have := hplain q (List.mem_flatten.2 ⟨u, hu, hq⟩)
    exact ⟨e6.trans this.1, e7.trans this.2⟩
  have hprojAll : (ts.map asLoaded).flatten.map (fun p => (p.acct, p.ccy, p.val, p.bal)) =
      ts.flatten.map (fun p => (p.acct, p.ccy, p.val, p.bal)) := by
    rw [List.map_flatten, List.map_flatten, List.map_map]
    congr 1
    apply List.map_congr_left
    intro t _
    exact hproj (fun p => (p.acct, p.ccy, p.val, p.bal)) (fun _ _ _ => rfl) t
  generalize hM : (ts.map asLoaded).flatten = M at *
  have hbpost : b'.post = M.map (fun p => { p with bal := 0, acctlevel := 0, acctsort := [] }) := by
    rw [m4]
  have hMstrict : M.Pairwise (fun a b => key a < key b) := by rw [← hM]; exact canonical_flatten_strict hcan'
  have hMz : ∀ p ∈ M, p.val ≠ 0 := by rw [← hM]; exact canonical_flatten_nonzero hcan'
  have hcomp : compactPost srt b'.post = M := by
    rw [hbpost, compactPost_of_canonical hs]
    · exact setBals_reload (fun p => { p with bal := 0, acctlevel := 0, acctsort := [] }) (fun _ => ⟨rfl, rfl, rfl⟩) (fun _ _ => rfl) M ts.flatten _ hplain' hprojAll hfix
    · intro p hp; obtain ⟨q, _, rfl⟩ := List.mem_map.1 hp; exact ⟨rfl, rfl⟩
    · rw [List.pairwise_map]; exact hMstrict.imp fun h => h
    · intro p hp; obtain ⟨q, hq, rfl⟩ := List.mem_map.1 hp; exact hMz q hq
  have hfixM : compactPost srt M = M := by
    rw [compactPost_of_canonical hs hplain' hMstrict hMz, ← hcomp]
    unfold compactPost; exact setBals_setBals _ _
  -- build
  obtain ⟨b2, hb2⟩ := (checkAndClear_iff m2).2 (by intro c; rfl)
  have hb2' : b2.post = b'.post := by
    unfold Builder.checkAndClear at hb2
    split at hb2
    · cases hb2; rfl
    · cases hb2
  obtain ⟨bk, hbk⟩ : ∃ bk, b'.build srt = some bk := by
    unfold Builder.build; rw [hb2]; exact ⟨_, rfl⟩
  obtain ⟨w, _⟩ := built_balanced hs hcalls hbk
  refine ⟨bk, hbk, ?_, ?_⟩
  · have hbkp : bk.post = M := by
      unfold Builder.build at hbk
      rw [hb2] at hbk
      simp only [Option.some.injEq] at hbk
      rw [← hbk, compact_post _ (srt_nil hs)]
      show compactPost srt b2.post = M
      rw [hb2', hcomp]
    rw [transactions_eq hs w, hbkp, hfixM, ← hM]
    exact groupTxns_of_groups (fun t ht => ⟨hcan'.nonempty t ht, hcan'.oneTxn t ht⟩) hcan'.txnOrder
  · have hb2p : b2.prices = b'.prices := by
      unfold Builder.checkAndClear at hb2
      split at hb2
      · cases hb2; rfl
      · cases hb2
    unfold Builder.build at hbk
    rw [hb2] at hbk
    simp only [Option.some.injEq] at hbk
    rw [← hbk, ← hb2p]
    unfold Book.compact; split <;> rfl

/-- The transactions of a book, printed in ledger format and loaded. -/
theorem export_reload_good {srt : List Posting → List Posting} (hs : IsSort srt) {b : Book}
    (hwf : b.WF) (hbal : Balanced b.post) {f : Fmt} (hg : SoundFmt f) (hp : ∀ t ∈ b.transactions srt, PrintableTxn f t) :
    ∃ text, showTxns f (b.transactions srt) = some text ∧
      ∀ (e : Env), e.letter 10 = false → ∀ (depth : Nat) (fn : Str), e.files fn = some text →
        ∃ bk, loadBook srt e (depth + 1) fn = .ok bk ∧ bk.transactions srt = (b.transactions srt).map asLoaded ∧ bk.prices = [] := by
  have hwf1 := compact_wf hs hwf.plain hwf.nil_trans
  have hcan : Canonical (b.transactions srt) := compact_canonical hs hwf
  have hflat := transactions_flatten hs hwf
  have hpost : (b.transactions srt).flatten = compactPost srt b.post := by rw [hflat, compact_post b (srt_nil hs)]
  have hplain : ∀ p ∈ (b.transactions srt).flatten, Plain p := by rw [hflat]; exact hwf1.plain
  have hbt : ∀ t ∈ b.transactions srt, Balanced t := wf_balanced_trans hwf1 (compact_balanced hs hbal)
  have hfix : setBals (fun _ => 0) (b.transactions srt).flatten = (b.transactions srt).flatten := by
    rw [hpost]; unfold compactPost; exact setBals_setBals _ _
  obtain ⟨text, k1, _, _, k4⟩ := c57_text_roundtrip_partial f hg _ hp
  generalize b.transactions srt = ts at *
  refine ⟨text, k1, ?_⟩
  intro e he depth fn hfile
  obtain ⟨b', m1, m2, m3, m4⟩ := append_all_named ts Builder.new [] seenInv_new openInv_new hcan hbt (by simp)
  have hld : parseFile e (depth + 1) Builder.new fn = .ok b' [] := by
    have := k4 e he depth fn Builder.new
    rw [m1] at this
    unfold parseFile parseFileLocal
    rw [hfile]; exact this
  obtain ⟨bk, hbk, hbt, hbp⟩ := reload_build hs hcan hplain hfix m1 m2 (by rw [m4]; rfl)
  refine ⟨bk, ?_, hbt, by rw [hbp, m3]; rfl⟩
  unfold loadBook; rw [hld]; simp only [hbk]

/-- C57, books, the part that holds: the transactions of any book (built and changed in any way), printed in ledger
format and loaded as a file of its own, come back as they were: dates, payees, notes, accounts,
currencies, amounts and balances.  Missing: what the format cannot express (`PrintableTxn`). -/
theorem c57_export_reload_partial (srt : List Posting → List Posting) (hs : IsSort srt) (today : Int) (b : Book)
    (hr : Reachable srt today b) (f : Fmt) (hg : SoundFmt f) (hp : ∀ t ∈ b.transactions srt, PrintableTxn f t) :
    ∃ text, showTxns f (b.transactions srt) = some text ∧
      ∀ (e : Env), e.letter 10 = false → ∀ (depth : Nat) (fn : Str), e.files fn = some text →
        ∃ bk, loadBook srt e (depth + 1) fn = .ok bk ∧ bk.transactions srt = (b.transactions srt).map asLoaded := by
  obtain ⟨hwf, hbal⟩ := reachable_wf hs hr
  obtain ⟨text, k1, k2⟩ := export_reload_good hs hwf hbal hg hp
  refine ⟨text, k1, fun e he depth fn hfile => ?_⟩
  obtain ⟨bk, m1, m2, _⟩ := k2 e he depth fn hfile
  exact ⟨bk, m1, m2⟩

/-! ## Concrete cases -/

/-- Thousands separators, as in the locale "en". -/
def commas : Nat → Str → Str
  | 0, s => s
  | n + 1, s => if s.length ≤ 3 then s else commas n (s.take (s.length - 3)) ++ 44 :: s.drop (s.length - 3)

theorem commas_ok (n : Nat) : ∀ s : Str, s ≠ [] → (∀ c ∈ s, isDigit c = true) →
    (commas n s).filter isDigit = s ∧ (∀ c ∈ commas n s, isDigit c = true ∨ c = 44) ∧ ∃ c r, commas n s = c :: r ∧ isDigit c = true := by
  induction n with
  | zero =>
    intro s hne h
    obtain ⟨c, r, rfl⟩ := List.exists_cons_of_ne_nil hne
    exact ⟨List.filter_eq_self.2 h, fun c hc => Or.inl (h c hc), c, r, rfl, h c (by simp)⟩
  | succ n ih =>
    intro s hne h
    unfold commas
    split
    · obtain ⟨c, r, rfl⟩ := List.exists_cons_of_ne_nil hne
      exact ⟨List.filter_eq_self.2 h, fun c hc => Or.inl (h c hc), c, r, rfl, h c (by simp)⟩
    · rename_i hl
      have hne' : s.take (s.length - 3) ≠ [] := by
        intro e
        have := congrArg List.length e
        rw [List.length_take] at this
        simp only [List.length_nil] at this
        omega
      obtain ⟨k1, k2, c, r, k3, k4⟩ := ih (s.take (s.length - 3)) hne' (fun c hc => h c (List.mem_of_mem_take hc))
      refine ⟨?_, ?_, c, r ++ 44 :: s.drop (s.length - 3), by rw [k3]; rfl, k4⟩
      · rw [List.filter_append, k1, List.filter_cons_of_neg (by decide),
          List.filter_eq_self.2 (fun c hc => h c (List.mem_of_mem_drop hc)), List.take_append_drop]
      · intro c hc
        rcases List.mem_append.1 hc with hc | hc
        · exact k2 c hc
        · rcases List.mem_cons.1 hc with hc | hc
          · exact Or.inr hc
          · exact Or.inl (h c (List.mem_of_mem_drop hc))

/-- ASCII letters, English grouping, and the book's decimals (/repo/cmd/app/app.go passes
`GetCCYDecimals` to the printer). -/
def demoFmt (b : Book) : Fmt where
  letter := fun c => decide (65 ≤ c ∧ c ≤ 90) || decide (97 ≤ c ∧ c ≤ 122)
  grp := fun s => commas s.length s
  decs := fun c => (b.ccy.find? fun kv => decide (kv.1 = c)).map (·.2)
  fl := toDouble
  rd := halfEven

theorem demoFmt_sound (b : Book) : SoundFmt (demoFmt b) :=
  ⟨fun n => commas_ok _ (natDec n) (natDec_ne_nil n) (isDigit_natDec n), toDouble_rounding, halfEven_nearest, rfl⟩

/-- The demo book with an amount that needs a thousands separator and a quoted currency. -/
def exportCalls : List Call :=
  [.newTransaction 20200131 b!"shop" b!"n1", .addPosting b!"Exp:Food" b!"$" (2469/2) b!"lunch", .addPosting b!"Cash" b!"$" (-2469/2) [],
   .newTransaction 20200131 [] [], .addPosting b!"Cash" b!"A B" 5 [], .addPosting b!"Inc" b!"A B" (-5) []]

/-- What is printed for it. -/
example : showTxns (demoFmt (bookOf exportCalls)) ((bookOf exportCalls).transactions insSort) =
    some b!"2020/01/31 \n  Cash  \"A B\" 5\n  Inc  \"A B\" -5\n\n2020/01/31 shop  ; n1\n  Cash  $-1,234.5\n  Exp:Food  $1,234.5  ; lunch\n\n" := by
  decide +kernel

/-- A checkable form of `PrintableTxn`. -/
def printableB (f : Fmt) (t : Txn) : Bool :=
  !t.isEmpty && t.all fun p =>
    decide ((⟨yearOf p.date, monthOf p.date, dayOf p.date⟩ : YMD).Valid ∧ yearOf p.date ≤ 9999 ∧
      p.date = (⟨yearOf p.date, monthOf p.date, dayOf p.date⟩ : YMD).code) &&
    p.payee.all (fun c => inLine c && c != 59) && !(p.payee.head?.any fun c => isSpace c || c == 34 || c == 42) &&
    !(p.payee.getLast?.any isSpace) && p.tnote.all inLine && !(p.tnote.head?.any isBlank) &&
    !p.acct.isEmpty && p.acct.all isAcctRune && !p.ccy.isEmpty && p.ccy.all (fun c => inLine c && c != 34) &&
    p.note.all inLine && !(p.note.head?.any isBlank) && decide (decimalsOf f p.ccy ≤ 18) &&
    decide ((p.val * 10 ^ decimalsOf f p.ccy).den = 1 ∧ |(p.val * 10 ^ decimalsOf f p.ccy).num| < 2 ^ 52)

theorem printable_of_b {f : Fmt} {t : Txn} (h : printableB f t = true) : PrintableTxn f t := by
  unfold printableB at h
  simp only [Bool.and_eq_true, List.all_eq_true, decide_eq_true_eq, Bool.not_eq_true', List.isEmpty_eq_false_iff, bne_iff_ne, ne_eq,
    Option.any_eq_false, Bool.or_eq_false_iff, beq_eq_false_iff_ne] at h
  obtain ⟨h0, h⟩ := h
  refine ⟨h0, ?_, ?_, ?_, ?_⟩
  all_goals
    intro p hp
    obtain ⟨⟨⟨⟨⟨⟨⟨⟨⟨⟨⟨⟨⟨a1, a2⟩, a3⟩, a4⟩, a5⟩, a6⟩, a7⟩, a8⟩, a9⟩, a10⟩, a11⟩, a12⟩, a13⟩, a14⟩ := h p hp
  · exact ⟨_, a1⟩
  · exact ⟨a2, fun c hc => ⟨(a3 c hc).1.1, (a3 c hc).1.2, (a3 c hc).2⟩, a4⟩
  · exact ⟨a5, a6⟩
  · refine ⟨⟨a7, a8⟩, ⟨a9, a10⟩, ⟨a13, _, ?_, a14.2⟩, a11, a12⟩
    have := (p.val * 10 ^ decimalsOf f p.ccy).num_div_den
    rw [a14.1] at this
    simpa using this.symm

/-- Non-vacuity: the hypotheses of the round trip hold for the book. -/
example : Reachable insSort 0 (bookOf exportCalls) ∧ SoundFmt (demoFmt (bookOf exportCalls)) ∧
    ∀ t ∈ (bookOf exportCalls).transactions insSort, PrintableTxn (demoFmt (bookOf exportCalls)) t := by
  refine ⟨?_, demoFmt_sound _, ?_⟩
  · obtain ⟨bb, h1, h2⟩ := bookOf_built (cs := exportCalls) (by decide +kernel)
    exact ⟨_, bb, _, [], h1, h2, rfl⟩
  · have h : (((bookOf exportCalls).transactions insSort).all fun t => printableB (demoFmt (bookOf exportCalls)) t) = true := by decide +kernel
    intro t ht
    exact printable_of_b (List.all_eq_true.1 h t ht)

/-- A book with an amount of an eighth: the currency gets one decimal (C19). -/
def eighthCalls : List Call :=
  [.newTransaction 20200131 b!"shop" [], .addPosting b!"Cash" b!"EUR" (1/8) [], .addPosting b!"Inc" b!"EUR" (-1/8) []]

/-- The transactions a load reports, if it succeeds. -/
def LoadOutcome.obs? (srt : List Posting → List Posting) : LoadOutcome → Option (List (List Obs))
  | .ok b => some ((b.transactions srt).map (·.map obs))
  | _ => none

/-- C57 is false of the code: an eighth is printed as 0.1. -/
theorem c57_amount_rounded_fails : ¬ ∀ (cs : List Call) (b : Book), Built insSort cs b →
    ∀ text, showTxns (demoFmt b) (b.transactions insSort) = some text →
      (loadBook insSort (demoEnv [(b!"f", text)]) 1 b!"f").obs? insSort = some ((b.transactions insSort).map (·.map obs)) := by
  intro h
  have h1 : Built insSort eighthCalls (bookOf eighthCalls) := bookOf_built (by decide +kernel)
  have h2 : showTxns (demoFmt (bookOf eighthCalls)) ((bookOf eighthCalls).transactions insSort) =
      some b!"2020/01/31 shop\n  Cash  EUR 0.1\n  Inc  EUR -0.1\n\n" := by decide +kernel
  have := h _ _ h1 _ h2
  revert this
  decide +kernel

end Verif
