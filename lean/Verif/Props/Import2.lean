import Verif.Props.Import
import Verif.Props.Builder

/-! # C42 (appending), C44, C45, and concrete imports -/

namespace Verif
open Spec

/-- The builder calls by which the loader reads one reported transaction back. -/
def txnCalls (t : Txn) : List Call :=
  match t with
  | [] => []
  | p :: _ => .newTransaction p.date p.payee p.tnote :: t.map fun q => .addPosting q.acct q.ccy q.val q.note

/-- The calls by which the loader reads all emitted transactions, appended to a ledger. -/
def appendCalls (outs : List (List Txn)) : List Call := outs.flatten.flatMap txnCalls

theorem calls_append (b : Builder) (cs cs' : List Call) :
    b.calls (cs ++ cs') = (b.calls cs).bind fun b1 => b1.calls cs' := by
  induction cs generalizing b with
  | nil => rfl
  | cons c cs ih =>
    simp only [List.cons_append, Builder.calls]
    cases b.call c with
    | none => rfl
    | some b1 => exact ih b1

/-- Nothing open; every posting belongs to a transaction started; every transaction started has an amount. -/
structure Live (b : Builder) (names : List (Int × Str)) : Prop where
  seen : SeenInv b names
  zero : OpenInv b []
  posts : ∀ p ∈ b.post, (p.date, p.payee) ∈ names
  live : ∀ n ∈ names, ∃ a c, entryTotal n.1 n.2 a c b.post ≠ 0

/-- What adding the postings of a transaction does. -/
theorem addPostings_spec (t : Txn) : ∀ b : Builder,
    ∃ b', b.calls (t.map fun q => .addPosting q.acct q.ccy q.val q.note) = some b' ∧ b'.prevTrans = b.prevTrans ∧
      b'.post = b.post ++ t.map (fun q => ⟨b.currDate, b.currPayee, b.currNote, q.acct, q.ccy, q.val, q.note, 0, 0, [], []⟩) ∧
      ((b.currAmts.map (·.1)).Nodup → (b'.currAmts.map (·.1)).Nodup) ∧
      (∀ c, amtAt b'.currAmts c = amtAt b.currAmts c + total (fun p => decide (p.ccy = c)) t) ∧ b'.prices = b.prices := by
  induction t with
  | nil => intro b; exact ⟨b, rfl, rfl, by simp, id, by simp, rfl⟩
  | cons q t ih =>
    intro b
    obtain ⟨b', h1, h2, h3, h4, h5, h6⟩ := ih (b.addPosting q.acct q.ccy q.val q.note)
    refine ⟨b', h1, h2, ?_, ?_, ?_, h6⟩
    · rw [h3]; simp [Builder.addPosting]
    · intro h; exact h4 (amtAdd_keys _ _ _ h).1
    · intro c
      rw [h5, total_cons]
      show amtAt (amtAdd b.currAmts q.ccy q.val) c + _ = _
      rw [amtAt_add]
      simp only [decide_eq_true_eq]
      ring

theorem newTransaction_post {b b' : Builder} {d p n} (h : b.newTransaction d p n = some b') :
    b'.post = b.post ∧ b'.currAmts = b.currAmts.map (fun kv => (kv.1, 0)) ∧ b'.prices = b.prices := by
  unfold Builder.newTransaction at h
  cases hc : b.checkAndClear with
  | none => rw [hc] at h; cases h
  | some b1 =>
    rw [hc] at h
    simp only at h
    unfold Builder.checkAndClear at hc
    split at hc
    · cases hc
      split at h
      · cases h
      · cases h; exact ⟨rfl, rfl, rfl⟩
    · cases hc

theorem append_live {b : Builder} {names : List (Int × Str)} (hl : Live b names) {t : Txn} (hne : t ≠ [])
    (hg : ∀ p ∈ t, ∀ q ∈ t, p.date = q.date ∧ p.payee = q.payee) (hb : Balanced t) (hd : DistinctLines t)
    (hz : ∀ p ∈ t, p.val ≠ 0) :
    ∃ b' n, b.calls (txnCalls t) = some b' ∧ Live b' (n :: names) ∧ ∀ p ∈ t, (p.date, p.payee) ∈ n :: names := by
  obtain ⟨p, ps, rfl⟩ := List.exists_cons_of_ne_nil hne
  obtain ⟨b1, hb1⟩ := (newTransaction_iff hl.zero p.date p.payee p.tnote).2 (by intro c; rfl)
  obtain ⟨s1, s2, s3, k, hk, s4, s5⟩ := newTransaction_step hl.seen hb1
  have o1 := newTransaction_inv hl.zero hb1
  obtain ⟨e1, _, _⟩ := newTransaction_post hb1
  obtain ⟨b', h1, h2, h3, h4, h5, _⟩ := addPostings_spec (p :: ps) b1
  have hcc : ∀ c, total (fun p => decide (p.ccy = c)) (p :: ps) = 0 := by
    intro c
    have := hb p.date p.payee c
    unfold txnTotal at this
    rw [← this]
    apply total_congr
    intro q hq
    have := hg q hq p (by simp)
    simp [this.1, this.2]
  refine ⟨b', (p.date, b1.currPayee), ?_, ⟨?_, ?_, ?_, ?_⟩, ?_⟩
  · show (match b.call (.newTransaction p.date p.payee p.tnote) with | none => none | some b => b.calls _) = some b'
    simp only [Builder.call]
    rw [hb1]; exact h1
  · intro key; rw [h2]; exact s3 key
  · exact ⟨h4 o1.keys, fun c => by rw [h5, o1.amt, hcc]; simp [net]⟩
  · intro q hq
    rw [h3, e1] at hq
    rcases List.mem_append.1 hq with hq | hq
    · exact List.mem_cons_of_mem _ (hl.posts q hq)
    · obtain ⟨x, _, rfl⟩ := List.mem_map.1 hq
      rw [s1]; exact List.mem_cons_self
  · intro n hn
    have hpart : ∀ a c, entryTotal n.1 n.2 a c b'.post = entryTotal n.1 n.2 a c b.post +
        total (fun q => decide (b1.currDate = n.1 ∧ b1.currPayee = n.2 ∧ q.acct = a ∧ q.ccy = c)) (p :: ps) := by
      intro a c
      rw [h3, e1]
      unfold entryTotal
      rw [total_append]
      congr 1
      generalize p :: ps = l
      induction l with
      | nil => rfl
      | cons q l ih => rw [List.map_cons, total_cons, total_cons, ih]
    rcases List.mem_cons.1 hn with e | e
    · refine ⟨p.acct, p.ccy, ?_⟩
      rw [hpart]
      unfold entryTotal
      rw [total_zero (l := b.post), zero_add]
      · have : total (fun q => decide (b1.currDate = n.1 ∧ b1.currPayee = n.2 ∧ q.acct = p.acct ∧ q.ccy = p.ccy)) (p :: ps) =
            entryTotal p.date p.payee p.acct p.ccy (p :: ps) := by
          unfold entryTotal
          apply total_congr
          intro q hq
          have := hg q hq p (by simp)
          simp [e, s1, this.1, this.2]
        rw [this, entry_in_txn hd hg (by simp)]
        exact hz p (by simp)
      · intro q hq
        simp only [decide_eq_false_iff_not]
        rintro ⟨k1, k2, _⟩
        apply s2
        have := hl.posts q hq
        rw [e] at k1 k2
        rw [k1, k2] at this; exact this
    · obtain ⟨a, c, h⟩ := hl.live n e
      refine ⟨a, c, ?_⟩
      rw [hpart, total_zero (l := p :: ps), add_zero]
      · exact h
      · intro q hq
        simp only [decide_eq_false_iff_not]
        rintro ⟨k1, k2, _⟩
        apply s2
        rw [← s1, k1, k2]; exact e
  · intro q hq
    have := hg q hq p (by simp)
    rw [this.1, this.2]
    by_cases hk1 : k = 1
    · subst hk1
      have : b1.currPayee = p.payee := by rw [s4]; simp [cand]
      rw [this]; simp
    · have := s5 1 (le_refl 1) (by omega)
      rw [show cand p.payee 1 = p.payee by simp [cand]] at this
      exact List.mem_cons_of_mem _ this

theorem appendAll_live (ts : List Txn) : ∀ (b : Builder) (names : List (Int × Str)), Live b names →
    (∀ t ∈ ts, t ≠ [] ∧ (∀ p ∈ t, ∀ q ∈ t, p.date = q.date ∧ p.payee = q.payee) ∧ Balanced t ∧ DistinctLines t ∧
      ∀ p ∈ t, p.val ≠ 0) →
    ∃ b' names', b.calls (ts.flatMap txnCalls) = some b' ∧ Live b' names' ∧ (∀ n ∈ names, n ∈ names') ∧
      ∀ t ∈ ts, ∀ p ∈ t, (p.date, p.payee) ∈ names' := by
  induction ts with
  | nil => intro b names h _; exact ⟨b, names, rfl, h, fun _ h => h, by simp⟩
  | cons t ts ih =>
    intro b names h hts
    obtain ⟨h1, h2, h3, h4, h5⟩ := hts t (by simp)
    obtain ⟨b1, n, k1, k2, k3⟩ := append_live h h1 h2 h3 h4 h5
    obtain ⟨b', names', m1, m2, m3, m4⟩ := ih b1 (n :: names) k2 (fun u hu => hts u (by simp [hu]))
    refine ⟨b', names', ?_, m2, fun x hx => m3 x (by simp [hx]), ?_⟩
    · rw [List.flatMap_cons, calls_append, k1]; exact m1
    · intro u hu p hp
      rcases List.mem_cons.1 hu with e | e
      · rw [e] at hp; exact m3 _ (k3 p hp)
      · exact m4 u e p hp

/-- Building keeps every amount. -/
theorem build_entry {srt : List Posting → List Posting} (hs : IsSort srt) {bb : Builder} {b : Book} (h2 : bb.build srt = some b) (d : Int) (py a c : Str) :
    entryTotal d py a c b.post = entryTotal d py a c bb.post := by
  unfold Builder.build at h2
  cases hc : bb.checkAndClear with
  | none => rw [hc] at h2; cases h2
  | some b1 =>
    rw [hc] at h2
    simp only [Option.some.injEq] at h2
    have hp : b1.post = bb.post := by
      unfold Builder.checkAndClear at hc
      split at hc
      · cases hc; rfl
      · cases hc
    rw [← h2, ← hp]
    exact total_compact hs (keyFun_of fun d' py' a' c' => decide (d' = d ∧ py' = py ∧ a' = a ∧ c' = c)) _

theorem build_hasTxn {srt} (hs : IsSort srt) {cs : List Call} {bb : Builder} {b : Book} (h1 : Builder.new.calls cs = some bb)
    (h2 : bb.build srt = some b) (d : Int) (py : Str) :
    hasTxn (b.transactions srt) d py = true ↔ ∃ a c, entryTotal d py a c bb.post ≠ 0 := by
  have w := (built_balanced hs h1 h2).1
  have he : ∀ a c, entryTotal d py a c b.post = entryTotal d py a c bb.post := build_entry hs h2 d py
  constructor
  · intro h
    obtain ⟨a, c, h⟩ := entry_of_hasTxn hs w h
    exact ⟨a, c, by rw [← he]; exact h⟩
  · rintro ⟨a, c, h⟩
    exact hasTxn_of_entry hs w (a := a) (c := c) (by rw [he]; exact h)

/-- A builder that builds has nothing open. -/
theorem built_open {srt : List Posting → List Posting} {cs : List Call} {bb : Builder} {main : Book} (h1 : Builder.new.calls cs = some bb)
    (h2 : bb.build srt = some main) : OpenInv bb [] := by
  have hcb : ∃ b1, bb.checkAndClear = some b1 := by
    unfold Builder.build at h2
    cases hc : bb.checkAndClear with
    | none => rw [hc] at h2; cases h2
    | some b1 => exact ⟨b1, rfl⟩
  obtain ⟨closed, op, hi⟩ := calls_inv cs Builder.new bb [] []
    ⟨rfl, balanced_nil, by simp, by intro c; rfl, by simp [Builder.new], by simp [Builder.new]⟩ h1
  obtain ⟨b1, hb1⟩ := hcb
  refine ⟨hi.keys, fun c => ?_⟩
  unfold Builder.checkAndClear at hb1
  split at hb1
  · rename_i hz
    rw [(all_zero_iff _ hi.keys).1 hz c]; rfl
  · cases hb1

/-- What an import emits: each transaction is one, balanced, with distinct lines and no zero amounts. -/
theorem importRun_good {srt : List Posting → List Posting} (hs : IsSort srt) (dedup : Bool) (rc : Option Reclass) {main : Book} (wm : main.WF)
    {bs : List Book} (hb : ∀ b ∈ bs, ∃ cs, Built srt cs b) :
    ∀ t ∈ (importRun srt dedup rc main [] bs).flatten, t ≠ [] ∧
      (∀ p ∈ t, ∀ q ∈ t, p.date = q.date ∧ p.payee = q.payee) ∧ Balanced t ∧ DistinctLines t ∧ ∀ p ∈ t, p.val ≠ 0 := by
  have hwb : ∀ b ∈ bs, b.WF := fun b h => by obtain ⟨cs, hc⟩ := hb b h; exact (Built.wf hs hc).1
  intro t ht
  obtain ⟨out, ho, hto⟩ := List.mem_flatten.1 ht
  have hc := ((importRun_spec hs dedup rc wm bs [] (by simp) hwb).1 out ho).2
  refine ⟨hc.nonempty t hto, hc.oneTxn t hto, ?_, canonical_distinct hc hto, hc.nonzero t hto⟩
  have key : ∀ (bs : List Book), (∀ b ∈ bs, b.WF ∧ Balanced b.post) → ∀ prev : List Book, (∀ p ∈ prev, p.WF) →
      ∀ out ∈ importRun srt dedup rc main prev bs, ∀ t ∈ out, Balanced t := by
    intro bs
    induction bs with
    | nil => intro _ prev _ out ho; cases ho
    | cons b bs ih =>
      intro hbs prev wp out ho
      obtain ⟨w0, b0⟩ := hbs b (by simp)
      have w1 := importOne_wf hs dedup rc wm wp w0
      have b1 : Balanced (importOne srt dedup rc main prev b).post := by
        obtain ⟨wb2, hsub, _⟩ := import_b2 hs dedup wm wp w0
        have bb2 : Balanced (dedupAll srt (if dedup then b.removeDuplicatesOf srt main else b) prev).post := by
          rw [← wb2.index]
          exact balanced_flatten fun t ht => wf_balanced_trans w0 b0 t (hsub.subset ht)
        unfold importOne
        cases rc with
        | none => exact bb2
        | some r => exact apply_balanced hs (today := 0) (o := .reclassify r.o1 r.o2 r.dist r.acct main) wb2 bb2 rfl
      unfold importRun at ho
      rcases List.mem_cons.1 ho with e | e
      · rw [e]
        exact wf_balanced_trans (compact_wf hs w1.plain w1.nil_trans) (compact_balanced hs b1)
      · exact ih (fun x hx => hbs x (by simp [hx])) _
          (by intro p hp
              rcases List.mem_append.1 hp with hp | hp
              · exact wp p hp
              · rw [List.mem_singleton.1 hp]; exact w1) out e
  exact key bs (fun b h => by obtain ⟨cs, hc⟩ := hb b h; exact Built.wf hs hc) [] (by simp) out ho t hto

/-- C42 (partial: for ledgers without vanishing transactions).  Let `main` be loaded by the calls
`cs`, every posting belonging to a transaction and every transaction started being reported (none
nets to nothing).  Append the transactions emitted by an import (of any files, any flags) to
the ledger.  The result loads, and the same import run again with deduplication emits
nothing. -/
theorem c42_append_then_reimport_partial (srt : List Posting → List Posting) (hs : IsSort srt) (today : Int)
    (dedup : Bool) (rc rc' : Option Reclass) (hrc : ∀ r, rc = some r → r.Valid) (cs : List Call) (bb : Builder)
    (main : Book) (bs : List Book) (h1 : Builder.new.calls cs = some bb) (h2 : bb.build srt = some main)
    (hposts : ∀ p ∈ bb.post, (p.date, p.payee) ∈ issued Builder.new cs)
    (hlive : ∀ n ∈ issued Builder.new cs, hasTxn (main.transactions srt) n.1 n.2 = true)
    (hb : ∀ b ∈ bs, ∃ cs, Built srt cs b) :
    ∃ main', Built srt (cs ++ appendCalls (importRun srt dedup rc main [] bs)) main' ∧
      ∀ out ∈ importRun srt true rc' main' [] bs, out = [] := by
  have hmr : Reachable srt today main := Built.reachable ⟨bb, h1, h2⟩ today
  obtain ⟨wm, bm⟩ := reachable_wf hs hmr
  have hzero : OpenInv bb [] := built_open h1 h2
  have hL : Live bb (issued Builder.new cs) := by
    refine ⟨?_, hzero, hposts, ?_⟩
    · have := (issued_nodup_aux cs Builder.new [] seenInv_new).2.2 bb h1
      intro key
      have := this key
      simpa using this
    · intro n hn
      exact (build_hasTxn hs h1 h2 n.1 n.2).1 (hlive n hn)
  have hgood := importRun_good hs dedup rc wm hb
  obtain ⟨bb', names', k1, k2, k3, k4⟩ := appendAll_live _ bb _ hL hgood
  obtain ⟨b2, hb2⟩ := (checkAndClear_iff k2.zero).2 (by intro c; rfl)
  have hcalls : Builder.new.calls (cs ++ appendCalls (importRun srt dedup rc main [] bs)) = some bb' := by
    rw [calls_append, h1]; exact k1
  obtain ⟨main', hm'⟩ : ∃ m, bb'.build srt = some m := by unfold Builder.build; rw [hb2]; exact ⟨_, rfl⟩
  refine ⟨main', ⟨bb', hcalls, hm'⟩, ?_⟩
  apply c42_reimport_emits_nothing srt hs today dedup rc rc' hrc main main' bs hmr (Built.reachable ⟨bb', hcalls, hm'⟩ today) hb
  intro d py h
  rw [build_hasTxn hs hcalls hm']
  apply k2.live (d, py)
  rcases h with h | ⟨out, ho, h⟩
  · obtain ⟨a, c, h⟩ := (build_hasTxn hs h1 h2 d py).1 h
    have : ∃ p ∈ bb.post, p.date = d ∧ p.payee = py := by
      by_contra hno
      apply h
      apply total_zero
      intro p hp
      simp only [decide_eq_false_iff_not]
      rintro ⟨e1, e2, _⟩; exact hno ⟨p, hp, e1, e2⟩
    obtain ⟨p, hp, rfl, rfl⟩ := this
    exact k3 _ (hposts p hp)
  · obtain ⟨t, ht, p, hp, rfl, rfl⟩ := hasTxn_iff.1 h
    exact k4 t (List.mem_flatten.2 ⟨out, ho, ht⟩) p hp

/-- The book built by some calls (empty if they panic). -/
def bookOf (cs : List Call) : Book :=
  match (Builder.new.calls cs).bind (Builder.build insSort) with
  | some b => b
  | none => ⟨[], [], [], []⟩

theorem bookOf_built {cs : List Call} (h : ((Builder.new.calls cs).bind (Builder.build insSort)).isSome = true) :
    Built insSort cs (bookOf cs) := by
  obtain ⟨b, hb⟩ := Option.isSome_iff_exists.1 h
  obtain ⟨bb, h1, h2⟩ := Option.bind_eq_some_iff.1 hb
  refine ⟨bb, h1, ?_⟩
  unfold bookOf; rw [hb, h2]

/-- A ledger with a transaction that nets to nothing. -/
def vanishing : List Call := [.newTransaction 20200101 b!"P" [], .addPosting b!"A" b!"EUR" 0 [], .addPosting b!"B" b!"EUR" 0 []]
/-- An import of a transaction of the same date and payee. -/
def importP : List Call := [.newTransaction 20200101 b!"P" [], .addPosting b!"Bank" b!"EUR" 5 [], .addPosting b!"Exp" b!"EUR" (-5) []]

/-- C42 fails in general: if the main ledger has a transaction that nets to nothing in every
account, it is not reported, so an import of the same date and payee is emitted; once appended it is
filed as "P (2)", and importing again emits it again. -/
theorem c42_reimport_fails : ¬ ∀ (cs : List Call) (main : Book) (bs : List Book), Built insSort cs main →
    (∀ b ∈ bs, ∃ cs, Built insSort cs b) →
    ∀ main', Built insSort (cs ++ appendCalls (importRun insSort true none main [] bs)) main' →
      ∀ out ∈ importRun insSort true none main' [] bs, out = [] := by
  intro h
  have h1 : Built insSort vanishing (bookOf vanishing) := bookOf_built (by decide +kernel)
  have h2 : Built insSort importP (bookOf importP) := bookOf_built (by decide +kernel)
  have h3 := bookOf_built (cs := vanishing ++ appendCalls (importRun insSort true none (bookOf vanishing) [] [bookOf importP]))
    (by decide +kernel)
  have := h vanishing _ [bookOf importP] h1 (by intro b hb; rw [List.mem_singleton.1 hb]; exact ⟨_, h2⟩) _ h3
  revert this
  decide +kernel

/-! ## C44 -/

/-- Where reclassification renamed the counter-account of `t` to `a`. -/
def RenamedTo (ra : Str) (t t' : Txn) (a : Str) : Prop :=
  t ≠ t' ∧ ∃ x y, t = [x, y] ∧
    ((x.acct = ra ∧ t' = [x, { y with acct := a }]) ∨ (x.acct ≠ ra ∧ y.acct = ra ∧ t' = [{ x with acct := a }, y]))

/-- A reference book: the shop is twice food, once misc. -/
def refCalls : List Call :=
  [.newTransaction 1 b!"Shop" [], .addPosting b!"Bank" b!"EUR" (-5) [], .addPosting b!"Food" b!"EUR" 5 [],
   .newTransaction 2 b!"Shop" [], .addPosting b!"Bank" b!"EUR" (-7) [], .addPosting b!"Food" b!"EUR" 7 [],
   .newTransaction 3 b!"Shop" [], .addPosting b!"Bank" b!"EUR" (-9) [], .addPosting b!"Misc" b!"EUR" 9 []]
/-- A new transaction with the shop. -/
def newCalls : List Call :=
  [.newTransaction 9 b!"Shop" [], .addPosting b!"Bank" b!"EUR" (-1) [], .addPosting b!"Unknown" b!"EUR" 1 []]
/-- Exact match of payees. -/
def exact (a b : Str) : Rat := if a = b then 1 else 0

theorem refBuilt : Built insSort refCalls (bookOf refCalls) := bookOf_built (by decide +kernel)
theorem newBuilt : Built insSort newCalls (bookOf newCalls) := bookOf_built (by decide +kernel)

theorem exact_shop {py : Str} (h : 0 < exact b!"Shop" py) : py = b!"Shop" := by
  unfold exact at h
  split at h
  · rename_i e; exact e.symm
  · exact absurd h (lt_irrefl _)

/-- C44 fails: the loop keeps the last account iterated rather than the most common one
(book_reclassify.go:56 assigns `k = max`).  Here the only similar payee is used with "Food" twice
and "Misc" once, and "Misc" is chosen. -/
theorem c44_most_common_fails : ¬ ∀ (b ref : Book), Reachable insSort 0 b → Reachable insSort 0 ref →
    ∀ o1 o2, (∀ l, (o1 l).Perm l) → (∀ l, (o2 l).Perm l) → ∀ (dist : Str → Str → Rat) (ra : Str),
    List.Forall₂ (fun t t' => ∀ a, RenamedTo ra t t' a → ∃ py, (∀ p ∈ t, 0 < dist p.payee py) ∧
      MostCommon ra (ref.transactions insSort) py a)
      (b.transactions insSort) (b.reclassify insSort o1 o2 dist ra ref).trans := by
  intro h
  have h1 := h _ _ (Built.reachable newBuilt 0) (Built.reachable refBuilt 0) id id
    (fun l => List.Perm.refl _) (fun l => List.Perm.refl _) exact b!"Bank"
  have e1 : (bookOf newCalls).transactions insSort =
      [[⟨9, b!"Shop", [], b!"Bank", b!"EUR", -1, [], -1, 0, [], []⟩, ⟨9, b!"Shop", [], b!"Unknown", b!"EUR", 1, [], 1, 0, [], []⟩]] := by
    decide +kernel
  have e2 : ((bookOf newCalls).reclassify insSort id id exact b!"Bank" (bookOf refCalls)).trans =
      [[⟨9, b!"Shop", [], b!"Bank", b!"EUR", -1, [], -1, 0, [], []⟩, ⟨9, b!"Shop", [], b!"Misc", b!"EUR", 1, [], 1, 0, [], []⟩]] := by
    decide +kernel
  rw [e1, e2] at h1
  obtain ⟨h2, _⟩ := List.forall₂_cons.1 h1
  obtain ⟨py, h3, h4⟩ := h2 b!"Misc" ⟨by decide +kernel, _, _, rfl, Or.inl ⟨rfl, rfl⟩⟩
  have := exact_shop (h3 _ (List.mem_cons_self))
  subst this
  exact absurd (h4 b!"Food") (by decide +kernel)

theorem timesUsed_pos {ra : Str} {ref : List Txn} {py a : Str} (h : 0 < timesUsed ra ref py a)
    (hg : ∀ t ∈ ref, ∀ p ∈ t, ∀ q ∈ t, p.date = q.date ∧ p.payee = q.payee) : UsedWith ra ref py a := by
  obtain ⟨t, ht, h1⟩ := List.countP_pos_iff.1 h
  unfold counterInB at h1
  split at h1
  · rename_i x y
    simp only [Bool.and_eq_true, decide_eq_true_eq, Bool.or_eq_true] at h1
    refine ⟨_, ht, ⟨x, y, rfl, h1.2⟩, fun p hp => ?_⟩
    rw [← h1.1]; exact (hg _ ht p hp x (by simp)).2
  · cases h1

/-- C44 (partial): what holds is that a renamed posting gets an account used with a most similar
payee; it is a most common one if that payee is used with one counter-account only. -/
theorem c44_chosen_account_partial (srt : List Posting → List Posting) (hs : IsSort srt) (today : Int) (b ref : Book)
    (hr : Reachable srt today b) (hf : Reachable srt today ref) (o1 o2) (ho1 : ∀ l, (o1 l).Perm l) (ho2 : ∀ l, (o2 l).Perm l)
    (dist : Str → Str → Rat) (ra : Str) :
    List.Forall₂ (fun t t' => t' = t ∨ ∃ a py, RenamedTo ra t t' a ∧ (∀ p ∈ t, 0 < dist p.payee py) ∧
        UsedWith ra (ref.transactions srt) py a ∧
        ((∀ a', UsedWith ra (ref.transactions srt) py a' → a' = a) → MostCommon ra (ref.transactions srt) py a))
      (b.transactions srt) (b.reclassify srt o1 o2 dist ra ref).trans := by
  have h := (c43_only_counter_account srt hs today b ref hr hf o1 o2 ho1 ho2 dist ra).1
  have hcan : Canonical (ref.transactions srt) := compact_canonical hs (reachable_wf hs hf).1
  have hcb : Canonical (b.transactions srt) := compact_canonical hs (reachable_wf hs hr).1
  have hmem : ∀ t ∈ b.transactions srt, ∀ p ∈ t, ∀ q ∈ t, p.date = q.date ∧ p.payee = q.payee := hcb.oneTxn
  revert hmem h
  generalize b.transactions srt = ts0
  generalize (b.reclassify srt o1 o2 dist ra ref).trans = ts1
  intro h
  induction h with
  | nil => intro _; exact List.Forall₂.nil
  | cons hd _ ih =>
    rename_i t t' ts ts' _
    intro hmem
    refine List.Forall₂.cons ?_ (ih (fun t ht => hmem t (by simp [ht])))
    rcases hd with ⟨_, h⟩ | ⟨x, y, rfl, hxy, h⟩
    · exact Or.inl h
    · rcases h with ⟨_, h⟩ | ⟨py, a, h1, h2, h3, h4⟩
      · exact Or.inl h
      · by_cases he : t' = [x, y]
        · exact Or.inl he
        · right
          refine ⟨a, py, ⟨fun e => he e.symm, x, y, rfl, ?_⟩, ?_, h1, ?_⟩
          · rcases h4 with h4 | ⟨h4, h5⟩
            · exact Or.inl h4
            · exact Or.inr ⟨h4, hxy.resolve_left h4, h5⟩
          · intro p hp
            rw [(hmem [x, y] (by simp) p hp x (by simp)).2]; exact h2
          · intro honly a'
            by_cases ha : a' = a
            · rw [ha]
            · have : timesUsed ra (ref.transactions srt) py a' = 0 := by
                by_contra hne
                exact ha (honly a' (timesUsed_pos (Nat.pos_of_ne_zero hne) hcan.oneTxn))
              rw [this]; exact Nat.zero_le _

/-! ## C45 -/

/-- A call that cannot crash: the amount is given, the denominators are not 0, and if a second
account is named so is the second amount. -/
def AddArgs.Safe (a : AddArgs) : Prop :=
  (∀ r, a.amt = .num r → a.denom ≠ 0) ∧ a.amt ≠ .none ∧ (a.amt2 = .none → a.account2 = []) ∧
    (∀ r, a.amt2 = .num r → a.denom2 ≠ 0)

theorem add_pair_open {b : Builder} (h : OpenInv b []) (a1 a2 c : Str) (v : Rat) (n1 n2 : Str) :
    OpenInv ((b.addPosting a1 c v n1).addPosting a2 c (-v) n2) [] := by
  refine ⟨(amtAdd_keys _ _ _ (amtAdd_keys _ _ _ h.keys).1).1, fun c' => ?_⟩
  show amtAt (amtAdd (amtAdd b.currAmts c v) c (-v)) c' = _
  rw [amtAt_add, amtAt_add, h.amt]
  by_cases hc : c = c' <;> simp [hc]

theorem addSecond_open {b : Builder} (h : OpenInv b []) (a : AddArgs) :
    (∀ b', addSecond b a = .ok b' ∨ addSecond b a = .err b' → OpenInv b' []) ∧
    (addSecond b a = .panic → (a.amt2 = .none ∧ a.account2 ≠ []) ∨ ((∃ r, a.amt2 = .num r) ∧ a.denom2 = 0)) := by
  unfold addSecond
  cases hx : a.amt2 with
  | bad => exact ⟨by rintro b' (e | e) <;> cases e; exact h, by simp⟩
  | none =>
    simp only
    split
    · exact ⟨by rintro b' (e | e) <;> cases e; exact h, by simp⟩
    · rename_i hne
      exact ⟨(by rintro b' (e | e) <;> cases e), fun _ => Or.inl ⟨trivial, hne⟩⟩
  | num r =>
    simp only
    split
    · rename_i hn
      refine ⟨(by rintro b' (e | e) <;> cases e), fun _ => Or.inr ⟨⟨r, rfl⟩, ?_⟩⟩
      unfold newRat at hn; split at hn
      · assumption
      · cases hn
    · exact ⟨by rintro b' (e | e) <;> cases e; exact add_pair_open h _ _ _ _ _ _, by simp⟩

theorem addCall_open {b : Builder} (h : OpenInv b []) (a : AddArgs) :
    (∀ b', addCall b a = .ok b' ∨ addCall b a = .err b' → OpenInv b' []) ∧ (a.Safe → addCall b a ≠ .panic) := by
  unfold addCall
  split
  · exact ⟨by rintro b' (e | e) <;> cases e; exact h, by simp⟩
  · cases hx : a.amt with
    | bad => exact ⟨by rintro b' (e | e) <;> cases e; exact h, by simp⟩
    | none => exact ⟨(by rintro b' (e | e) <;> cases e), fun hs => absurd hx hs.2.1⟩
    | num r =>
      simp only
      cases hn : newRat 1 a.denom with
      | none =>
        refine ⟨(by rintro b' (e | e) <;> cases e), fun hs => ?_⟩
        unfold newRat at hn; split at hn
        · rename_i h0; exact absurd h0 (hs.1 r hx)
        · cases hn
      | some f =>
        simp only
        obtain ⟨b1, hb1⟩ := (newTransaction_iff h a.date a.desc a.note).2 (by intro c; rfl)
        rw [hb1]
        simp only
        obtain ⟨k1, k2⟩ := addSecond_open (add_pair_open (newTransaction_inv h hb1) a.account a.caccount a.ccy (r * f) a.lnote []) a
        refine ⟨k1, fun hs hp => ?_⟩
        rcases k2 hp with ⟨h1, h2⟩ | ⟨⟨r2, h1⟩, h2⟩
        · exact h2 (hs.2.2.1 h1)
        · exact hs.2.2.2 r2 h1 h2

theorem runAdds_open (as : List AddArgs) : ∀ b : Builder, OpenInv b [] →
    (∀ b', runAdds b as = .ok b' ∨ runAdds b as = .err b' → OpenInv b' []) ∧
    ((∀ a ∈ as, a.Safe) → runAdds b as ≠ .panic) := by
  induction as with
  | nil => intro b h; exact ⟨by rintro b' (e | e) <;> cases e; exact h, by simp [runAdds]⟩
  | cons a as ih =>
    intro b h
    obtain ⟨k1, k2⟩ := addCall_open h a
    unfold runAdds
    cases hr : addCall b a with
    | ok b1 =>
      obtain ⟨i1, i2⟩ := ih b1 (k1 b1 (Or.inl hr))
      exact ⟨i1, fun hs => i2 (fun x hx => hs x (by simp [hx]))⟩
    | err b1 =>
      refine ⟨?_, by simp⟩
      rintro b' (e | e)
      · cases e
      · cases e; exact k1 b1 (Or.inr hr)
    | panic => exact ⟨(by rintro b' (e | e) <;> cases e), fun hs => absurd hr (k2 (hs a (by simp)))⟩

/-- C45: after any sequence of `add` calls that does not crash (also one that stopped with a
script error) the builder is balanced: Build succeeds. -/
theorem c45_script_builds (srt : List Posting → List Posting) (as : List AddArgs) (b : Builder)
    (h : runAdds Builder.new as = .ok b ∨ runAdds Builder.new as = .err b) : ∃ book, b.build srt = some book := by
  have := (runAdds_open as Builder.new openInv_new).1 b h
  obtain ⟨b1, hb1⟩ := (checkAndClear_iff this).2 (by intro c; rfl)
  unfold Builder.build
  rw [hb1]; exact ⟨_, rfl⟩

/-- C45: a crash needs a missing amount or a zero denominator. -/
theorem c45_no_crash (as : List AddArgs) (h : ∀ a ∈ as, a.Safe) : runAdds Builder.new as ≠ .panic :=
  (runAdds_open as Builder.new openInv_new).2 h

/-! ## Concrete cases -/

private def callA : AddArgs := ⟨20200101, b!"Shop", .num 250, b!"EUR", 100, b!"Bank", .num 3, b!"USD", 1, b!"Fx", b!"Exp", [], []⟩
private def callB : AddArgs := ⟨20200101, b!"Shop", .num (-1), b!"EUR", 1, b!"Bank", .none, b!"EUR", 1, [], b!"Exp", [], []⟩

example : callA.Safe ∧ callB.Safe :=
  ⟨⟨by intro r _; decide, by simp [callA], by simp [callA], by intro r _; decide⟩,
   ⟨by intro r _; decide, by simp [callB], by simp [callB], by intro r _; decide⟩⟩

private def seen (r : AddRes) : Option (List (List Line)) :=
  match r with
  | .ok b => (b.build insSort).map fun b => (b.transactions insSort).map (·.map line)
  | _ => none

example : seen (runAdds Builder.new [callA, callB]) =
    some [[⟨20200101, b!"Shop", b!"Bank", b!"EUR", 5/2⟩, ⟨20200101, b!"Shop", b!"Exp", b!"EUR", -5/2⟩,
            ⟨20200101, b!"Shop", b!"Exp", b!"USD", -3⟩, ⟨20200101, b!"Shop", b!"Fx", b!"USD", 3⟩],
          [⟨20200101, b!"Shop (2)", b!"Bank", b!"EUR", -1⟩, ⟨20200101, b!"Shop (2)", b!"Exp", b!"EUR", 1⟩]] := by decide +kernel

/-- An import with a duplicate (day 3) and a new transaction. -/
def dupCalls : List Call :=
  [.newTransaction 3 b!"Shop" [], .addPosting b!"Bank" b!"EUR" (-9) [], .addPosting b!"Unknown" b!"EUR" 9 []] ++ newCalls

example : ((bookOf dupCalls).removeDuplicatesOf insSort (bookOf refCalls)).trans.map (·.map (·.date)) = [[9, 9]] := by
  decide +kernel

example : (importRun insSort true (some ⟨id, id, exact, b!"Bank"⟩) (bookOf refCalls) [] [bookOf dupCalls, bookOf newCalls]).map
    (·.map (·.map fun p => (p.date, p.acct))) = [[[(9, b!"Bank"), (9, b!"Misc")]], []] := by decide +kernel

example : ((Builder.new.calls refCalls).map fun bb => decide (∀ p ∈ bb.post, (p.date, p.payee) ∈ issued Builder.new refCalls)) = some true ∧
    (∀ n ∈ issued Builder.new refCalls, hasTxn ((bookOf refCalls).transactions insSort) n.1 n.2 = true) := by decide +kernel

end Verif
