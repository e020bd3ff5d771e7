import Verif.Proofs.Group

/-! # C03–C07: compaction and the reported transactions

`reported srt b` is the list of postings of `Transactions()`.  Results are for every book a
client can reach (`Reachable`: any builder history followed by any sequence of operations) and
every sort meeting the contract of `sort.Slice`. -/

namespace Verif
open Spec

private theorem keyFun_entry (d : Int) (py a c : Str) :
    KeyFun (fun p : Posting => decide (p.date = d ∧ p.payee = py ∧ p.acct = a ∧ p.ccy = c)) := by
  intro p q hpq
  obtain ⟨h1, h2, h3, h4⟩ := key_eq_iff.1 hpq
  simp [h1, h2, h3, h4]

/-! ## C03 -/

/-- C03 (b): reading any reachable book neither loses nor invents nor moves money. -/
theorem c03_read_amounts (srt : List Posting → List Posting) (hs : IsSort srt) (today : Int) (b : Book)
    (hr : Reachable srt today b) (d : Int) (py a c : Str) :
    entryTotal d py a c (reported srt b) = entryTotal d py a c b.post :=
  total_reported hs (keyFun_entry d py a c) (reachable_wf hs hr).1

/-! ## C04 -/

/-- C04: `Transactions()` is in canonical form (`Spec.Canonical`). -/
theorem c04_transactions_canonical (srt : List Posting → List Posting) (hs : IsSort srt) (today : Int) (b : Book)
    (hr : Reachable srt today b) : Canonical (b.transactions srt) :=
  compact_canonical hs (reachable_wf hs hr).1

/-- C04, for any non-empty posting list (not only reachable books): the summary fields must be
unset, as they are in every book. -/
theorem c04_any_postings_canonical (srt : List Posting → List Posting) (hs : IsSort srt) (b : Book)
    (hne : b.post ≠ []) (hp : ∀ p ∈ b.post, p.acctlevel = 0 ∧ p.acctsort = []) :
    Canonical (b.transactions srt) := by
  unfold Book.transactions Book.compact
  rw [if_neg hne]
  exact groupTxns_canonical (compactPost_strict hs hp) (compactPost_nonzero b.post)

/-! ## C05 -/

private theorem obs_dp (p q : Posting) (e : obs p = obs q) : p.date = q.date ∧ p.payee = q.payee := by
  simp only [obs, Obs.mk.injEq] at e; exact ⟨e.1, e.2.1⟩

/-- C05: two books with the same entry totals report the same transactions (dates, payees,
accounts, currencies, amounts, running balances), whatever the order of the postings and
whatever the sort. -/
theorem c05_order_independent (srt srt' : List Posting → List Posting) (hs : IsSort srt) (hs' : IsSort srt')
    (today today' : Int) (b b' : Book) (hr : Reachable srt today b) (hr' : Reachable srt' today' b')
    (h : ∀ d py a c, entryTotal d py a c b.post = entryTotal d py a c b'.post) :
    (b.transactions srt).map (·.map obs) = (b'.transactions srt').map (·.map obs) := by
  have w := (reachable_wf hs hr).1
  have w' := (reachable_wf hs' hr').1
  rw [transactions_eq hs w, transactions_eq hs' w']
  apply groupTxns_map _ _ _ obs_dp
  apply compactPost_unique hs hs' w.plain w'.plain
  intro k
  have hk : ∀ p : Posting, decide (key p = k) =
      decide (p.date = k.1 ∧ p.payee = k.2.1 ∧ p.acct = k.2.2.1 ∧ p.ccy = k.2.2.2) := by
    intro p
    apply decide_eq_decide.2
    obtain ⟨d, py, a, c⟩ := k
    show toLex (p.date, toLex (p.payee, toLex (p.acct, p.ccy))) = toLex (d, toLex (py, toLex (a, c))) ↔ _
    simp
  simp only [hk]
  exact h k.1 k.2.1 k.2.2.1 k.2.2.2

/-- C05, in the form "the same postings in any order, any two sorts", for arbitrary non-empty
posting lists. -/
theorem c05_permutation (srt srt' : List Posting → List Posting) (hs : IsSort srt) (hs' : IsSort srt')
    (b b' : Book) (hperm : b.post.Perm b'.post) (hne : b.post ≠ [])
    (hp : ∀ p ∈ b.post, p.acctlevel = 0 ∧ p.acctsort = []) :
    (b.transactions srt).map (·.map obs) = (b'.transactions srt').map (·.map obs) := by
  have hne' : b'.post ≠ [] := fun e => hne (by rw [e] at hperm; exact hperm.eq_nil)
  unfold Book.transactions Book.compact
  rw [if_neg hne, if_neg hne']
  apply groupTxns_map _ _ _ obs_dp
  exact compactPost_unique hs hs' hp (fun p h => hp p (hperm.mem_iff.2 h)) (fun k => total_perm hperm)

/-! ## C06 -/

/-- C06: every reported balance is the sum of the amounts reported so far for its account and
currency. -/
theorem c06_running_balances (srt : List Posting → List Posting) (hs : IsSort srt) (today : Int) (b : Book)
    (hr : Reachable srt today b) : RunningBalances (reported srt b) := by
  rw [reported_eq hs (reachable_wf hs hr).1]
  exact compactPost_running b.post

/-- C06: the balance of the last posting of an account and currency is the account's total. -/
theorem c06_last_balance (srt : List Posting → List Posting) (hs : IsSort srt) (today : Int) (b : Book)
    (hr : Reachable srt today b) (pre post : List Posting) (p : Posting)
    (h : reported srt b = pre ++ p :: post) (hlast : ∀ q ∈ post, ¬ (q.acct = p.acct ∧ q.ccy = p.ccy)) :
    p.bal = acctTotal p.acct p.ccy b.post := by
  rw [c06_running_balances srt hs today b hr pre p post h]
  have hk : KeyFun (fun q : Posting => decide (q.acct = p.acct ∧ q.ccy = p.ccy)) := by
    intro x y hxy
    obtain ⟨_, _, h3, h4⟩ := key_eq_iff.1 hxy
    simp [h3, h4]
  unfold acctTotal
  rw [← total_reported hs hk (reachable_wf hs hr).1, h, total_append, total_append, total_cons, total_cons,
    total_congr (l := post) (Q := fun _ => false), total_false, total_nil]
  intro q hq
  simpa using hlast q hq

/-! ## C07 -/

/-- C07: reading a book that has just been read changes nothing at all, for any sort
implementation in either reading. -/
theorem c07_read_twice (srt srt' : List Posting → List Posting) (hs : IsSort srt) (hs' : IsSort srt') (b : Book)
    (hp : ∀ p ∈ b.post, p.acctlevel = 0 ∧ p.acctsort = []) :
    (b.compact srt).compact srt' = b.compact srt := by
  by_cases h0 : b.post = []
  · have : b.compact srt = b := by unfold Book.compact; rw [if_pos h0]
    rw [this]; unfold Book.compact; rw [if_pos h0]
  · have e : b.compact srt = { b with post := compactPost srt b.post, trans := groupTxns (compactPost srt b.post) } := by
      unfold Book.compact; rw [if_neg h0]
    rw [e]
    unfold Book.compact
    simp only
    split
    · rfl
    · have hpl := plain_compactPost hs hp
      rw [compactPost_of_canonical hs' hpl (compactPost_strict hs hp) (compactPost_nonzero b.post)]
      unfold compactPost
      rw [setBals_setBals]

/-- C07, as seen by the user of a reachable book: the second call of `Transactions()` returns
what the first returned, and the book is the same. -/
theorem c07_transactions_stable (srt srt' : List Posting → List Posting) (hs : IsSort srt) (hs' : IsSort srt')
    (today : Int) (b : Book) (hr : Reachable srt today b) :
    (b.compact srt).transactions srt' = b.transactions srt ∧ (b.compact srt).compact srt' = b.compact srt := by
  have := c07_read_twice srt srt' hs hs' b (reachable_wf hs hr).1.plain
  exact ⟨by unfold Book.transactions; rw [this], this⟩

/-! ## A concrete case -/

/-- Two transactions on one day (same payee: the second is renamed), with postings to merge,
a posting that cancels, two currencies. -/
def demoCalls : List Call :=
  [.newTransaction 20200131 b!"shop" b!"n1", .addPosting b!"Exp:Food" b!"USD" 3 [],
   .addPosting b!"Exp:Food" b!"USD" (1/2) [], .addPosting b!"Cash" b!"USD" (-7/2) [],
   .newTransaction 20200131 b!"shop" [], .addPosting b!"Cash" b!"USD" 5 [], .addPosting b!"Cash" b!"EUR" (-4) [],
   .addPosting b!"Exp:Food" b!"EUR" 4 [], .addPosting b!"Inc" b!"USD" (-5) [],
   .addPosting b!"Tmp" b!"USD" 1 [], .addPosting b!"Tmp" b!"USD" (-1) []]

/-- The demo book. -/
def demoBook : Book :=
  match (Builder.new.calls demoCalls).bind (Builder.build insSort) with
  | some b => b
  | none => ⟨[], [], [], []⟩

theorem demo_built : (Builder.new.calls demoCalls).bind (Builder.build insSort) = some demoBook := by
  have h : ((Builder.new.calls demoCalls).bind (Builder.build insSort)).isSome = true := by decide +kernel
  obtain ⟨b, hb⟩ := Option.isSome_iff_exists.1 h
  unfold demoBook
  rw [hb]

/-- The demo book is reachable, so the hypotheses of the theorems are met. -/
theorem demo_reachable : Reachable insSort 0 demoBook := by
  obtain ⟨bb, h1, h2⟩ := Option.bind_eq_some_iff.1 demo_built
  exact ⟨demoCalls, bb, demoBook, [], h1, h2, rfl⟩

example : (demoBook.transactions insSort).map (·.map obs) =
    [[⟨20200131, b!"shop", b!"Cash", b!"USD", -7/2, -7/2⟩, ⟨20200131, b!"shop", b!"Exp:Food", b!"USD", 7/2, 7/2⟩],
     [⟨20200131, b!"shop (2)", b!"Cash", b!"EUR", -4, -4⟩, ⟨20200131, b!"shop (2)", b!"Cash", b!"USD", 5, 3/2⟩,
      ⟨20200131, b!"shop (2)", b!"Exp:Food", b!"EUR", 4, 4⟩, ⟨20200131, b!"shop (2)", b!"Inc", b!"USD", -5, -5⟩]] := by
  decide +kernel

example : Canonical (demoBook.transactions insSort) :=
  c04_transactions_canonical insSort insSort_isSort 0 demoBook demo_reachable

example : demoBook.post ≠ [] := by decide +kernel

end Verif
