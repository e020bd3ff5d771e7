import Verif.Spec.ScriptBook
import Verif.Props.Heap
import Verif.Props.Generate
import Verif.Props.OpText
import Verif.Proofs.Float

/-! # C110, C111: the book as a script sees it -/

namespace Verif
open Spec

/-! ## C110: what is read -/

theorem forEach_drop {α : Type} (l : List α) : ∀ (k i : Nat), i + k = l.length → forEach l i = some (l.drop i) := by
  intro k
  induction k with
  | zero => intro i h; rw [forEach, if_pos (by omega), List.drop_of_length_le (by omega)]
  | succ k ih =>
    intro i h
    rw [forEach, if_neg (by omega)]
    have hi : i < l.length := by omega
    rw [List.drop_eq_getElem_cons hi]
    split
    · rename_i hn
      rw [List.getElem?_eq_none_iff] at hn; omega
    · rename_i x hx
      rw [List.getElem?_eq_getElem hi] at hx
      cases hx
      rw [ih (i + 1) (by omega)]
      rfl

/-- A `for` loop visits every element once, in order. -/
theorem forEach_all {α : Type} (l : List α) : forEach l 0 = some l := by
  rw [forEach_drop l l.length 0 (by omega)]; rfl

theorem scriptLoop_eq (ts : List Txn) : scriptLoop ts = some (ts.flatMap fun t => t.map fun p => (t, p)) := by
  unfold scriptLoop
  rw [forEach_all]
  simp only
  induction ts with
  | nil => rfl
  | cons t ts ih => rw [List.foldr_cons, ih]; simp only [forEach_all, List.flatMap_cons]

theorem seesPosting (fl : Rat → Rat) (p : Posting) : SeesPosting p (postingAttr fl p) := by
  refine ⟨?_, ?_, ?_, ?_, ?_, ?_, ?_⟩
  · simp [postingAttr]
  · rw [postingAttr, if_neg (by decide), if_pos rfl]
  · rw [postingAttr, if_neg (by decide), if_neg (by decide), if_pos rfl]
  · rw [postingAttr, if_neg (by decide), if_neg (by decide), if_neg (by decide), if_neg (by decide), if_neg (by decide), if_pos rfl]
  · rw [postingAttr, if_neg (by decide), if_neg (by decide), if_neg (by decide), if_pos rfl]
  · rw [postingAttr, if_neg (by decide), if_neg (by decide), if_neg (by decide), if_neg (by decide), if_neg (by decide), if_neg (by decide), if_pos rfl]
  · intro n hn
    simp only [List.mem_cons, List.not_mem_nil, or_false, not_or] at hn
    obtain ⟨h1, h2, h3, h4, h5, h6, h7, h8⟩ := hn
    rw [postingAttr, if_neg h1, if_neg h2, if_neg h3, if_neg h5, if_neg h7, if_neg h4, if_neg h6, if_neg h8]

theorem attr_amount (fl : Rat → Rat) (p : Posting) : postingAttr fl p b!"amount" = some (.float (.fin (fl p.val))) := by
  rw [postingAttr, if_neg (by decide), if_neg (by decide), if_neg (by decide), if_neg (by decide), if_pos rfl]

theorem attr_balance (fl : Rat → Rat) (p : Posting) : postingAttr fl p b!"balance" = some (.float (.fin (fl p.bal))) := by
  rw [postingAttr, if_neg (by decide), if_neg (by decide), if_neg (by decide), if_neg (by decide), if_neg (by decide), if_neg (by decide), if_neg (by decide),
    if_pos rfl]

theorem flatMap_snd (ts : List Txn) : (ts.flatMap fun t => t.map fun p => (t, p)).map (·.2) = ts.flatten := by
  induction ts with
  | nil => rfl
  | cons t ts ih => rw [List.flatMap_cons, List.map_append, ih, List.flatten_cons, List.map_map]; simp

/-- **C110**: looping over `data.transactions` and over each transaction, a script visits exactly the postings of the report, each once and in the
order of the report, and reads of each its date (as printed), payee, account, currency and notes; the transaction's date and payee are those of each
of its postings, its note is that of its first posting. -/
theorem c110_view (srt : List Posting → List Posting) (hs : IsSort srt) (today : Int) (b : Book) (hr : Reachable srt today b) (fl : Rat → Rat) :
    ∃ seen, scriptLoop (b.transactions srt) = some seen ∧ seen.map (·.2) = reported srt b ∧
      ∀ t p, (t, p) ∈ seen → t ∈ b.transactions srt ∧ p ∈ t ∧ SeesPosting p (postingAttr fl p) ∧
        txnAttr t b!"date" = .val (.str (dateString p.date)) ∧ txnAttr t b!"payee" = .val (.str p.payee) ∧
        ∃ q rest, t = q :: rest ∧ txnAttr t b!"transaction_note" = .val (.str q.tnote) := by
  have hcan := c04_transactions_canonical srt hs today b hr
  refine ⟨_, scriptLoop_eq _, flatMap_snd _, ?_⟩
  intro t p h
  obtain ⟨t', ht, h'⟩ := List.mem_flatMap.1 h
  obtain ⟨p', hp, e⟩ := List.mem_map.1 h'
  cases e
  obtain ⟨q, rest, rfl⟩ := List.exists_cons_of_ne_nil (hcan.nonempty t ht)
  obtain ⟨e1, e2⟩ := hcan.oneTxn _ ht p hp q (by simp)
  refine ⟨ht, hp, seesPosting fl p, ?_, ?_, q, rest, rfl, ?_⟩
  · rw [e1]; rfl
  · rw [e2]; rfl
  · rfl

/-- **C110**: amount and balance are read as the `float64` next to them. -/
theorem c110_numbers (fl : Rat → Rat) (hf : DoubleRounding fl) (p : Posting) :
    (OrdinarySize p.val → SeesNumber b!"amount" p.val (postingAttr fl p)) ∧ (OrdinarySize p.bal → SeesNumber b!"balance" p.bal (postingAttr fl p)) :=
  ⟨fun h => ⟨_, attr_amount fl p, hf.double _ h.1, hf.close _ h.1 h.2⟩, fun h => ⟨_, attr_balance fl p, hf.double _ h.1, hf.close _ h.1 h.2⟩⟩

/-- **C110**: the balance belongs to the loop: it is the sum of the amounts of that account and currency among the postings visited so far. -/
theorem c110_balance (srt : List Posting → List Posting) (hs : IsSort srt) (today : Int) (b : Book) (hr : Reachable srt today b)
    (seen : List (Txn × Posting)) (h : scriptLoop (b.transactions srt) = some seen) (pre post : List (Txn × Posting)) (t : Txn) (p : Posting)
    (e : seen = pre ++ (t, p) :: post) :
    p.bal = total (fun q => decide (q.acct = p.acct ∧ q.ccy = p.ccy)) (pre.map (·.2) ++ [p]) := by
  rw [scriptLoop_eq] at h
  cases h
  refine c06_running_balances srt hs today b hr (pre.map (·.2)) p (post.map (·.2)) ?_
  show (b.transactions srt).flatten = _
  rw [← flatMap_snd, e]; simp

/-- **C110**: nothing is lost for amounts of up to 18 decimals and less than 2^52 units: rounding what the script reads to these decimals gives the amount. -/
theorem c110_recover (fl : Rat → Rat) (hf : DoubleRounding fl) (p : Posting) (dec : Nat) (hd : dec ≤ 18) (k : Int) (hk : p.val * 10 ^ dec = k)
    (hb : |k| < 2 ^ 52) (rd : Rat → Nat) (hn : NearestNat rd) :
    ∃ x, postingAttr fl p b!"amount" = some (.float (.fin x)) ∧ rd (|x| * 10 ^ dec) = k.natAbs ∧ (x < 0 ↔ p.val < 0) := by
  obtain ⟨h1, h2⟩ := rounded_units hf hn (by omega : dec ≤ 300) hk hb
  exact ⟨_, attr_amount fl p, h1, h2⟩

/-- C110 is false of the amounts themselves, whatever `float64` is taken: not every amount is read as it is. -/
theorem c110_amount_fails (fl : Rat → Rat) (hf : DoubleRounding fl) : ¬ ∀ p : Posting, postingAttr fl p b!"amount" = some (.float (.fin p.val)) := by
  intro h
  have h1 := h ⟨20200101, b!"x", [], b!"A", b!"E", 2 ^ 53 + 1, [], 0, 0, [], []⟩
  rw [attr_amount] at h1
  have h2 : fl (2 ^ 53 + 1) = 2 ^ 53 + 1 := by
    have := Option.some.inj h1
    simpa using this
  have h3 := hf.double (2 ^ 53 + 1) (by
    rw [abs_of_nonneg (by norm_num)]
    exact le_trans (by norm_num : (2 ^ 53 + 1 : Rat) ≤ 10 ^ 20) (pow_le_pow_right₀ (by norm_num) (by norm_num)))
  rw [h2] at h3
  exact not_double h3

/-! ## C111: the list a script holds -/

theorem tcompact_fst (srt : List HPost → List HPost) (spare : Nat) (s : TMem) (b : TBook) :
    (b.compact srt spare s).1.m = (b.b.compact srt s.m).1 ∧ (b.compact srt spare s).2.b = (b.b.compact srt s.m).2 := by
  unfold TBook.compact
  by_cases h : b.b.posts s.m = []
  · rw [if_pos h]
    have : b.b.compact srt s.m = (s.m, b.b) := by unfold HBook.compact; rw [if_pos h]
    rw [this]; exact ⟨rfl, rfl⟩
  · rw [if_neg h]
    simp only [storeTrans]
    split <;> simp

theorem storeTrans_cells (spare : Nat) (s : TMem) (ta : Nat) (new : List Slice) (h : ta < s.tnext) :
    ((storeTrans spare s ta new).1.tarrs (storeTrans spare s ta new).2).take new.length = new ∧
    (storeTrans spare s ta new).2 < (storeTrans spare s ta new).1.tnext := by
  unfold storeTrans
  split
  · refine ⟨?_, h⟩
    simp [setTArr]
  · refine ⟨?_, by simp⟩
    simp [setTArr]

theorem hasTrans_compact {srt : List HPost → List HPost} (spare : Nat) {s : TMem × TBook} (h : HasTrans s) : HasTrans (s.2.compact srt spare s.1) := by
  unfold TBook.compact
  by_cases hp : s.2.b.posts s.1.m = []
  · rw [if_pos hp]; exact h
  · rw [if_neg hp]
    obtain ⟨h1, h2⟩ := storeTrans_cells spare { s.1 with m := (s.2.b.compact srt s.1.m).1 } s.2.ta (s.2.b.compact srt s.1.m).2.trans h.addr
    exact ⟨h1, h2⟩

theorem hasTrans_filter (f : Int → Str → Txn → Bool) (s : TMem × TBook) : HasTrans (s.2.filter f s.1) := by
  refine ⟨?_, by simp [TBook.filter]⟩
  simp [TBook.filter, setTArr]

/-- The operation on books as values that a step is. -/
def BookStep.toOp : BookStep → Op
  | .read _ => .read
  | .since d => .since d
  | .asof d => .asof d
  | .map _ g => .mapAccount g

/-- Every step leaves the memory in order, with the book the step makes of values. -/
theorem holds_step {srt : List HPost → List HPost} (hs : IsHSort srt) (today : Int) (st : BookStep) {s : TMem × TBook} {fb : Book} (h : Holds s fb) :
    ∃ srtP fb', IsSort srtP ∧ st.toOp.apply srtP today fb = some fb' ∧ Holds (st.run srt s) fb' := by
  have filt : ∀ f : Int → Str → Txn → Bool, Holds (s.2.filter f s.1) (fb.filterTransaction f) := by
    intro f
    obtain ⟨r1, r2⟩ := filter_refines h.laid h.reads f
    exact ⟨r2, r1, hasTrans_filter f s⟩
  cases st with
  | read spare =>
    obtain ⟨srtP, hP, hc⟩ := hop_refines hs today .read h.laid h.reads
    rcases hc with ⟨e1, _⟩ | ⟨m', b', fb', e1, e2, r1, r2⟩
    · simp [HOp.apply] at e1
    · simp only [HOp.apply, Option.some.injEq] at e1
      obtain ⟨k1, k2⟩ := tcompact_fst srt spare s.1 s.2
      rw [e1] at k1 k2
      exact ⟨srtP, fb', hP, e2, ⟨by show Laid (s.2.compact srt spare s.1).1.m (s.2.compact srt spare s.1).2.b; rw [k1, k2]; exact r2,
        by show ReadsAs (s.2.compact srt spare s.1).1.m (s.2.compact srt spare s.1).2.b fb'; rw [k1, k2]; exact r1, hasTrans_compact spare h.trans⟩⟩
  | since d =>
    refine ⟨insSort, fb.filterByDateSince d, insSort_isSort, rfl, ?_⟩
    simp only [BookStep.run, Book.filterByDateSince]
    by_cases hd : d = 0
    · rw [if_pos hd, if_pos hd]; exact h
    · rw [if_neg hd, if_neg hd]; exact filt _
  | asof d =>
    refine ⟨insSort, fb.filterByDateAsof d, insSort_isSort, rfl, ?_⟩
    simp only [BookStep.run, Book.filterByDateAsof]
    by_cases hd : d = 0
    · rw [if_pos hd, if_pos hd]; exact h
    · rw [if_neg hd, if_neg hd]; exact filt _
  | map spare g =>
    obtain ⟨srtP, hP, hc⟩ := hop_refines hs today (.mapAccount g) h.laid h.reads
    rcases hc with ⟨e1, _⟩ | ⟨m', b', fb', e1, e2, r1, r2⟩
    · simp [HOp.apply] at e1
    · simp only [HOp.apply, Option.some.injEq, HBook.mapAccount] at e1
      have hk := tcompact_fst srt spare { s.1 with m := { s.1.m with arrs := setArr s.1.m.arrs s.2.b.arr (((s.2.b.posts s.1.m).map fun x => { x with p := mapAccountPost g x.p }) ++ (s.1.m.arrs s.2.b.arr).drop s.2.b.len) } } s.2
      simp only at hk
      rw [e1] at hk
      obtain ⟨k1, k2⟩ := hk
      have ht : HasTrans ({ s.1 with m := { s.1.m with arrs := setArr s.1.m.arrs s.2.b.arr (((s.2.b.posts s.1.m).map fun x => { x with p := mapAccountPost g x.p }) ++ (s.1.m.arrs s.2.b.arr).drop s.2.b.len) } }, s.2) :=
        ⟨h.trans.cells, h.trans.addr⟩
      refine ⟨srtP, fb', hP, e2, ⟨?_, ?_, hasTrans_compact (srt := srt) spare ht⟩⟩
      · show Laid (TBook.mapAccount srt spare g s.1 s.2).1.m (TBook.mapAccount srt spare g s.1 s.2).2.b
        unfold TBook.mapAccount; simp only; rw [k1, k2]; exact r2
      · show ReadsAs (TBook.mapAccount srt spare g s.1 s.2).1.m (TBook.mapAccount srt spare g s.1 s.2).2.b fb'
        unfold TBook.mapAccount; simp only; rw [k1, k2]; exact r1

/-- A freshly built book is laid out so. -/
theorem holds_build {srt : List HPost → List HPost} (hs : IsHSort srt) (spare : Nat) (l : List Posting) (fb : Book) (hp : fb.post = l) (ht : fb.trans = []) :
    ∃ srtP, IsSort srtP ∧ Holds (tbuild srt spare l) (fb.compact srtP) := by
  obtain ⟨srtP, h1, h2, h3⟩ := c80_build hs l fb hp ht
  refine ⟨srtP, h1, ?_, ?_, ?_⟩
  · unfold tbuild
    obtain ⟨k1, k2⟩ := tcompact_fst srt spare
      ⟨{ rats := (alloc (fun _ => 0) 0 l).1, arrs := fun i => if i = 0 then (alloc (fun _ => 0) 0 l).2.2 else [], next := 1, nextR := (alloc (fun _ => 0) 0 l).2.1 },
        fun i => if i = 0 then List.replicate l.length ⟨0, 0, 0⟩ else [], 1⟩
      ⟨⟨0, (alloc (fun _ => 0) 0 l).2.2.length, List.replicate l.length ⟨0, 0, 0⟩⟩, 0⟩
    simp only
    rw [k1, k2]; exact h3
  · unfold tbuild
    obtain ⟨k1, k2⟩ := tcompact_fst srt spare
      ⟨{ rats := (alloc (fun _ => 0) 0 l).1, arrs := fun i => if i = 0 then (alloc (fun _ => 0) 0 l).2.2 else [], next := 1, nextR := (alloc (fun _ => 0) 0 l).2.1 },
        fun i => if i = 0 then List.replicate l.length ⟨0, 0, 0⟩ else [], 1⟩
      ⟨⟨0, (alloc (fun _ => 0) 0 l).2.2.length, List.replicate l.length ⟨0, 0, 0⟩⟩, 0⟩
    simp only
    rw [k1, k2]; exact h2
  · exact hasTrans_compact (srt := srt) spare (s := (_, _)) ⟨by simp, by simp⟩

/-- A held list keeps its cells. -/
structure HeldInv (r0 : Nat → Rat) (K0 : List (List HPost)) (h : HeldList) (s : TMem × TBook) (K : List (List HPost)) : Prop where
  cells : ((s.1.tarrs h.arr).take h.len).map s.1.m.view = K0
  len : h.len = K0.length
  slices : ∀ x ∈ (s.1.tarrs h.arr).take h.len, x.arr < s.1.m.next
  addr : h.arr < s.1.tnext
  taddr : s.2.ta < s.1.tnext
  copy : Copy s.1.m s.2.b K
  sub : K.Sublist K0
  vals : ∀ x ∈ K0.flatten, s.1.m.rats x.v = r0 x.v
  same : s.2.ta = h.arr → K = K0

theorem heldInv_read {srt : List HPost → List HPost} (hs : IsHSort srt) {r0 : Nat → Rat} {K0 K : List (List HPost)} (h0 : Static r0 K0) {h : HeldList}
    {s : TMem × TBook} (hi : HeldInv r0 K0 h s K) (spare : Nat) : HeldInv r0 K0 h (s.2.compact srt spare s.1) K := by
  obtain ⟨c1, c2, c3, c4, _⟩ := read_copy hs h0 hi.sub hi.copy hi.vals
  unfold TBook.compact
  by_cases hp : s.2.b.posts s.1.m = []
  · rw [if_pos hp]; exact hi
  rw [if_neg hp]
  generalize hcm : s.2.b.compact srt s.1.m = c at c1 c2 c3 c4
  simp only
  have hview : c.1.view = s.1.m.view := by funext x; unfold Mem.view; rw [c2]
  by_cases ha : s.2.ta = h.arr
  · have hK := hi.same ha
    have hl : c.2.trans.length = K0.length := by rw [← hK, ← c1.views, List.length_map]
    have hlen : h.len ≤ (s.1.tarrs h.arr).length := by
      have h1 := congrArg List.length hi.cells
      rw [List.length_map, List.length_take, ← hi.len] at h1
      omega
    have hst : storeTrans spare { s.1 with m := c.1 } s.2.ta c.2.trans =
        ({ s.1 with m := c.1, tarrs := setTArr s.1.tarrs s.2.ta (c.2.trans ++ (s.1.tarrs s.2.ta).drop c.2.trans.length) }, s.2.ta) := by
      unfold storeTrans
      rw [if_pos (by rw [hl, ← hi.len, ha]; exact hlen)]
    rw [hst]
    have htake : ((setTArr s.1.tarrs s.2.ta (c.2.trans ++ (s.1.tarrs s.2.ta).drop c.2.trans.length)) h.arr).take h.len = c.2.trans := by
      rw [← ha, hi.len, ← hl]; simp [setTArr]
    refine ⟨?_, hi.len, ?_, hi.addr, hi.taddr, c1, hi.sub, c4, hi.same⟩
    · simp only
      rw [htake, c1.views, hK]
    · simp only
      rw [htake]; exact c1.slices
  · have hu : ∀ x : TMem × Nat, x = storeTrans spare { s.1 with m := c.1 } s.2.ta c.2.trans →
        x.1.tarrs h.arr = s.1.tarrs h.arr ∧ x.1.m = c.1 ∧ s.1.tnext ≤ x.1.tnext ∧ x.2 < x.1.tnext ∧ x.2 ≠ h.arr := by
      intro x hx
      have hne : h.arr ≠ s.2.ta := fun e => ha e.symm
      have hnx : h.arr ≠ s.1.tnext := by have := hi.addr; omega
      unfold storeTrans at hx
      split at hx
      · subst hx
        exact ⟨by simp [setTArr, hne], rfl, le_rfl, hi.taddr, ha⟩
      · subst hx
        exact ⟨by simp [setTArr, hne, hnx], rfl, by simp, by simp, fun e => hnx e.symm⟩
    obtain ⟨u1, u2, u3, u4, u5⟩ := hu _ rfl
    generalize storeTrans spare { s.1 with m := c.1 } s.2.ta c.2.trans = w at *
    refine ⟨?_, hi.len, ?_, ?_, u4, ?_, hi.sub, ?_, fun e => absurd e u5⟩
    · simp only
      rw [u1, u2, hview]; exact hi.cells
    · simp only
      rw [u1, u2, c3]; exact hi.slices
    · have := hi.addr; simp only; omega
    · simp only
      rw [u2]; exact c1
    · simp only
      rw [u2]; exact c4

theorem heldInv_filter {r0 : Nat → Rat} {K0 K : List (List HPost)} {h : HeldList} {s : TMem × TBook} (hi : HeldInv r0 K0 h s K)
    {f : Int → Str → Txn → Bool} (hf : BalFree f) : ∃ K', HeldInv r0 K0 h (s.2.filter f s.1) K' := by
  obtain ⟨K', q1, q2, q3, q4, q5, _⟩ := filter_copy hf ⟨[], [], [], []⟩ hi.sub hi.copy hi.vals
  have hnx : h.arr ≠ s.1.tnext := by have := hi.addr; omega
  have ht : (s.2.filter f s.1).1.tarrs h.arr = s.1.tarrs h.arr := by simp [TBook.filter, setTArr, hnx]
  have hm : (s.2.filter f s.1).1.m = (s.2.b.filter f s.1.m).1 := rfl
  refine ⟨K', ?_, hi.len, ?_, ?_, by simp [TBook.filter], q2, q1.trans hi.sub, ?_, ?_⟩
  · rw [ht, hm, ← hi.cells]
    apply List.map_congr_left
    intro x hx
    unfold Mem.view
    rw [q3 _ (hi.slices x hx)]
  · rw [ht, hm, q4]
    intro x hx
    have := hi.slices x hx; omega
  · have := hi.addr
    simp only [TBook.filter]; omega
  · rw [hm, q5]; exact hi.vals
  · intro e; exact absurd e.symm hnx

theorem heldInv_step {srt : List HPost → List HPost} (hs : IsHSort srt) {r0 : Nat → Rat} {K0 K : List (List HPost)} (h0 : Static r0 K0) {h : HeldList}
    {s : TMem × TBook} (hi : HeldInv r0 K0 h s K) (st : BookStep) (hk : BookStep.Keeps st) : ∃ K', HeldInv r0 K0 h (st.run srt s) K' := by
  cases st with
  | read spare => exact ⟨K, heldInv_read hs h0 hi spare⟩
  | since d =>
    simp only [BookStep.run]
    split
    · exact ⟨K, hi⟩
    · exact heldInv_filter hi (fun _ _ _ _ _ => rfl)
  | asof d =>
    simp only [BookStep.run]
    split
    · exact ⟨K, hi⟩
    · exact heldInv_filter hi (fun _ _ _ _ _ => rfl)
  | map _ _ => exact absurd hk id

theorem held_look {r0 : Nat → Rat} {K0 K : List (List HPost)} {h : HeldList} {s : TMem × TBook} (hi : HeldInv r0 K0 h s K) :
    h.look s.1 = K0.map (·.map (derefR s.1.m.rats)) := by
  unfold HeldList.look
  rw [← hi.cells, List.map_map]
  rfl

theorem held_noBals {r0 : Nat → Rat} {K0 K : List (List HPost)} {h : HeldList} {s : TMem × TBook} (hi : HeldInv r0 K0 h s K) :
    noBals (h.look s.1) = K0.map (·.map fun x => noBal (derefR r0 x)) := by
  rw [held_look hi]
  unfold noBals
  rw [List.map_map]
  apply List.map_congr_left
  intro t ht
  simp only [Function.comp]
  rw [List.map_map]
  apply List.map_congr_left
  intro x hx
  have := hi.vals x (List.mem_flatten.2 ⟨t, ht, hx⟩)
  simp [noBal, derefR, this]

/-- Taking the list. -/
theorem take_inv {srt : List HPost → List HPost} (hs : IsHSort srt) {srtP : List Posting → List Posting} (hP : IsSort srtP) {today : Int}
    {s : TMem × TBook} {fb : Book} (h : Holds s fb) (hr : Reachable srtP today fb) (spare : Nat) (s1 : TMem × TBook) (ts : HeldList)
    (ht : takeList srt spare s = (s1, ts)) :
    ∃ srtQ K0, IsSort srtQ ∧ Static s1.1.m.rats K0 ∧ HeldInv s1.1.m.rats K0 ts s1 K0 ∧ ts.look s1.1 = fb.transactions srtQ ∧
      bookOfCells fb s1.1.m.rats K0 = fb.compact srtQ := by
  have hwf := (reachable_wf hP hr).1
  obtain ⟨srtQ, fb', hQ, e, hh⟩ := holds_step hs today (.read spare) h
  simp only [BookStep.toOp, Op.apply, Option.some.injEq] at e
  subst e
  unfold takeList at ht
  simp only [Prod.mk.injEq] at ht
  obtain ⟨rfl, rfl⟩ := ht
  generalize BookStep.run srt (.read spare) s = r at *
  have hcan : Canonical (fb.compact srtQ).trans := compact_canonical hQ hwf
  have hwf' : (fb.compact srtQ).WF := compact_wf hQ hwf.plain hwf.nil_trans
  have hview : (r.2.b.trans.map r.1.m.view).map (·.map (derefR r.1.m.rats)) = (fb.compact srtQ).trans := by
    have := hh.reads.2
    rw [List.map_map]; exact this
  refine ⟨srtQ, r.2.b.trans.map r.1.m.view, hQ, ⟨?_, ?_, ?_⟩, ?_, ?_, ?_⟩
  · rw [hh.laid.index]; exact hh.laid.sep
  · rw [hh.laid.index]
    intro x hx
    exact hwf'.plain (derefR r.1.m.rats x) (by rw [← hh.reads.1]; exact List.mem_map.2 ⟨x, hx, rfl⟩)
  · rw [hview]; exact hcan
  · have hc := hh.trans.cells
    have ha := hh.trans.addr
    refine ⟨?_, by simp, ?_, ha, ha, ⟨?_, hh.laid.len, rfl, hh.laid.arr, ?_⟩, List.Sublist.refl _, fun x _ => rfl, fun _ => rfl⟩
    · exact congrArg (List.map r.1.m.view) hc
    · intro x hx
      have hx' : x ∈ r.2.b.trans := by rw [← hc]; exact hx
      rw [(hh.laid.slices x hx').1]; exact hh.laid.arr
    · exact hh.laid.index.symm
    · intro x hx
      rw [(hh.laid.slices x hx).1]; exact hh.laid.arr
  · show _ = (fb.compact srtQ).trans
    rw [← hview]
    unfold HeldList.look
    rw [hh.trans.cells, List.map_map]
    rfl
  · unfold bookOfCells
    rw [hview]
    have : (fb.compact srtQ).trans.flatten = (fb.compact srtQ).post := hwf'.index
    rw [this]
    show _ = fb.compact srtQ
    unfold Book.compact
    split <;> rfl

/-- **C111** (what holds): the list taken with `ts = data.transactions` is the report, and whatever reading and date filtering (`since`, `asof`) the
script does afterwards, it still shows the same transactions with the same postings, accounts, currencies, amounts and notes.  Missing: `map`, and the
running balances (see the two theorems below). -/
theorem c111_list_kept_partial (srt : List HPost → List HPost) (hs : IsHSort srt) (srtP : List Posting → List Posting) (hP : IsSort srtP) (today : Int)
    (s : TMem × TBook) (fb : Book) (h : Holds s fb) (hr : Reachable srtP today fb) (spare : Nat) (s1 : TMem × TBook) (ts : HeldList)
    (ht : takeList srt spare s = (s1, ts)) :
    ∃ srtQ, IsSort srtQ ∧ ts.look s1.1 = fb.transactions srtQ ∧
      ∀ steps : List BookStep, (∀ st ∈ steps, BookStep.Keeps st) →
        noBals (ts.look (steps.foldl (fun s st => st.run srt s) s1).1) = noBals (fb.transactions srtQ) := by
  obtain ⟨srtQ, K0, hQ, h0, hi, hl, _⟩ := take_inv hs hP h hr spare s1 ts ht
  refine ⟨srtQ, hQ, hl, ?_⟩
  have key : ∀ (steps : List BookStep) (s : TMem × TBook) (K : List (List HPost)), (∀ st ∈ steps, BookStep.Keeps st) → HeldInv s1.1.m.rats K0 ts s K →
      ∃ K', HeldInv s1.1.m.rats K0 ts (steps.foldl (fun s st => st.run srt s) s) K' := by
    intro steps
    induction steps with
    | nil => intro s K _ hi; exact ⟨K, hi⟩
    | cons st steps ih =>
      intro s K hk hi
      obtain ⟨K', hi'⟩ := heldInv_step hs h0 hi st (hk st (by simp))
      exact ih _ K' (fun x hx => hk x (List.mem_cons_of_mem _ hx)) hi'
  intro steps hk
  obtain ⟨K', hi'⟩ := key steps s1 K0 hk hi
  rw [← hl, held_noBals hi, held_noBals hi']

/-- **C111** (what holds): if the script only reads, the list it holds stays as it is altogether. -/
theorem c111_reading (srt : List HPost → List HPost) (hs : IsHSort srt) (srtP : List Posting → List Posting) (hP : IsSort srtP) (today : Int)
    (s : TMem × TBook) (fb : Book) (h : Holds s fb) (hr : Reachable srtP today fb) (spare : Nat) (s1 : TMem × TBook) (ts : HeldList)
    (ht : takeList srt spare s = (s1, ts)) (steps : List BookStep) (hk : ∀ st ∈ steps, BookStep.Reads st) :
    ts.look (steps.foldl (fun s st => st.run srt s) s1).1 = ts.look s1.1 := by
  obtain ⟨srtQ, K0, hQ, h0, hi, hl, hbk⟩ := take_inv hs hP h hr spare s1 ts ht
  rw [hl]
  have hwf := (reachable_wf hP hr).1
  have h07 := c07_read_twice srtQ srtQ hQ hQ fb hwf.plain
  have key : ∀ (steps : List BookStep) (s : TMem × TBook), (∀ st ∈ steps, BookStep.Reads st) → HeldInv s1.1.m.rats K0 ts s K0 →
      ts.look s.1 = fb.transactions srtQ →
      ts.look (steps.foldl (fun s st => st.run srt s) s).1 = fb.transactions srtQ := by
    intro steps
    induction steps with
    | nil => intro s _ _ hl; exact hl
    | cons st steps ih =>
      intro s hk hi _
      cases st with
      | read spare =>
        have hi' := heldInv_read hs h0 hi spare
        refine ih _ (fun x hx => hk x (List.mem_cons_of_mem _ hx)) hi' ?_
        have hc := (read_copy hs h0 hi.sub hi.copy hi.vals).2.2.2.2 hQ fb
        have hcv := (read_copy hs h0 hi.sub hi.copy hi.vals).1.views
        rw [hbk] at hc
        show ts.look (s.2.compact srt spare s.1).1 = _
        rw [held_look hi']
        have : (fb.compact srtQ).transactions srtQ = fb.transactions srtQ := by show ((fb.compact srtQ).compact srtQ).trans = _; rw [h07]; rfl
        rw [← this, ← hc, (tcompact_fst srt spare s.1 s.2).1]
        unfold HBook.transactions
        simp only
        rw [← hcv, List.map_map]
        rfl
      | since d => exact False.elim (hk (.since d) (by simp))
      | asof d => exact False.elim (hk (.asof d) (by simp))
      | map spare g => exact False.elim (hk (.map spare g) (by simp))
  exact key steps s1 hk hi hl

/-- A book of two transactions for the examples. -/
def twoCalls : List Call :=
  [.newTransaction 20200101 b!"gift" [], .addPosting b!"A" b!"E" 5 [], .addPosting b!"B" b!"E" (-5) [],
   .newTransaction 20200102 b!"shop" [], .addPosting b!"A" b!"E" (-10) [], .addPosting b!"C" b!"E" 10 []]

/-- Its postings. -/
def twoPosts : List Posting :=
  [⟨20200101, b!"gift", [], b!"A", b!"E", 5, [], 0, 0, [], []⟩, ⟨20200101, b!"gift", [], b!"B", b!"E", -5, [], 0, 0, [], []⟩,
   ⟨20200102, b!"shop", [], b!"A", b!"E", -10, [], 0, 0, [], []⟩, ⟨20200102, b!"shop", [], b!"C", b!"E", 10, [], 0, 0, [], []⟩]

/-- Account, amount and balance of what a list shows. -/
def shownList (ts : List Txn) : List (List (Str × Rat × Rat)) := ts.map (·.map fun p => (p.acct, p.val, p.bal))

/-- The example book as it lies in memory, with the list a script takes of it. -/
def twoTaken : (TMem × TBook) × HeldList := takeList cellSort 0 (tbuild cellSort 0 twoPosts)

theorem two_holds : ∃ srtP fb, IsSort srtP ∧ Holds (tbuild cellSort 0 twoPosts) fb ∧ Reachable srtP 0 fb := by
  have hb : ((Builder.new.calls twoCalls).map fun bb => (bb.post, bb.currAmts.all (fun kv => decide (kv.2 = 0)))) = some (twoPosts, true) := by decide +kernel
  cases h1 : Builder.new.calls twoCalls with
  | none => rw [h1] at hb; cases hb
  | some bb =>
    rw [h1] at hb
    simp only [Option.map_some, Option.some.injEq, Prod.mk.injEq] at hb
    obtain ⟨h2, h3⟩ := hb
    obtain ⟨srtP, hP, hh⟩ := holds_build cellSort_isHSort 0 twoPosts ⟨twoPosts, [], bb.prices.build, ccyDecimals twoPosts⟩ rfl rfl
    refine ⟨srtP, _, hP, hh, twoCalls, bb, _, [], h1, ?_, rfl⟩
    unfold Builder.build Builder.checkAndClear
    rw [if_pos h3]
    simp only [h2]
    unfold Book.compact
    rw [if_neg (by simp [twoPosts]), if_neg (by simp [twoPosts])]

/-- C111 is false with `map` among the steps: the list taken before then shows other postings (below: a transaction that is not in the book
and does not even balance). -/
theorem c111_map_fails : ¬ ∀ (srt : List HPost → List HPost), IsHSort srt → ∀ (srtP : List Posting → List Posting), IsSort srtP → ∀ (today : Int)
    (s : TMem × TBook) (fb : Book), Holds s fb → Reachable srtP today fb → ∀ (spare : Nat) (s1 : TMem × TBook) (ts : HeldList),
    takeList srt spare s = (s1, ts) → ∀ (steps : List BookStep),
    noBals (ts.look (steps.foldl (fun s st => st.run srt s) s1).1) = noBals (ts.look s1.1) := by
  intro h
  obtain ⟨srtP, fb, hP, hh, hr⟩ := two_holds
  have h1 := h cellSort cellSort_isHSort srtP hP 0 _ fb hh hr 0 twoTaken.1 twoTaken.2 rfl [.map 0 (fun a => if a = b!"B" then b!"A" else a)]
  revert h1
  decide +kernel

/-- C111 is false of the running balances: after `since` and another reading of `data.transactions` the list taken before shows other balances. -/
theorem c111_balance_fails : ¬ ∀ (srt : List HPost → List HPost), IsHSort srt → ∀ (srtP : List Posting → List Posting), IsSort srtP → ∀ (today : Int)
    (s : TMem × TBook) (fb : Book), Holds s fb → Reachable srtP today fb → ∀ (spare : Nat) (s1 : TMem × TBook) (ts : HeldList),
    takeList srt spare s = (s1, ts) → ∀ (steps : List BookStep), (∀ st ∈ steps, BookStep.Keeps st) →
    ts.look (steps.foldl (fun s st => st.run srt s) s1).1 = ts.look s1.1 := by
  intro h
  obtain ⟨srtP, fb, hP, hh, hr⟩ := two_holds
  have h1 := h cellSort cellSort_isHSort srtP hP 0 _ fb hh hr 0 twoTaken.1 twoTaken.2 rfl [.since 20200102, .read 0] (by simp [Spec.BookStep.Keeps])
  revert h1
  decide +kernel

/-- What the script is shown: first the report; after `map` of B to A a transaction with C twice, 20 in all; after `since` and another reading the balances
of the shortened book. -/
example : shownList (twoTaken.2.look twoTaken.1.1) = [[(b!"A", 5, 5), (b!"B", -5, -5)], [(b!"A", -10, -5), (b!"C", 10, 10)]] ∧
    shownList (twoTaken.2.look ((BookStep.map 0 (fun a => if a = b!"B" then b!"A" else a)).run cellSort twoTaken.1).1) =
      [[(b!"A", -10, -10), (b!"C", 10, 10)], [(b!"C", 10, 10), (b!"C", 10, 10)]] ∧
    shownList (twoTaken.2.look ((BookStep.read 0).run cellSort ((BookStep.since 20200102).run cellSort twoTaken.1)).1) =
      [[(b!"A", 5, 5), (b!"B", -5, -5)], [(b!"A", -10, -10), (b!"C", 10, 10)]] := by
  refine ⟨?_, ?_, ?_⟩ <;> decide +kernel

/-- The hypotheses of C111 are met by a book with two transactions. -/
example : ∃ srtP fb, IsSort srtP ∧ Holds (tbuild cellSort 0 twoPosts) fb ∧ Reachable srtP 0 fb ∧ takeList cellSort 0 (tbuild cellSort 0 twoPosts) = (twoTaken.1, twoTaken.2) ∧
    (twoTaken.2.look twoTaken.1.1).length = 2 := by
  obtain ⟨srtP, fb, hP, hh, hr⟩ := two_holds
  exact ⟨srtP, fb, hP, hh, hr, rfl, by decide +kernel⟩

/-- The hypotheses of C110 are met. -/
example : ∃ bb b, Builder.new.calls twoCalls = some bb ∧ bb.build insSort = some b ∧ ((scriptLoop (b.transactions insSort)).map fun l => l.length) = some 4 := by
  have hb : (((Builder.new.calls twoCalls).bind fun bb => bb.build insSort).map fun b => ((scriptLoop (b.transactions insSort)).map fun l => l.length)) = some (some 4) := by
    decide +kernel
  cases h1 : Builder.new.calls twoCalls with
  | none => rw [h1] at hb; cases hb
  | some bb =>
    rw [h1] at hb
    cases h2 : bb.build insSort with
    | none => simp [h2] at hb
    | some b =>
      simp only [Option.bind_some, h2, Option.map_some, Option.some.injEq] at hb
      exact ⟨bb, b, rfl, h2, hb⟩

/-- The hypotheses of `c110_recover` and `c110_numbers` are met: 12.34 is 1234 units of two decimals. -/
example : ((617 / 50 : Rat) * 10 ^ 2 = (1234 : Int)) ∧ |(1234 : Int)| < 2 ^ 52 ∧ OrdinarySize (617 / 50) := by
  refine ⟨by norm_num, by decide, ?_, Or.inr ?_⟩
  · rw [abs_of_nonneg (by norm_num)]; exact le_trans (by norm_num : (617 / 50 : Rat) ≤ 10 ^ 2) (pow_le_pow_right₀ (by norm_num) (by norm_num))
  · rw [abs_of_nonneg (by norm_num)]
    have h1 : (1 : Rat) ≤ 10 ^ 300 := one_le_pow₀ (by norm_num)
    calc (1 / 10 ^ 300 : Rat) ≤ 1 := by rw [div_le_one (by positivity)]; exact h1
      _ ≤ _ := by norm_num

/-- **C110**: `data.asof(d)` in a script does to the book what the operation `asof=d` does, and is refused when that is; it leaves the new entries alone. -/
theorem c110_asof (e : OpEnv) (ss : Str → Option Rat) (s s' : GenState) (d : Str) :
    genAct e ss s (.asof d) = .ok s' ↔ primOp e (b!"asof=" ++ d) s.main = .ok s'.main ∧ s'.bb = s.bb := by
  have hp : opPrefix (b!"asof=" ++ d) = some (b!"asof", d) := opPrefix_lit b!"asof" d _ _ rfl (by decide) (by decide)
  have hq : parsePrim e (b!"asof=" ++ d) = if dateFromString e.today d = 0 then none else some (.asof (dateFromString e.today d)) := by
    unfold parsePrim
    rw [hp]
    simp only
    rw [if_neg (by decide), if_neg (by decide), if_neg (by decide), if_pos trivial]
  unfold primOp genAct
  rw [hq]
  by_cases hd : dateFromString e.today d = 0
  · simp [hd]
  · simp only [if_neg hd, Prim.apply, GenRes.ok.injEq, OpEnd.ok.injEq]
    constructor
    · rintro rfl; exact ⟨rfl, rfl⟩
    · rintro ⟨h1, h2⟩; cases s'; simp only at h1 h2; rw [h1, h2]

/-- **C110**: `data.since(d)` in a script does to the book what the operation `since=d` does. -/
theorem c110_since (e : OpEnv) (ss : Str → Option Rat) (s s' : GenState) (d : Str) :
    genAct e ss s (.since d) = .ok s' ↔ primOp e (b!"since=" ++ d) s.main = .ok s'.main ∧ s'.bb = s.bb := by
  have hp : opPrefix (b!"since=" ++ d) = some (b!"since", d) := opPrefix_lit b!"since" d _ _ rfl (by decide) (by decide)
  have hq : parsePrim e (b!"since=" ++ d) = if dateFromString e.today d = 0 then none else some (.since (dateFromString e.today d)) := by
    unfold parsePrim
    rw [hp]
    simp only
    rw [if_neg (by decide), if_neg (by decide), if_neg (by decide), if_neg (by decide), if_pos trivial]
  unfold primOp genAct
  rw [hq]
  by_cases hd : dateFromString e.today d = 0
  · simp [hd]
  · simp only [if_neg hd, Prim.apply, GenRes.ok.injEq, OpEnd.ok.injEq]
    constructor
    · rintro rfl; exact ⟨rfl, rfl⟩
    · rintro ⟨h1, h2⟩; cases s'; simp only at h1 h2; rw [h1, h2]

/-- **C110**: `data.map(f, t, a)` in a script does to the book what the operation `map=/f/t/a/` does. -/
theorem c110_map (e : OpEnv) (ss : Str → Option Rat) (s s' : GenState) (f t a : Str) (hf : Part f) (ht : Part t) (ha : Part a) :
    genAct e ss s (.map f t a) = .ok s' ↔ primOp e (b!"map=/" ++ f ++ b!"/" ++ t ++ b!"/" ++ a ++ b!"/") s.main = .ok s'.main ∧ s'.bb = s.bb := by
  have hq := (c61_syntax e _ _).2 (OpMeans.mapElse f t a hf ht ha)
  unfold primOp genAct
  rw [hq]
  by_cases hd : e.valid f = true
  · simp only [if_pos hd, Prim.apply, GenRes.ok.injEq, OpEnd.ok.injEq]
    constructor
    · rintro rfl; exact ⟨rfl, rfl⟩
    · rintro ⟨h1, h2⟩; cases s'; simp only at h1 h2; rw [h1, h2]
  · simp [hd, Prim.apply]

end Verif
