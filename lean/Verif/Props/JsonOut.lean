import Verif.Model.JsonOut
import Verif.Spec.JsonOut
import Verif.Proofs.Date
import Verif.Props.Csv

/-! # C86: JSON output -/

namespace Verif
open Spec

theorem num_double {fl : Rat → Rat} (hf : DoubleRounding fl) {v : Rat} (h : Ordinary v) : IsDouble (fl v) ∧ |fl v - v| ≤ |v| / 2 ^ 53 :=
  ⟨hf.double v h.1, hf.close v h.1 h.2⟩

theorem member_omit (k s : Str) (l r : List (Str × Json)) (hl : ∀ kv ∈ l, kv.1 ≠ k) (hr : ∀ kv ∈ r, kv.1 ≠ k) :
    TextMember (.obj (l ++ (omitEmpty k s ++ r))) k s := by
  have hl' : l.find? (fun kv => decide (kv.1 = k)) = none := List.find?_eq_none.2 (by simpa using hl)
  have hr' : r.find? (fun kv => decide (kv.1 = k)) = none := List.find?_eq_none.2 (by simpa using hr)
  unfold TextMember member omitEmpty
  by_cases hs : s = []
  · right; simp [hs, hl', hr']
  · left; simp [hs, hl']

theorem jsonPosting_says {fl : Rat → Rat} (hf : DoubleRounding fl) {p : Posting} (h : Ordinary p.val) :
    PostSays (jsonPosting fl p) p := by
  refine ⟨Or.inl ?_, Or.inl ?_, _, ?_, num_double hf h⟩
  · rfl
  · rfl
  · rfl

theorem jsonDate_says {tm : Int → Int → Int → Str} (ht : FormatsDays tm) {d : Int} {y : YMD} (hy : y.Valid) (h9 : y.y ≤ 9999)
    (hd : d = y.code) : jsonDate tm d = .str (isoDay y) := by
  obtain ⟨e1, e2, e3⟩ := code_fields hy
  unfold jsonDate
  rw [hd, e1, e2, e3, ht y hy h9]

theorem find_omit (k k' s : Str) (r : List (Str × Json)) (h : k ≠ k') :
    (omitEmpty k s ++ r).find? (fun kv => decide (kv.1 = k')) = r.find? fun kv => decide (kv.1 = k') := by
  unfold omitEmpty
  split
  · rfl
  · simp [h]

theorem mapM_some_forall₂ {α β : Type} {f : α → Option β} {R : β → α → Prop} : ∀ {l : List α} {m : List β}, l.mapM f = some m →
    (∀ a ∈ l, ∀ b, f a = some b → R b a) → List.Forall₂ R m l := by
  intro l
  induction l with
  | nil => intro m h _; cases h; exact .nil
  | cons a l ih =>
    intro m h hR
    rw [List.mapM_cons] at h
    cases ha : f a with
    | none => rw [ha] at h; cases h
    | some b =>
      cases hl : l.mapM f with
      | none => rw [ha, hl] at h; cases h
      | some m' =>
        rw [ha, hl] at h
        cases h
        exact .cons (hR a (by simp) b ha) (ih hl fun a' h' => hR a' (List.mem_cons_of_mem _ h'))

theorem jsonTxn_says {tm : Int → Int → Int → Str} (ht : FormatsDays tm) {fl : Rat → Rat} (hf : DoubleRounding fl) {t : Txn}
    (hc : ∀ p ∈ t, ∀ q ∈ t, p.date = q.date ∧ p.payee = q.payee) (ho : ∀ p ∈ t, Ordinary p.val) {j : Json}
    (hj : jsonTxn tm fl t = some j) : TxnSays j t := by
  cases t with
  | nil => cases hj
  | cons h t =>
    cases hj
    refine ⟨?_, ?_, ?_, (h :: t).map (jsonPosting fl), ?_, ?_⟩
    · intro p hp y hy h9 hd
      rw [← jsonDate_says ht hy h9 (by rw [(hc h (by simp) p hp).1, hd] : h.date = y.code)]
      rfl
    · intro p hp
      rw [← (hc h (by simp) p hp).2]
      refine member_omit b!"payee" h.payee [_] _ ?_ ?_
      · simp
      · intro kv hk
        rcases List.mem_append.1 hk with hk | hk
        · unfold omitEmpty at hk
          split at hk
          · cases hk
          · rw [List.mem_singleton.1 hk]; simp
        · rw [List.mem_singleton.1 hk]; simp
    · intro p hp
      cases hp
      have := member_omit b!"note" h.tnote ((b!"date", jsonDate tm h.date) :: omitEmpty b!"payee" h.payee)
        [(b!"posts", Json.arr ((h :: t).map (jsonPosting fl)))] ?_ ?_
      · rw [List.cons_append] at this; exact this
      · intro kv hk
        rcases List.mem_cons.1 hk with rfl | hk
        · simp
        · unfold omitEmpty at hk
          split at hk
          · cases hk
          · rw [List.mem_singleton.1 hk]; simp
      · intro kv hk
        rw [List.mem_singleton.1 hk]; simp
    · show ((_ :: _).find? _).map _ = _
      rw [List.find?_cons_of_neg (by simp), find_omit _ _ _ _ (by decide), find_omit _ _ _ _ (by decide)]
      rfl
    · rw [List.forall₂_map_left_iff, List.forall₂_same]
      exact fun p hp => jsonPosting_says hf (ho p hp)

/-- **C86** (partial: without the notes of postings).  The exported JSON is an array of the reported transactions in order, each with
its date and payee and its postings in order, each posting with its account, currency, and amount as nearest `float64`. -/
theorem c86_export_partial {srt : List Posting → List Posting} (hs : IsSort srt) {today : Int} {b : Book} (hb : Reachable srt today b)
    (tm : Int → Int → Int → Str) (ht : FormatsDays tm) (fl : Rat → Rat) (hf : DoubleRounding fl)
    (ho : ∀ t ∈ b.transactions srt, ∀ p ∈ t, Ordinary p.val) :
    ∃ l, exportJSON tm fl (b.transactions srt) = some (.arr l) ∧ List.Forall₂ TxnSays l (b.transactions srt) := by
  have hcb : Canonical (b.transactions srt) := compact_canonical hs (reachable_wf hs hb).1
  have hne : ∀ t ∈ b.transactions srt, t ≠ [] := hcb.nonempty
  have : ∀ ts : List Txn, (∀ t ∈ ts, t ≠ []) → ∃ l, ts.mapM (jsonTxn tm fl) = some l := by
    intro ts
    induction ts with
    | nil => intro _; exact ⟨[], rfl⟩
    | cons t ts ih =>
      intro h
      obtain ⟨l, hl⟩ := ih fun t ht => h t (List.mem_cons_of_mem _ ht)
      obtain ⟨p, t', rfl⟩ := List.exists_cons_of_ne_nil (h t (by simp))
      rw [List.mapM_cons, hl]
      exact ⟨_, rfl⟩
  obtain ⟨l, hl⟩ := this _ hne
  exact ⟨l, by unfold exportJSON; rw [hl]; rfl,
    mapM_some_forall₂ hl fun t htm j hj => jsonTxn_says ht hf (hcb.oneTxn t htm) (ho t htm) hj⟩

/-- **C86**: rounding the `float64` in the JSON to the decimals of the amount gives the amount back exactly. -/
theorem c86_amount_recovered {fl : Rat → Rat} (hf : DoubleRounding fl) {rd : Rat → Nat} (hr : NearestNat rd) {dec : Nat} {v : Rat}
    (h : FitsDecimals dec v) : (if fl v < 0 then -1 else 1) * ((rd (|fl v| * 10 ^ dec) : Rat) / 10 ^ dec) = v := by
  obtain ⟨h18, k, hk, hb⟩ := h
  obtain ⟨e1, e2⟩ := rounded_units hf hr (by omega) hk hb
  rw [e1, if_congr e2 rfl rfl, fits_value hk]

/-- C86 is false of the code for the notes of postings: whenever a posting's note is not the transaction's note, the JSON does not
have it. -/
theorem c86_note_fails (tm : Int → Int → Int → Str) (fl : Rat → Rat) (t : Txn) (p : Posting) (hp : p ∈ t) (hn : p.note ≠ p.tnote) (j : Json)
    (hj : jsonTxn tm fl t = some j) : ¬ NotesSay j t := by
  rintro ⟨l, h1, h2⟩
  cases t with
  | nil => cases hj
  | cons h t =>
    cases hj
    have e : member b!"posts" (.obj ((b!"date", jsonDate tm h.date) :: (omitEmpty b!"payee" h.payee ++ (omitEmpty b!"note" h.tnote ++
      [(b!"posts", Json.arr ((h :: t).map (jsonPosting fl)))])))) = some (.arr ((h :: t).map (jsonPosting fl))) := by
      show ((_ :: _).find? _).map _ = _
      rw [List.find?_cons_of_neg (by simp), find_omit _ _ _ _ (by decide), find_omit _ _ _ _ (by decide)]
      rfl
    rw [e] at h1
    cases h1
    rw [List.forall₂_map_left_iff, List.forall₂_same] at h2
    have h3 := h2 p hp
    have e2 : member b!"note" (jsonPosting fl p) = if p.tnote = [] then none else some (.str p.tnote) := by
      show ((_ :: _).find? _).map _ = _
      rw [List.find?_cons_of_neg (by simp), List.append_eq, List.cons_append, List.find?_cons_of_neg (by simp), List.cons_append,
        List.find?_cons_of_neg (by simp), List.nil_append]
      unfold omitEmpty
      split <;> simp
    unfold TextMember at h3
    rw [e2] at h3
    split at h3
    · rename_i h0
      rcases h3 with h3 | ⟨h3, _⟩
      · cases h3
      · exact hn (by rw [h3, h0])
    · rcases h3 with h3 | ⟨_, h3⟩
      · simp only [Option.some.injEq, Json.str.injEq] at h3; exact hn h3.symm
      · cases h3

/-- **C86** for the register: every entry shown is there, in order, with all its fields. -/
theorem c86_register (tm : Int → Int → Int → Str) (ht : FormatsDays tm) (fl : Rat → Rat) (hf : DoubleRounding fl) (rep : List RegEntry)
    (ho : ∀ e ∈ rep, Ordinary e.amount ∧ Ordinary e.balance ∧ Ordinary e.baseAmount ∧ Ordinary e.baseBalance) :
    ∃ l, registerJSON tm fl (rep.map some) = .arr l ∧ List.Forall₂ EntryIs l rep := by
  refine ⟨_, rfl, ?_⟩
  rw [List.map_map, List.forall₂_map_left_iff, List.forall₂_same]
  intro e he
  show EntryIs (jsonEntry tm fl (some e)) e
  obtain ⟨o1, o2, o3, o4⟩ := ho e he
  have skip : ∀ k, k ≠ b!"date" → k ≠ b!"account" → k ≠ b!"payee" → k ≠ b!"counterAccount" →
      member k (jsonEntry tm fl (some e)) = member k (.obj [(b!"amount", Json.num (.fin (fl e.amount))), (b!"ccy", .str e.ccy),
         (b!"balance", .num (.fin (fl e.balance))),
         (b!"note", .str e.note), (b!"tnote", .str e.tnote), (b!"BaseCCY", .str e.baseCCY), (b!"BaseAmount", .num (.fin (fl e.baseAmount))),
         (b!"BaseSource", .str e.baseSource.name), (b!"BaseBalance", .num (.fin (fl e.baseBalance)))]) := by
    intro k k1 k2 k3 k4
    show ((_ :: _ :: _).find? _).map _ = _
    rw [List.find?_cons_of_neg (by simpa using Ne.symm k1), List.find?_cons_of_neg (by simpa using Ne.symm k2),
      find_omit _ _ _ _ (Ne.symm k3), find_omit _ _ _ _ (Ne.symm k4)]
    rfl
  refine ⟨?_, Or.inl rfl, ?_, ?_, Or.inl ?_, Or.inl ?_, Or.inl ?_, ⟨_, ?_, num_double hf o1⟩, ⟨_, ?_, num_double hf o2⟩,
    ⟨_, ?_, num_double hf o3⟩, ⟨_, ?_, num_double hf o4⟩, Or.inl ?_, ⟨e.baseSource.name, ?_, ?_⟩⟩
  · intro y hy h9 hd
    rw [← jsonDate_says ht hy h9 hd]
    rfl
  · refine member_omit b!"payee" e.payee [_, _] _ ?_ ?_
    · intro kv hk
      rcases List.mem_cons.1 hk with rfl | hk
      · simp
      · rw [List.mem_singleton.1 hk]; simp
    · intro kv hk
      rcases List.mem_append.1 hk with hk | hk
      · unfold omitEmpty at hk
        split at hk
        · cases hk
        · rw [List.mem_singleton.1 hk]; simp
      · simp only [List.mem_cons, List.not_mem_nil, or_false] at hk
        rcases hk with h | h | h | h | h | h | h | h | h <;> rw [h] <;> simp
  · have := member_omit b!"counterAccount" e.counterAccount
      ((b!"date", jsonDate tm e.date) :: (b!"account", .str e.account) :: omitEmpty b!"payee" e.payee)
      [(b!"amount", Json.num (.fin (fl e.amount))), (b!"ccy", .str e.ccy), (b!"balance", .num (.fin (fl e.balance))),
         (b!"note", .str e.note), (b!"tnote", .str e.tnote), (b!"BaseCCY", .str e.baseCCY), (b!"BaseAmount", .num (.fin (fl e.baseAmount))),
         (b!"BaseSource", .str e.baseSource.name), (b!"BaseBalance", .num (.fin (fl e.baseBalance)))] ?_ ?_
    · rw [List.cons_append, List.cons_append] at this; exact this
    · intro kv hk
      rcases List.mem_cons.1 hk with rfl | hk
      · simp
      rcases List.mem_cons.1 hk with rfl | hk
      · simp
      unfold omitEmpty at hk
      split at hk
      · cases hk
      · rw [List.mem_singleton.1 hk]; simp
    · intro kv hk
      simp only [List.mem_cons, List.not_mem_nil, or_false] at hk
      rcases hk with h | h | h | h | h | h | h | h | h <;> rw [h] <;> simp
  case refine_12 => cases e.baseSource <;> constructor
  all_goals
    rw [skip _ (by decide) (by decide) (by decide) (by decide)]
    rfl

/-- A formatting of days, for the examples. -/
def demoTime (y m d : Int) : Str := intPad 4 y ++ b!"-" ++ intPad 2 m ++ b!"-" ++ intPad 2 d ++ b!"T00:00:00Z"

/-- Non-vacuity: the book of the CSV example, exported. -/
example : Reachable insSort 0 (bookOf csvCalls) ∧ FormatsDays demoTime ∧ DoubleRounding toDouble ∧
    (∀ t ∈ (bookOf csvCalls).transactions insSort, ∀ p ∈ t, Ordinary p.val) ∧
    ∃ t ∈ (bookOf csvCalls).transactions insSort, ∃ p ∈ t, p.note ≠ p.tnote := by
  refine ⟨?_, fun y _ _ => rfl, toDouble_rounding, ?_, by decide +kernel⟩
  · obtain ⟨bb, h1, h2⟩ := bookOf_built (cs := csvCalls) (by decide +kernel)
    exact ⟨_, bb, _, [], h1, h2, rfl⟩
  · intro t ht p hp
    have h : ((bookOf csvCalls).transactions insSort).flatten.map (·.val) = [-2469/2, 2469/2] := by decide +kernel
    have : p.val ∈ [(-2469/2 : Rat), 2469/2] := by
      rw [← h]; exact List.mem_map_of_mem (List.mem_flatten.2 ⟨t, ht, hp⟩)
    have hbig : |p.val| = 2469/2 := by
      rcases List.mem_cons.1 this with h | h
      · rw [h]; norm_num
      · rw [List.mem_singleton.1 h]; norm_num
    have h1 : (1 : Rat) ≤ 10 ^ 300 := one_le_pow₀ (by norm_num)
    have h2 : (10 : Rat) ^ 4 ≤ 10 ^ 300 := pow_le_pow_right₀ (by norm_num) (by norm_num)
    rw [Ordinary, hbig]
    refine ⟨le_trans (by norm_num) h2, Or.inr ?_⟩
    rw [div_le_iff₀ (by positivity)]
    exact le_trans (by norm_num : (1 : Rat) ≤ 2469/2 * 1) (mul_le_mul_of_nonneg_left h1 (by norm_num))

end Verif
