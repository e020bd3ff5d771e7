import Verif.Props.OnDayMain

/-! # C159: reports combined by the present day -/

namespace Verif
open Spec

/-- A posting dated otherwise. -/
def redate (t : Int) (p : Posting) : Posting := { p with date := t }

/-- What combining by the present day makes of a posting. -/
def onToday (t : Int) (p : Posting) : Posting := { p with date := t, payee := [] }

theorem setBals_redate (t : Int) : ∀ (amts : Str × Str → Rat) (l : List Posting), setBals amts (l.map (redate t)) = (setBals amts l).map (redate t)
  | _, [] => rfl
  | amts, p :: l => by
    simp only [List.map_cons, setBals, setBals_redate t _ l]
    rfl

theorem groupFrom_one (f : Posting) : ∀ (l acc : List Posting), (∀ q ∈ l, q.date = f.date ∧ q.payee = f.payee) →
    groupFrom f acc l = [f :: (acc.reverse ++ l)]
  | [], acc, _ => by simp [groupFrom]
  | q :: l, acc, h => by
    rw [groupFrom, if_pos (h q (by simp)), groupFrom_one f l (q :: acc) (fun q hq => h q (by simp [hq]))]
    simp

/-- Postings of one day and without payees are one transaction. -/
theorem groupTxns_one {t : Int} {l : List Posting} (h : ∀ q ∈ l, q.date = t ∧ q.payee = []) : groupTxns l = if l = [] then [] else [l] := by
  cases l with
  | nil => rfl
  | cons p l =>
    show groupFrom p [] l = _
    have hp := h p (by simp)
    rw [groupFrom_one p l [] (fun q hq => by have := h q (by simp [hq]); rw [this.1, this.2, hp.1, hp.2]; exact ⟨rfl, rfl⟩)]
    simp

theorem key_redate {t t' : Int} {p q : Posting} (hp : p.date = t) (hq : q.date = t) (h : key p < key q) : key (redate t' p) < key (redate t' q) := by
  unfold key at h ⊢
  simp only [redate, hp, hq] at h ⊢
  rw [Prod.Lex.toLex_lt_toLex] at h ⊢
  rcases h with h | h
  · exact absurd h (lt_irrefl _)
  · exact .inr ⟨rfl, h.2⟩

theorem total_map_same {f : Posting → Posting} (hf : ∀ p, (f p).val = p.val) (P : Posting → Bool) : ∀ l : List Posting,
    total P (l.map f) = total (fun p => P (f p)) l
  | [] => rfl
  | p :: l => by rw [List.map_cons, total_cons, total_cons, total_map_same hf P l, hf]

theorem today_post {srt : List Posting → List Posting} (hs : IsSort srt) (t t' : Int) {L : List Posting} (hL : ∀ p ∈ L, Plain p) :
    (compactPost srt (L.map (onToday t'))).map obs = ((compactPost srt (L.map (onToday t))).map (redate t')).map obs := by
  have hpl : ∀ t, ∀ p ∈ L.map (onToday t), Plain p := by
    intro t p hp
    obtain ⟨q, hq, rfl⟩ := List.mem_map.1 hp
    exact hL q hq
  have hd : ∀ p ∈ compactPost srt (L.map (onToday t)), p.date = t := by
    refine compactPost_all hs (Q := fun p => p.date = t) (fun _ _ h => h) (fun _ _ h => h) fun p hp => ?_
    obtain ⟨q, hq, rfl⟩ := List.mem_map.1 hp
    rfl
  have hX : ∀ p ∈ (compactPost srt (L.map (onToday t))).map (redate t'), Plain p := by
    intro p hp
    obtain ⟨q, hq, rfl⟩ := List.mem_map.1 hp
    exact plain_compactPost hs (hpl t) q hq
  have fix : compactPost srt ((compactPost srt (L.map (onToday t))).map (redate t')) = (compactPost srt (L.map (onToday t))).map (redate t') := by
    rw [compactPost_of_canonical hs hX]
    · rw [setBals_redate]
      congr 1
      unfold compactPost
      exact setBals_setBals _ _
    · rw [List.pairwise_map]
      exact (compactPost_strict hs (hpl t)).imp_of_mem fun hp hq h => key_redate (hd _ hp) (hd _ hq) h
    · intro p hp
      obtain ⟨q, hq, rfl⟩ := List.mem_map.1 hp
      exact compactPost_nonzero _ q hq
  rw [← fix]
  refine (compactPost_unique hs hs hX (hpl t') fun k => ?_).symm
  rw [total_map_same (f := redate t') (fun _ => rfl), total_compactPost hs, total_map_same (f := onToday t) (fun _ => rfl),
    total_map_same (f := onToday t') (fun _ => rfl)]
  · rfl
  · intro p q h
    obtain ⟨_, h2, h3, h4⟩ := key_eq_iff.1 h
    have : key (redate t' p) = key (redate t' q) := key_eq_iff.2 ⟨rfl, h2, h3, h4⟩
    show decide (key (redate t' p) = k) = decide (key (redate t' q) = k)
    rw [this]

/-- The same listing but for the day that all of it is dated: accounts, currencies, amounts and running balances agree line by line. -/
def SameButDay (t t' : Int) (ts ts' : List Txn) : Prop :=
  (∀ p ∈ ts.flatten, p.date = t) ∧ ts'.map (·.map obs) = ts.map (·.map fun p => { obs p with date := t' })

theorem today_listing {srt : List Posting → List Posting} (hs : IsSort srt) (t t' : Int) {b : Book} (h : b.Good) :
    SameButDay t t' ((b.splitBy srt t b!"today").transactions srt) ((b.splitBy srt t' b!"today").transactions srt) := by
  have tr : ∀ t, (b.splitBy srt t b!"today").transactions srt = groupTxns (compactPost srt (b.post.map (onToday t))) := by
    intro t
    have e : b.splitBy srt t b!"today" = Book.compact srt { b with post := b.post.map (onToday t) } := by
      unfold Book.splitBy Book.mapTransaction
      rfl
    have hpl : ∀ p ∈ ({ b with post := b.post.map (onToday t) } : Book).post, Plain p := by
      intro p hp
      obtain ⟨q, hq, rfl⟩ := List.mem_map.1 hp
      exact h.1.plain q hq
    rw [e]
    unfold Book.transactions
    rw [c07_read_twice srt srt hs hs _ hpl]
    unfold Book.compact
    by_cases h0 : b.post = []
    · rw [if_pos (by simp [h0])]
      show b.trans = _
      rw [h.1.nil_trans h0, h0]
      have : compactPost srt [] = [] := by
        have := srt_nil hs
        unfold compactPost
        rw [this]; rfl
      rw [List.map_nil, this]; rfl
    · rw [if_neg (by simpa using h0)]
  have hd : ∀ t, ∀ p ∈ compactPost srt (b.post.map (onToday t)), p.date = t ∧ p.payee = [] := by
    intro t
    refine compactPost_all hs (Q := fun p => p.date = t ∧ p.payee = []) (fun _ _ h => h) (fun _ _ h => h) fun p hp => ?_
    obtain ⟨q, hq, rfl⟩ := List.mem_map.1 hp
    exact ⟨rfl, rfl⟩
  rw [tr t, tr t']
  have key := today_post hs t t' h.1.plain
  rw [groupTxns_one (hd t), groupTxns_one (hd t')]
  have hnil : compactPost srt (b.post.map (onToday t')) = [] ↔ compactPost srt (b.post.map (onToday t)) = [] := by
    have := congrArg List.length key
    simp only [List.length_map] at this
    rw [← List.length_eq_zero_iff, ← List.length_eq_zero_iff, this]
  constructor
  · intro p hp
    split at hp
    · simp at hp
    · simp only [List.flatten_cons, List.flatten_nil, List.append_nil] at hp
      exact (hd t p hp).1
  · by_cases h0 : compactPost srt (b.post.map (onToday t)) = []
    · rw [if_pos h0, if_pos (hnil.2 h0)]; rfl
    · rw [if_neg h0, if_neg (fun h => h0 (hnil.1 h))]
      simp only [List.map_cons, List.map_nil]
      rw [key, List.map_map]
      rfl

/-- **C159** (g): a report combined by the present day (the setting of the file that `config` writes), neither converted nor summed, whose operations do not
name the present, shows on another day the same lines, dated that day; and it fails on the same days. -/
theorem c159_today (le : Env) (depth : Nat) (e : OpEnv) (hs : IsSort e.srt) (t : Int) (fuel : Nat) (a : AppConf) (r : ReportConf)
    (o : Int → Str → List Str → List Str) (args : List Str) (h : ∀ op, Used a.macros args op → ¬ EndsToday op ∧ ¬ EndsPeriodWords op)
    (hc : r.combineby = b!"today") (hv : r.convert = false) (hsum : r.sum = false) (ht : r.typ ≠ b!"Beancount") :
    EndsLike (SameButDay e.today t) (reportCmd le depth e fuel a r o args) (reportCmd le depth (e.onDay t) fuel a r o args) := by
  unfold reportCmd
  have h1 : opsCmd (e.onDay t) fuel a args = opsCmd e fuel a args := funext fun b => opsCmd_day (used_free h) fuel b
  rw [h1]
  show EndsLike _ (((loadCmd le depth e.srt a).bind _).bind _) (((loadCmd le depth e.srt a).bind _).bind _)
  cases h0 : loadCmd le depth e.srt a with
  | ok b0 =>
    show EndsLike _ ((opsCmd e fuel a args b0).bind _) ((opsCmd e fuel a args b0).bind _)
    cases h2 : opsCmd e fuel a args b0 with
    | ok b =>
      have hb := good_ops hs (good_load hs h0) h2
      have e1 : ∀ t, reportTxns (e.onDay t) a r o b =
          if r.credit ≠ [] ∧ e.valid r.credit = false then .err else .ok ((b.splitBy e.srt t b!"today").transactions e.srt) := by
        intro t
        unfold reportTxns convertCmd sumCmd
        rw [if_neg ht, hc, hv, hsum]
        simp only [Bool.false_eq_true, if_false, CmdEnd.bind]
        rfl
      show EndsLike _ (reportTxns (e.onDay e.today) a r o b) (reportTxns (e.onDay t) a r o b)
      rw [e1, e1]
      split
      · trivial
      · exact today_listing hs e.today t hb
    | _ => trivial
  | _ => trivial

/-- The year file, on two days. -/
example : dayLines 20200715 b!"today" [] = some [[⟨20200715, [], b!"A", b!"U", 11⟩, ⟨20200715, [], b!"B", b!"U", -11⟩]] ∧
    dayLines 20240229 b!"today" [] = some [[⟨20240229, [], b!"A", b!"U", 11⟩, ⟨20240229, [], b!"B", b!"U", -11⟩]] := by decide +kernel

end Verif
