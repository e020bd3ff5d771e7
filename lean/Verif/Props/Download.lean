import Verif.Spec.Download
import Mathlib.Tactic.Linarith

namespace Verif
open Spec

/-! # C67: saving -/

theorem mem_appending {c w : Str} {s : Option Str} : s ∈ appending c w ↔ ∃ i, i ≤ w.length ∧ s = some (c ++ w.take i) := by
  simp only [appending, List.mem_map, List.mem_range]
  constructor
  · rintro ⟨i, h, rfl⟩; exact ⟨i, by omega, rfl⟩
  · rintro ⟨i, h, rfl⟩; exact ⟨i, by omega, rfl⟩

theorem written_prefix (cut : Option Nat) (w : Str) : ∃ k, written cut w = w.take k := by
  cases cut with
  | none => exact ⟨w.length, by simp [written]⟩
  | some k => exact ⟨k, rfl⟩

/-- C67, the part that holds: when no call fails, success is reported and the file ends with the complete new
contents; when the directory or the file cannot be opened nothing changes; and at every moment the
file holds the old contents or an initial part of the new ones (possibly nothing at all).
Missing: that the partial contents never occur. -/
theorem c67_save_partial (e : SaveEnv) (old : Option Str) :
    (e.mkdirOk = true → e.openOk = true → e.cut1 = none → e.cut2 = none → ∀ w, newContents e = some w →
      (saveToFile e old).final = some w ∧ (saveToFile e old).success = true) ∧
    ((e.mkdirOk = false ∨ e.openOk = false) →
      (saveToFile e old).states = [old] ∧ (saveToFile e old).final = old ∧ (saveToFile e old).success = false) ∧
    (∀ w, newContents e = some w → ∀ s ∈ (saveToFile e old).states, s = old ∨ ∃ p, s = some p ∧ p <+: w) ∧
    (e.gz = none → (saveToFile e old).success = true → (saveToFile e old).final = newContents e) := by
  refine ⟨?_, ?_, ?_, ?_⟩
  · intro h1 h2 h3 h4 w hw
    unfold saveToFile
    rw [h1, h2, h3, h4]
    unfold newContents at hw
    cases hj : e.json with
    | none => rw [hj] at hw; simp at hw
    | some b =>
      cases hg : e.gz with
      | none => rw [hj, hg] at hw; simp at hw; simp [written, hw]
      | some f => rw [hj, hg] at hw; simp at hw; simp [written, hw]
  · intro h
    unfold saveToFile
    rcases h with h | h
    · simp [h]
    · cases h1 : e.mkdirOk <;> simp [h]
  · intro w hw s hs
    unfold saveToFile at hs
    cases h1 : e.mkdirOk with
    | false => rw [h1] at hs; simp at hs; exact Or.inl hs
    | true =>
      cases h2 : e.openOk with
      | false => rw [h1, h2] at hs; simp at hs; exact Or.inl hs
      | true =>
        rw [h1, h2] at hs
        unfold newContents at hw
        cases hj : e.json with
        | none => rw [hj] at hw; simp at hw
        | some b =>
          cases hg : e.gz with
          | none =>
            rw [hj, hg] at hw hs
            simp at hw
            subst hw
            simp only [Bool.true_eq_false, if_false, List.mem_append, List.mem_singleton, mem_appending, List.nil_append] at hs
            rcases hs with hs | ⟨i, _, rfl⟩
            · exact Or.inl hs
            · obtain ⟨k, hk⟩ := written_prefix e.cut1 b
              refine Or.inr ⟨_, rfl, ?_⟩
              rw [hk]
              exact (List.take_prefix _ _).trans (List.take_prefix _ _)
          | some f =>
            rw [hj, hg] at hw hs
            simp at hw
            subst hw
            simp only [Bool.true_eq_false, if_false, List.mem_append, List.mem_singleton, mem_appending, List.nil_append] at hs
            rcases hs with (hs | ⟨i, _, rfl⟩) | ⟨i, _, rfl⟩
            · exact Or.inl hs
            · obtain ⟨k, hk⟩ := written_prefix e.cut1 (f b).1
              refine Or.inr ⟨_, rfl, ?_⟩
              rw [hk]
              exact ((List.take_prefix _ _).trans (List.take_prefix _ _)).trans (List.prefix_append _ _)
            · refine Or.inr ⟨_, rfl, ?_⟩
              cases hc : e.cut1 with
              | none =>
                simp only [written, Option.isSome_none, Bool.false_eq_true, if_false]
                obtain ⟨k, hk⟩ := written_prefix e.cut2 (f b).2
                unfold written at hk
                rw [hk]
                exact (List.prefix_append_right_inj _).2 ((List.take_prefix _ _).trans (List.take_prefix _ _))
              | some k =>
                simp only [written, Option.isSome_some, if_true, List.take_nil, List.append_nil]
                exact (List.take_prefix _ _).trans (List.prefix_append _ _)
  · intro hg hs
    unfold saveToFile newContents at *
    rw [hg] at hs ⊢
    cases h1 : e.mkdirOk with
    | false => rw [h1] at hs; simp at hs
    | true =>
      cases h2 : e.openOk with
      | false => rw [h1, h2] at hs; simp at hs
      | true =>
        rw [h1, h2] at hs
        cases hj : e.json with
        | none => rw [hj] at hs; simp at hs
        | some b =>
          rw [hj] at hs
          cases hc : e.cut1 with
          | none => simp [written]
          | some k => rw [hc] at hs; simp at hs

/-- A save without failing calls. -/
def demoSave : SaveEnv := ⟨true, true, some b!"{\"a\":1}", none, none, none⟩

/-- C67 is false of the code: after the file has been opened, and before anything is written, a crash
leaves an empty file, and so does JSON that cannot be produced. -/
theorem c67_crash_fails :
    ¬ ∀ (e : SaveEnv) (old : Option Str), e.mkdirOk = true → e.openOk = true →
      ∀ s ∈ (saveToFile e old).states, s = old ∨ s = newContents e := by
  intro h
  have := h demoSave (some b!"{\"a\":0}") rfl rfl (some []) (by decide)
  revert this
  decide

/-- C67: an error is not harmless either: when marshalling fails, the old contents are gone. -/
theorem c67_error_keeps_old_fails :
    ¬ ∀ (e : SaveEnv) (old : Option Str), (saveToFile e old).success = false → (saveToFile e old).final = old := by
  intro h
  have := h ⟨true, true, none, none, none, none⟩ (some b!"{}") rfl
  revert this
  decide

/-- C67: a reported success does not mean that the contents are complete: the error of closing the
compressor is dropped. -/
theorem c67_success_fails :
    ¬ ∀ (e : SaveEnv) (old : Option Str), (saveToFile e old).success = true → (saveToFile e old).final = newContents e := by
  intro h
  have := h ⟨true, true, some b!"{}", some fun b => ([31, 139], b), none, some 0⟩ none rfl
  revert this
  decide

/-! # C68: syncing keeps everything -/

theorem smap_get_put {α : Type} (m : SMap α) (k k' : Str) (v : α) :
    (m.put k v).get k' = if k = k' then some v else m.get k' := by
  induction m with
  | nil => simp [SMap.put, SMap.get]
  | cons kv m ih =>
    obtain ⟨a, b⟩ := kv
    simp only [SMap.put]
    split
    · rename_i h; subst h; simp only [SMap.get]
      split <;> rfl
    · rename_i h
      simp only [SMap.get, ih]
      split
      · rename_i h'; subst h'; rw [if_neg (fun hh => h hh.symm)]
      · rfl

theorem smap_foldl_get {α β : Type} (key : β → Str) (val : β → α) (l : List β) (m : SMap α) (k : Str) :
    (l.foldl (fun m x => m.put (key x) (val x)) m).get k =
      ((lastSuch (fun x => decide (key x = k)) l).map val).or (m.get k) := by
  induction l generalizing m with
  | nil => simp [lastSuch]
  | cons x l ih =>
    rw [List.foldl_cons, ih, smap_get_put]
    simp only [lastSuch, List.reverse_cons, List.find?_append]
    cases (List.find? (fun x => decide (key x = k)) l.reverse) with
    | some y => simp
    | none =>
      by_cases h : key x = k
      · simp [h]
      · simp [h]

theorem lastSuch_append {α : Type} (p : α → Bool) (a b : List α) :
    lastSuch p (a ++ b) = (lastSuch p b).or (lastSuch p a) := by
  simp [lastSuch, List.find?_append]

theorem storeAll_eq (ts : List MonzoTxn) : ∀ (m : SMap MonzoTxn) (c : Int) (r : SMap MonzoTxn × Int),
    storeAll m c ts = some r → r.1 = ts.foldl (fun m t => m.put t.id t) m := by
  induction ts with
  | nil => intro m c r h; simp [storeAll] at h; subst h; rfl
  | cons t ts ih =>
    intro m c r h
    unfold storeAll at h
    cases hc : t.created with
    | none => rw [hc] at h; simp at h
    | some c' => rw [hc] at h; exact ih _ _ _ h

theorem getAll_store (srv : MonzoServer) (ago : Nat → Int) (acct : Str) (fuel : Nat) :
    ∀ (since : Option Int) (n : Nat) (log : List MonzoTxn) (m : SMap MonzoTxn) (n' : Nat) (log' : List MonzoTxn)
      (m' : SMap MonzoTxn), getAll srv ago acct fuel since n log m = .done (n', log', m') →
      ∃ sent, log' = log ++ sent ∧ ∀ id, m'.get id = (lastSuch (fun t => decide (t.id = id)) sent).or (m.get id) := by
  induction fuel with
  | zero => intro since n log m n' log' m' h; simp [getAll] at h
  | succ fuel ih =>
    intro since n log m n' log' m' h
    unfold getAll at h
    simp only at h
    split at h
    · simp at h
    · simp at h
    · rename_i ts hr
      split at h
      · simp only [DL.done.injEq, Prod.mk.injEq] at h
        obtain ⟨_, rfl, rfl⟩ := h
        exact ⟨[], by simp, by simp [lastSuch]⟩
      · split at h
        · simp at h
        · rename_i m1 created hs
          have hm1 := storeAll_eq ts m 0 _ hs
          simp only at hm1
          have hget : ∀ id, m1.get id = (lastSuch (fun t => decide (t.id = id)) ts).or (m.get id) := by
            intro id
            rw [hm1, smap_foldl_get (fun t : MonzoTxn => t.id) (fun t => t)]
            simp
          split at h
          · simp only [DL.done.injEq, Prod.mk.injEq] at h
            obtain ⟨_, rfl, rfl⟩ := h
            exact ⟨ts, rfl, hget⟩
          · obtain ⟨sent, hl, hg⟩ := ih _ _ _ _ _ _ _ h
            refine ⟨ts ++ sent, by rw [hl, List.append_assoc], fun id => ?_⟩
            rw [hg, hget, lastSuch_append, Option.or_assoc]

theorem monzoAccounts_store (srv : MonzoServer) (ago : Nat → Int) (fuel : Nat) (as : List Str) :
    ∀ (n : Nat) (log : List MonzoTxn) (m : SMap MonzoTxn) (log' : List MonzoTxn) (m' : SMap MonzoTxn),
      monzoAccounts srv ago fuel as n log m = .done (log', m') →
      ∃ sent, log' = log ++ sent ∧ ∀ id, m'.get id = (lastSuch (fun t => decide (t.id = id)) sent).or (m.get id) := by
  induction as with
  | nil =>
    intro n log m log' m' h
    simp only [monzoAccounts, DL.done.injEq, Prod.mk.injEq] at h
    obtain ⟨rfl, rfl⟩ := h
    exact ⟨[], by simp, by simp [lastSuch]⟩
  | cons a as ih =>
    intro n log m log' m' h
    unfold monzoAccounts at h
    split at h
    · rename_i n1 log1 m1 h1
      obtain ⟨s1, hl1, hg1⟩ := getAll_store srv ago a fuel _ _ _ _ _ _ _ h1
      obtain ⟨s2, hl2, hg2⟩ := ih _ _ _ _ _ h
      refine ⟨s1 ++ s2, by rw [hl2, hl1, List.append_assoc], fun id => ?_⟩
      rw [hg2, hg1, lastSuch_append, Option.or_assoc]
    · simp at h
    · simp at h

/-- C68 for Monzo: whenever a sync succeeds, for every server, every history of replies and every order of the accounts, what is stored under an id is the
last transaction with that id that the server delivered, or else what was stored before; and the same for accounts. -/
theorem c68_monzo (whoami : Bool) (accounts : List (Str × Str)) (ord : List Str → List Str) (srv : MonzoServer)
    (ago : Nat → Int) (fuel : Nat) (d d' : MonzoData) (delivered : List MonzoTxn)
    (h : monzoSync whoami (some accounts) ord srv ago fuel d = .done (delivered, d')) :
    (∀ id, d'.trans.get id = (lastSuch (fun t => decide (t.id = id)) delivered).or (d.trans.get id)) ∧
    (∀ id, d'.accts.get id = ((lastSuch (fun a => decide (a.1 = id)) accounts).map (·.2)).or (d.accts.get id)) := by
  unfold monzoSync at h
  split at h
  · simp at h
  · simp only at h
    split at h
    · rename_i log m h1
      simp only [DL.done.injEq, Prod.mk.injEq] at h
      obtain ⟨rfl, rfl⟩ := h
      obtain ⟨sent, hl, hg⟩ := monzoAccounts_store _ _ _ _ _ _ _ _ _ h1
      simp only [List.nil_append] at hl
      subst hl
      exact ⟨hg, fun id => smap_foldl_get (fun a : Str × Str => a.1) (fun a => a.2) accounts d.accts id⟩
    · simp at h
    · simp at h

/-- C68 for Monzo, in the words of the property: no id disappears, and the server's items are there. -/
theorem c68_monzo_ids (whoami : Bool) (accounts : List (Str × Str)) (ord : List Str → List Str) (srv : MonzoServer)
    (ago : Nat → Int) (fuel : Nat) (d d' : MonzoData) (delivered : List MonzoTxn)
    (h : monzoSync whoami (some accounts) ord srv ago fuel d = .done (delivered, d')) :
    (∀ id v, d.trans.get id = some v → ∃ v', d'.trans.get id = some v') ∧
    (∀ t ∈ delivered, ∃ t' ∈ delivered, t'.id = t.id ∧ d'.trans.get t.id = some t') := by
  obtain ⟨hg, -⟩ := c68_monzo whoami accounts ord srv ago fuel d d' delivered h
  constructor
  · intro id v hv
    rw [hg, hv]
    cases lastSuch (fun t => decide (t.id = id)) delivered with
    | none => exact ⟨v, rfl⟩
    | some w => exact ⟨w, rfl⟩
  · intro t ht
    cases hf : lastSuch (fun x => decide (x.id = t.id)) delivered with
    | none =>
      have := List.find?_eq_none.1 hf t (by simpa using ht)
      simp at this
    | some w =>
      refine ⟨w, by simpa using List.mem_of_find?_eq_some hf, by simpa using List.find?_some hf, ?_⟩
      rw [hg, hf]; rfl

/-- Non-vacuity: a server with two transactions; one of them was stored before with other data. -/
example : ∃ log d', monzoSync true (some [(b!"acc", b!"x")]) (fun l => l)
    (serve [⟨b!"t1", some 0, b!"new"⟩, ⟨b!"t2", some 5, b!""⟩]) (fun _ => 0) 3
    ⟨[(b!"t0", ⟨b!"t0", some 0, b!""⟩), (b!"t1", ⟨b!"t1", some 0, b!"old"⟩)], []⟩ = .done (log, d') ∧ d'.trans.length = 3 :=
  ⟨_, _, rfl, rfl⟩

/-! ## Starling -/

/-- The item stored for an account, a category and an id. -/
def StData.item (d : StData) (cat id : Str) : Option FeedItem := (d.feed.get cat).bind fun f => f.get id

/-- All items delivered for an account and a category, in order. -/
def StLog.items (log : StLog) (acct cat : Str) : List FeedItem :=
  (log.filter fun e => decide (e.1 = acct ∧ e.2.1 = cat)).flatMap (·.2.2)

/-- One account has been brought up to date by the deliveries `sent`. -/
def StUpd (id : Str) (sent : StLog) (d d' : StData) : Prop :=
  (∀ e ∈ sent, e.1 = id) ∧
  ∀ cat uid, d'.item cat uid = (lastSuch (fun i => decide (i.uid = uid)) (sent.items id cat)).or (d.item cat uid)

theorem StUpd.nil (id : Str) (d : StData) : StUpd id [] d d :=
  ⟨by simp, fun cat uid => by simp [StLog.items, lastSuch]⟩

theorem StUpd.trans {id : Str} {s1 s2 : StLog} {d d' d'' : StData} (h1 : StUpd id s1 d d') (h2 : StUpd id s2 d' d'') :
    StUpd id (s1 ++ s2) d d'' := by
  refine ⟨fun e he => ?_, fun cat uid => ?_⟩
  · rcases List.mem_append.1 he with he | he
    · exact h1.1 e he
    · exact h2.1 e he
  · rw [h2.2, h1.2, ← Option.or_assoc, ← lastSuch_append]
    simp [StLog.items]

theorem syncFeed_upd {srv : StServer} {since : StAccount → SMap FeedItem → Option Str} {id cat : Str}
    {s s' : Nat × StLog × StData} (h : syncFeed srv since id cat s = some s') :
    ∃ sent, s'.2.1 = s.2.1 ++ sent ∧ StUpd id sent s.2.2 s'.2.2 ∧ s'.2.2.account = s.2.2.account := by
  unfold syncFeed at h
  split at h
  · simp at h
  · simp only at h
    split at h
    · simp at h
    · split at h
      · simp at h
      · rename_i items _
        simp only [Option.some.injEq] at h
        subst h
        refine ⟨[(id, cat, items)], rfl, ⟨by simp, fun c uid => ?_⟩, rfl⟩
        unfold StData.item
        simp only [smap_get_put]
        by_cases hc : cat = c
        · subst hc
          simp only [if_true, Option.bind_some]
          rw [smap_foldl_get (fun i : FeedItem => i.uid) (fun i => i)]
          have : StLog.items [(id, cat, items)] id cat = items := by simp [StLog.items]
          rw [this]
          cases s.2.2.feed.get cat <;> simp [SMap.get]
        · rw [if_neg hc]
          have : StLog.items [(id, cat, items)] id c = [] := by simp [StLog.items, hc]
          rw [this]
          simp [lastSuch]

theorem syncFeeds_upd {srv : StServer} {since : StAccount → SMap FeedItem → Option Str} {id : Str} (cats : List Str) :
    ∀ {s s' : Nat × StLog × StData}, syncFeeds srv since id cats s = some s' →
    ∃ sent, s'.2.1 = s.2.1 ++ sent ∧ StUpd id sent s.2.2 s'.2.2 := by
  induction cats with
  | nil => intro s s' h; simp only [syncFeeds, Option.some.injEq] at h; subst h; exact ⟨[], by simp, StUpd.nil _ _⟩
  | cons c cats ih =>
    intro s s' h
    unfold syncFeeds at h
    split at h
    · simp at h
    · rename_i s1 h1
      obtain ⟨a, ha, ua, -⟩ := syncFeed_upd h1
      obtain ⟨b, hb, ub⟩ := ih h
      exact ⟨a ++ b, by rw [hb, ha, List.append_assoc], ua.trans ub⟩

theorem syncAcct_upd {srv : StServer} {since : StAccount → SMap FeedItem → Option Str} {id : Str}
    {s s' : Nat × StLog × StData} (h : syncAcct srv since id s = some s') :
    ∃ sent, s'.2.1 = s.2.1 ++ sent ∧ StUpd id sent s.2.2 s'.2.2 := by
  unfold syncAcct at h
  split at h
  · simp at h
  · split at h
    · simp at h
    · split at h
      · simp at h
      · rename_i s1 h1
        obtain ⟨a, ha, ua, -⟩ := syncFeed_upd h1
        split at h
        · simp at h
        · split at h
          · simp at h
          · rename_i s2 h2
            obtain ⟨b, hb, ub⟩ := syncFeeds_upd _ h2
            obtain ⟨c, hc, uc⟩ := syncFeeds_upd _ h
            refine ⟨a ++ b ++ c, ?_, (ua.trans ub).trans uc⟩
            rw [hc, hb, ha]; simp

/-- The item stored in the whole state. -/
def stItem (m : SMap StData) (acct cat id : Str) : Option FeedItem := (m.get acct).bind fun d => d.item cat id

theorem syncAccts_upd {srv : StServer} {since : StAccount → SMap FeedItem → Option Str} (ids : List Str) :
    ∀ {s s' : Nat × StLog × SMap StData}, syncAccts srv since ids s = some s' →
    ∃ sent, s'.2.1 = s.2.1 ++ sent ∧ ∀ acct cat uid,
      stItem s'.2.2 acct cat uid = (lastSuch (fun i => decide (i.uid = uid)) (sent.items acct cat)).or (stItem s.2.2 acct cat uid) := by
  induction ids with
  | nil =>
    intro s s' h; simp only [syncAccts, Option.some.injEq] at h; subst h
    exact ⟨[], by simp, by simp [StLog.items, lastSuch]⟩
  | cons id ids ih =>
    intro s s' h
    obtain ⟨n, log, m⟩ := s
    unfold syncAccts at h
    split at h
    · exact ih h
    · rename_i d hd
      split at h
      · simp at h
      · rename_i n1 log1 d1 h1
        obtain ⟨a, ha, ua⟩ := syncAcct_upd h1
        obtain ⟨b, hb, ub⟩ := ih h
        simp only at ha hb ub
        refine ⟨a ++ b, by rw [hb, ha, List.append_assoc], fun acct cat uid => ?_⟩
        rw [ub]
        have e : (a ++ b).items acct cat = StLog.items a acct cat ++ StLog.items b acct cat := by simp [StLog.items]
        rw [e, lastSuch_append, Option.or_assoc]
        congr 1
        unfold stItem
        rw [smap_get_put]
        by_cases hid : id = acct
        · subst hid
          rw [if_pos rfl, hd, Option.bind_some, Option.bind_some, ua.2]
        · rw [if_neg hid]
          have : StLog.items a acct cat = [] := by
            simp only [StLog.items, List.flatMap_eq_nil_iff, List.mem_filter, decide_eq_true_eq]
            rintro e ⟨he, h1, _⟩
            exact absurd ((ua.1 e he).symm.trans h1) hid
          rw [this]; simp [lastSuch]

theorem addAccounts_items (as : List StAccount) : ∀ (m : SMap StData) (acct cat id : Str),
    stItem (as.foldl addAccount m) acct cat id = stItem m acct cat id := by
  induction as with
  | nil => intros; rfl
  | cons a as ih =>
    intro m acct cat id
    rw [List.foldl_cons, ih]
    unfold addAccount stItem
    split
    · rename_i h
      rw [smap_get_put]
      split
      · rename_i h'; subst h'; rw [h]; simp [StData.item, SMap.get]
      · rfl
    · rename_i d h
      rw [smap_get_put]
      split
      · rename_i h'; subst h'; rw [h]; simp [StData.item]
      · rfl

/-- C68 for Starling: whenever a sync succeeds, what is stored for an account, a category and an id is the last item delivered for
them, or else what was stored before. -/
theorem c68_starling (srv : StServer) (since : StAccount → SMap FeedItem → Option Str) (ord : List Str → List Str)
    (m m' : SMap StData) (delivered : StLog) (h : starlingSync srv since ord m = some (delivered, m')) (acct cat id : Str) :
    stItem m' acct cat id =
      (lastSuch (fun i => decide (i.uid = id)) (delivered.items acct cat)).or (stItem m acct cat id) := by
  unfold starlingSync at h
  split at h
  · simp at h
  · simp only at h
    split at h
    · simp at h
    · rename_i n log m1 h1
      split at h
      · simp at h
      · simp only [Option.some.injEq, Prod.mk.injEq] at h
        obtain ⟨rfl, rfl⟩ := h
        obtain ⟨sent, hl, hg⟩ := syncAccts_upd _ h1
        simp only [List.nil_append] at hl
        subst hl
        rw [hg, addAccounts_items]

/-- Non-vacuity. -/
def demoSt : StServer :=
  { accounts := some [⟨b!"a", b!"main", b!"2020"⟩]
    identifiers := fun _ _ => true
    feed := fun _ _ cat _ => some [⟨cat ++ b!"1", b!"2021", b!"new"⟩]
    spaces := fun _ _ => some ([b!"holiday"], [b!"food"])
    payees := fun _ => true }

example : ∃ log m', starlingSync demoSt (fun a _ => some a.createdAt) (fun l => l)
    [(b!"a", ⟨none, [(b!"main", [(b!"main0", ⟨b!"main0", b!"", b!""⟩)])]⟩)] = some (log, m') ∧
    (m'.map fun kv => kv.2.feed.map fun f => f.2.length) = [[2, 1, 1]] :=
  ⟨_, _, rfl, by decide⟩

/-! ## Nordigen -/

/-- The transaction stored for an account and an id. -/
def nordItem (m : SMap (SMap NordTxn)) (acct id : Str) : Option NordTxn := (m.get acct).bind fun f => f.get id

/-- All booked transactions delivered for an account, in order. -/
def nordItems (log : List (Str × List NordTxn)) (acct : Str) : List NordTxn :=
  (log.filter fun e => decide (e.1 = acct)).flatMap (·.2)

theorem nordAccts_upd {srv : NordServer} (as : List Str) :
    ∀ {s s' : Nat × List (Str × List NordTxn) × SMap (SMap NordTxn)}, nordAccts srv as s = some s' →
    ∃ sent, s'.2.1 = s.2.1 ++ sent ∧ ∀ acct id,
      nordItem s'.2.2 acct id = (lastSuch (fun t => decide (t.id = id)) (nordItems sent acct)).or (nordItem s.2.2 acct id) := by
  induction as with
  | nil =>
    intro s s' h; simp only [nordAccts, Option.some.injEq] at h; subst h
    exact ⟨[], by simp, by simp [nordItems, lastSuch]⟩
  | cons a as ih =>
    intro s s' h
    obtain ⟨n, log, m⟩ := s
    unfold nordAccts at h
    split at h
    · simp at h
    · split at h
      · simp at h
      · split at h
        · simp at h
        · rename_i booked _ _
          obtain ⟨b, hb, ub⟩ := ih h
          simp only at hb ub
          refine ⟨(a, booked) :: b, by rw [hb]; simp, fun acct id => ?_⟩
          rw [ub]
          have e : nordItems ((a, booked) :: b) acct = nordItems [(a, booked)] acct ++ nordItems b acct := by
            simp only [nordItems, List.filter_cons, List.filter_nil]
            split <;> simp
          rw [e, lastSuch_append, Option.or_assoc]
          congr 1
          unfold nordItem
          rw [smap_get_put]
          by_cases hid : a = acct
          · subst hid
            rw [if_pos rfl, Option.bind_some, smap_foldl_get (fun t : NordTxn => t.id) (fun t => t)]
            have : nordItems [(a, booked)] a = booked := by simp [nordItems]
            rw [this]
            cases m.get a <;> simp [SMap.get]
          · rw [if_neg hid]
            have : nordItems [(a, booked)] acct = [] := by simp [nordItems, hid]
            rw [this]; simp [lastSuch]

/-- C68 for Nordigen: whenever a sync succeeds, what is stored for an account and an id is the last booked transaction delivered for
them, or else what was stored before. -/
theorem c68_nordigen (srv : NordServer) (m m' : SMap (SMap NordTxn)) (delivered : List (Str × List NordTxn))
    (h : nordigenSync srv m = some (delivered, m')) (acct id : Str) :
    nordItem m' acct id = (lastSuch (fun t => decide (t.id = id)) (nordItems delivered acct)).or (nordItem m acct id) := by
  unfold nordigenSync at h
  split at h
  · simp at h
  · rename_i as _
    cases hn : nordAccts srv as (0, [], m) with
    | none => rw [hn] at h; simp at h
    | some s =>
      rw [hn] at h
      simp only [Option.map_some, Option.some.injEq] at h
      obtain ⟨sent, hl, hg⟩ := nordAccts_upd as hn
      rw [h] at hl hg
      simp only [List.nil_append] at hl
      subst hl
      exact hg acct id

example : ∃ log m', nordigenSync ⟨some [b!"a"], fun _ _ => true, fun _ _ => true, fun _ _ => some ([⟨b!"1", b!"x"⟩], [⟨b!"2", b!""⟩])⟩
    [(b!"a", [(b!"0", ⟨b!"0", b!""⟩)])] = some (log, m') ∧ (m'.map fun kv => kv.2.length) = [2] :=
  ⟨_, _, rfl, rfl⟩

/-- C68 as the user sees it: the state file keeps, for every bank, its old contents when a sync fails or does not end. -/
def fileAfter {α β : Type} (old : α) (r : DL (β × α)) : α :=
  match r with
  | .done (_, d) => d
  | _ => old

/-- C68 for the Monzo state file: no id is ever dropped from it, whatever happens in a sync. -/
theorem c68_monzo_file (whoami : Bool) (accounts : Option (List (Str × Str))) (ord : List Str → List Str) (srv : MonzoServer)
    (ago : Nat → Int) (fuel : Nat) (d : MonzoData) (id : Str) (v : MonzoTxn) (hv : d.trans.get id = some v) :
    ∃ v', (fileAfter d (monzoSync whoami accounts ord srv ago fuel d)).trans.get id = some v' := by
  cases hs : monzoSync whoami accounts ord srv ago fuel d with
  | done r =>
    obtain ⟨log, d'⟩ := r
    cases ha : accounts with
    | none => subst ha; unfold monzoSync at hs; split at hs <;> simp at hs
    | some as =>
      subst ha
      exact (c68_monzo_ids whoami as ord srv ago fuel d d' log hs).1 id v hv
  | failed => exact ⟨v, hv⟩
  | running => exact ⟨v, hv⟩

end Verif
