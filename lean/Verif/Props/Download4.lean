import Verif.Props.Download3

namespace Verif
open Spec

/-! # C103: a Starling sync misses no change -/

theorem put_nodup {α : Type} {f : SMap α} (h : (f.map (·.1)).Nodup) (k : Str) (v : α) : ((f.put k v).map (·.1)).Nodup := by
  induction f with
  | nil => simp [SMap.put]
  | cons x f ih =>
    obtain ⟨k', v'⟩ := x
    rw [List.map_cons, List.nodup_cons] at h
    unfold SMap.put
    split
    · rename_i hk
      subst hk
      exact List.nodup_cons.2 h
    · rename_i hk
      rw [List.map_cons, List.nodup_cons]
      refine ⟨fun hm => ?_, ih h.2⟩
      rcases (smap_keys_put f k k' v).1 hm with h1 | h1
      · exact hk h1
      · exact h.1 h1

theorem puts_nodup {α β : Type} (key : β → Str) (val : β → α) (l : List β) : ∀ {f : SMap α}, (f.map (·.1)).Nodup →
    ((l.foldl (fun f i => f.put (key i) (val i)) f).map (·.1)).Nodup := by
  induction l with
  | nil => intro f h; exact h
  | cons i l ih => intro f h; exact ih (put_nodup h _ _)

theorem smap_get_of_mem {α : Type} {f : SMap α} (h : (f.map (·.1)).Nodup) {e : Str × α} (he : e ∈ f) : f.get e.1 = some e.2 := by
  induction f with
  | nil => simp at he
  | cons x f ih =>
    rw [List.map_cons, List.nodup_cons] at h
    rcases List.mem_cons.1 he with rfl | he
    · simp [SMap.get]
    · unfold SMap.get
      rw [if_neg, ih h.2 he]
      intro hk
      exact h.1 (by rw [hk]; exact List.mem_map_of_mem he)

theorem lastSuch_mem {α : Type} {p : α → Bool} {l : List α} {x : α} (h : lastSuch p l = some x) : x ∈ l ∧ p x = true :=
  ⟨by simpa using List.mem_of_find?_eq_some h, List.find?_some h⟩

theorem lastSuch_none {α : Type} {p : α → Bool} {l : List α} (h : lastSuch p l = none) : ∀ x ∈ l, p x = false := by
  intro x hx
  have := List.find?_eq_none.1 h x (by simpa using hx)
  simpa using this

/-- The newest time of a stored feed is the time of one of its items. -/
theorem recentTime_mem (f : SMap FeedItem) (h : f ≠ []) : ∃ e ∈ f, recentTime f = e.2.updatedAt := by
  have key : ∀ (l : SMap FeedItem) (r : Str), (r = [] → l ≠ []) →
      l.foldl (fun r i => if r = [] ∨ strBefore r i.2.updatedAt = true then i.2.updatedAt else r) r = r ∨
        ∃ e ∈ l, l.foldl (fun r i => if r = [] ∨ strBefore r i.2.updatedAt = true then i.2.updatedAt else r) r = e.2.updatedAt := by
    intro l
    induction l with
    | nil => intro r _; exact .inl rfl
    | cons x l ih =>
      intro r _
      rw [List.foldl_cons]
      split
      · by_cases hx : x.2.updatedAt = [] ∧ l = []
        · right
          exact ⟨x, by simp, by rw [hx.2]; rfl⟩
        · rcases ih x.2.updatedAt (fun h0 hl => hx ⟨h0, hl⟩) with h | ⟨e, he, h⟩
          · exact .inr ⟨x, by simp, h⟩
          · exact .inr ⟨e, by simp [he], h⟩
      · rename_i hr
        rcases ih r (fun h0 => absurd (.inl h0) hr) with h | ⟨e, he, h⟩
        · exact .inl h
        · exact .inr ⟨e, by simp [he], h⟩
  unfold recentTime
  cases f with
  | nil => exact absurd rfl h
  | cons x l =>
    rw [List.foldl_cons, if_pos (.inl rfl)]
    by_cases hx : x.2.updatedAt = [] ∧ l = []
    · exact ⟨x, by simp, by rw [hx.2]; rfl⟩
    · rcases key l x.2.updatedAt (fun h0 hl => hx ⟨h0, hl⟩) with h | ⟨e, he, h⟩
      · exact ⟨x, by simp, h⟩
      · exact ⟨e, by simp [he], h⟩

/-- The core: what is stored for the first `k` versions, and the items changed since, make up what there is now. -/
theorem feed_step {b : Feeds} {tt : TimeText} (hb : b.Ok tt) (ht : SoundTimes tt) {srv : StServer} (hs : b.answers tt srv)
    {allData : Bool} {a : StAccount} (ha : b.opened tt a) {f : SMap FeedItem} {c : Str} {n k : Nat} (hk : k ≤ b.known n a.uid c)
    (hf : AsOf f ((b.versions a.uid c).take k)) {since : Str} (hsince : starlingSince tt allData a f = some since)
    {items : List FeedItem} (hi : srv.feed n a.uid c since = some items) :
    AsOf (items.foldl (fun f i => f.put i.uid i) f) (b.upTo n a.uid c) := by
  obtain ⟨hnd, hget⟩ := hf
  refine ⟨puts_nodup (fun i : FeedItem => i.uid) (fun i => i) items hnd, fun uid => ?_⟩
  obtain ⟨s, hps, hit⟩ := hs _ _ _ _ _ hi
  rw [smap_foldl_get (fun i : FeedItem => i.uid) (fun i => i)]
  have hup : b.upTo n a.uid c = (b.versions a.uid c).take k ++ ((b.versions a.uid c).take (b.known n a.uid c)).drop k := by
    unfold Feeds.upTo
    conv_lhs => rw [← List.take_append_drop k ((b.versions a.uid c).take (b.known n a.uid c))]
    rw [List.take_take, min_eq_left hk]
  have hver : ∀ v ∈ b.upTo n a.uid c, v ∈ b.versions a.uid c := fun v hv => List.mem_of_mem_take hv
  -- everything newer than the stored feed is asked for
  have hasked : ∀ v ∈ ((b.versions a.uid c).take (b.known n a.uid c)).drop k, ∀ t, tt.parse v.updatedAt = some t → s ≤ t := by
    intro v hv t hvt
    have hv' : v ∈ b.upTo n a.uid c := by rw [hup]; exact List.mem_append_right _ hv
    unfold starlingSince at hsince
    split at hsince
    · rename_i hne
      obtain ⟨e, he, hrec⟩ := recentTime_mem f hne.2
      have hmem : e.2 ∈ (b.versions a.uid c).take k := by
        have h1 := smap_get_of_mem hnd he
        rw [hget] at h1
        exact (lastSuch_mem h1).1
      split at hsince
      · cases hsince
      · rename_i t0 ht0
        simp only [Option.some.injEq] at hsince
        split at hsince
        · subst hsince
          have hord := hb.order a.uid c
          rw [← List.take_append_drop (b.known n a.uid c) (b.versions a.uid c)] at hord
          have hord2 := (List.pairwise_append.1 hord).1
          have e2 : (b.versions a.uid c).take (b.known n a.uid c) =
              (b.versions a.uid c).take k ++ ((b.versions a.uid c).take (b.known n a.uid c)).drop k := hup
          rw [e2] at hord2
          rw [hrec] at ht0
          have h1 := (List.pairwise_append.1 hord2).2.2 e.2 hmem v hv t0 t ht0 hvt
          obtain ⟨t0', ht0', hpos⟩ := hb.times a.uid c e.2 (List.mem_of_mem_take hmem)
          rw [ht0] at ht0'
          cases ht0'
          exact le_trans (ht t0 hpos s hps) h1
        · subst hsince
          exact ha s hps c v (hver v hv') t hvt
    · simp only [Option.some.injEq] at hsince
      subst hsince
      exact ha s hps c v (hver v hv') t hvt
  cases hlast : lastSuch (fun i => decide (i.uid = uid)) items with
  | some v =>
    obtain ⟨hv, hu⟩ := lastSuch_mem hlast
    simp only [decide_eq_true_eq] at hu
    have := ((hit v).1 hv).1
    unfold Current at this
    rw [hu] at this
    rw [this]
    rfl
  | none =>
    have hno := lastSuch_none hlast
    simp only [Option.map_none, Option.none_or]
    rw [hget, hup, lastSuch_append]
    cases hd : lastSuch (fun i => decide (i.uid = uid)) (((b.versions a.uid c).take (b.known n a.uid c)).drop k) with
    | none => rfl
    | some v =>
      exfalso
      obtain ⟨hv, hu⟩ := lastSuch_mem hd
      simp only [decide_eq_true_eq] at hu
      have hv' : v ∈ b.upTo n a.uid c := by rw [hup]; exact List.mem_append_right _ hv
      obtain ⟨t, hvt, _⟩ := hb.times a.uid c v (hver v hv')
      have hmem : v ∈ items := by
        rw [hit]
        refine ⟨?_, t, hvt, hasked v hv t hvt⟩
        unfold Current
        rw [hu, hup, lastSuch_append, hd]
        rfl
      have := hno v hmem
      simp [hu] at this

/-- One account: what it was, and what it is. -/
structure AcctOk (b : Feeds) (tt : TimeText) (n : Nat) (id : Str) (d : StData) : Prop where
  account : ∀ a, d.account = some a → a.uid = id ∧ b.opened tt a
  feeds : ∀ c f, d.feed.get c = some f → ∃ k ≤ b.known n id c, AsOf f ((b.versions id c).take k)

theorem AcctOk.later {b : Feeds} {tt : TimeText} (hb : b.Ok tt) {n n' : Nat} (h : n ≤ n') {id : Str} {d : StData}
    (ho : AcctOk b tt n id d) : AcctOk b tt n' id d := by
  refine ⟨ho.account, fun c f hf => ?_⟩
  obtain ⟨k, hk, h1⟩ := ho.feeds c f hf
  exact ⟨k, hk.trans (hb.grows n n' id c h), h1⟩

/-- The feed of a category is at least as new as when the first request was answered. -/
def Fresh (b : Feeds) (id : Str) (d : StData) (c : Str) : Prop :=
  ∃ f k, d.feed.get c = some f ∧ b.known 0 id c ≤ k ∧ AsOf f ((b.versions id c).take k)

theorem syncFeed_fresh {b : Feeds} {tt : TimeText} (hb : b.Ok tt) (ht : SoundTimes tt) {srv : StServer} (hs : b.answers tt srv)
    {allData : Bool} {id c : Str} {s s' : Nat × StLog × StData} (h : syncFeed srv (starlingSince tt allData) id c s = some s')
    (ho : AcctOk b tt s.1 id s.2.2) :
    s.1 ≤ s'.1 ∧ s'.2.2.account = s.2.2.account ∧ AcctOk b tt s'.1 id s'.2.2 ∧ Fresh b id s'.2.2 c ∧
      ∀ c', Fresh b id s.2.2 c' → Fresh b id s'.2.2 c' := by
  unfold syncFeed at h
  split at h
  · cases h
  · rename_i a ha
    obtain ⟨hid, hopen⟩ := ho.account a ha
    simp only at h
    split at h
    · cases h
    · rename_i since hsince
      split at h
      · cases h
      · rename_i items hitems
        simp only [Option.some.injEq] at h
        subst h
        simp only
        subst hid
        have hprev : ∃ k ≤ b.known s.1 a.uid c, AsOf ((s.2.2.feed.get c).getD []) ((b.versions a.uid c).take k) := by
          cases hc : s.2.2.feed.get c with
          | none => exact ⟨0, Nat.zero_le _, by simp [AsOf, SMap.get, lastSuch]⟩
          | some f => exact ho.feeds c f hc
        obtain ⟨k, hk, hold⟩ := hprev
        have hnew := feed_step hb ht hs hopen hk hold hsince hitems
        have hfresh : Fresh b a.uid { account := s.2.2.account, feed := s.2.2.feed.put c (items.foldl (fun f i => f.put i.uid i) ((s.2.2.feed.get c).getD [])) } c :=
          ⟨_, b.known s.1 a.uid c, by simp [smap_get_put], hb.grows 0 s.1 _ _ (Nat.zero_le _), hnew⟩
        refine ⟨Nat.le_succ _, trivial, ⟨ho.account, ?_⟩, hfresh, ?_⟩
        · intro c' f hf
          rw [smap_get_put] at hf
          split at hf
          · rename_i hcc
            subst hcc
            cases hf
            exact ⟨b.known s.1 a.uid c, hb.grows _ _ _ _ (Nat.le_succ _), hnew⟩
          · obtain ⟨k', hk', h1⟩ := ho.feeds c' f hf
            exact ⟨k', hk'.trans (hb.grows _ _ _ _ (Nat.le_succ _)), h1⟩
        · intro c' hc'
          by_cases hcc : c = c'
          · subst hcc
            exact hfresh
          · obtain ⟨f, k', h1, h2⟩ := hc'
            exact ⟨f, k', by simp only; rw [smap_get_put, if_neg hcc]; exact h1, h2⟩

theorem syncFeeds_fresh {b : Feeds} {tt : TimeText} (hb : b.Ok tt) (ht : SoundTimes tt) {srv : StServer} (hs : b.answers tt srv)
    {allData : Bool} {id : Str} (cs : List Str) : ∀ {s s' : Nat × StLog × StData},
    syncFeeds srv (starlingSince tt allData) id cs s = some s' → AcctOk b tt s.1 id s.2.2 →
    s.1 ≤ s'.1 ∧ s'.2.2.account = s.2.2.account ∧ AcctOk b tt s'.1 id s'.2.2 ∧ (∀ c ∈ cs, Fresh b id s'.2.2 c) ∧
      ∀ c', Fresh b id s.2.2 c' → Fresh b id s'.2.2 c' := by
  induction cs with
  | nil =>
    intro s s' h ho
    simp only [syncFeeds, Option.some.injEq] at h
    subst h
    exact ⟨le_refl _, rfl, ho, by simp, fun _ h => h⟩
  | cons c cs ih =>
    intro s s' h ho
    unfold syncFeeds at h
    split at h
    · cases h
    · rename_i s1 h1
      obtain ⟨a1, a2, a3, a4, a5⟩ := syncFeed_fresh hb ht hs h1 ho
      obtain ⟨b1, b2, b3, b4, b5⟩ := ih h a3
      refine ⟨a1.trans b1, b2.trans a2, b3, ?_, fun c' hc' => b5 c' (a5 c' hc')⟩
      intro c' hc'
      rcases List.mem_cons.1 hc' with rfl | hc'
      · exact b5 _ a4
      · exact b4 c' hc'

/-- An account whose feeds are all up to date. -/
def UpToDate (b : Feeds) (srv : StServer) (id : Str) (d : StData) : Prop :=
  ∃ a n savings spending, d.account = some a ∧ srv.spaces n id = some (savings, spending) ∧
    ∀ c ∈ a.defaultCat :: (savings ++ spending), Fresh b id d c

theorem syncAcct_fresh {b : Feeds} {tt : TimeText} (hb : b.Ok tt) (ht : SoundTimes tt) {srv : StServer} (hs : b.answers tt srv)
    {allData : Bool} {id : Str} {s s' : Nat × StLog × StData} (h : syncAcct srv (starlingSince tt allData) id s = some s')
    (ho : AcctOk b tt s.1 id s.2.2) :
    s.1 ≤ s'.1 ∧ AcctOk b tt s'.1 id s'.2.2 ∧ UpToDate b srv id s'.2.2 := by
  unfold syncAcct at h
  split at h
  · cases h
  · split at h
    · cases h
    · rename_i a ha
      split at h
      · cases h
      · rename_i s1 h1
        obtain ⟨a1, a2, a3, a4, a5⟩ := syncFeed_fresh hb ht hs h1 (ho.later hb (Nat.le_succ _))
        split at h
        · cases h
        · rename_i savings spending hsp
          split at h
          · cases h
          · rename_i s2 h2
            obtain ⟨b1, b2, b3, b4, b5⟩ := syncFeeds_fresh hb ht hs savings h2 (a3.later hb (Nat.le_succ _))
            obtain ⟨c1, c2, c3, c4, c5⟩ := syncFeeds_fresh hb ht hs spending h b3
            simp only at a1 a2 b1 b2 b5
            refine ⟨by omega, c3, a, s1.1, savings, spending, ?_, hsp, ?_⟩
            · rw [c2, b2, a2, ha]
            · intro c hc
              rcases List.mem_cons.1 hc with rfl | hc
              · exact c5 _ (b5 _ a4)
              · rcases List.mem_append.1 hc with hc | hc
                · exact c5 _ (b4 c hc)
                · exact c4 c hc

theorem syncAccts_fresh {b : Feeds} {tt : TimeText} (hb : b.Ok tt) (ht : SoundTimes tt) {srv : StServer} (hs : b.answers tt srv)
    {allData : Bool} (ids : List Str) : ∀ {s s' : Nat × StLog × SMap StData},
    syncAccts srv (starlingSince tt allData) ids s = some s' → (∀ id d, s.2.2.get id = some d → AcctOk b tt s.1 id d) →
    s.1 ≤ s'.1 ∧ (∀ id d, s'.2.2.get id = some d → AcctOk b tt s'.1 id d) ∧
      (∀ id d', s'.2.2.get id = some d' → (∃ d, s.2.2.get id = some d) ∧
        ((s.2.2.get id = some d' ∧ id ∉ ids) ∨ UpToDate b srv id d' )) := by
  induction ids with
  | nil =>
    intro s s' h ho
    simp only [syncAccts, Option.some.injEq] at h
    subst h
    exact ⟨le_refl _, ho, fun id d h => ⟨⟨d, h⟩, .inl ⟨h, by simp⟩⟩⟩
  | cons id ids ih =>
    intro s s' h ho
    obtain ⟨n, log, m⟩ := s
    unfold syncAccts at h
    split at h
    · rename_i hno
      obtain ⟨a1, a2, a3⟩ := ih h ho
      refine ⟨a1, a2, fun id' d' hd' => ?_⟩
      obtain ⟨⟨d, hd⟩, h2⟩ := a3 id' d' hd'
      refine ⟨⟨d, hd⟩, ?_⟩
      rcases h2 with ⟨h2, h3⟩ | h2
      · refine .inl ⟨h2, ?_⟩
        rintro hm
        rcases List.mem_cons.1 hm with rfl | hm
        · simp only at h2; rw [hno] at h2; cases h2
        · exact h3 hm
      · exact .inr h2
    · rename_i d hd
      split at h
      · cases h
      · rename_i n1 log1 d1 h1
        obtain ⟨c1, c2, c3⟩ := syncAcct_fresh hb ht hs h1 (ho id d hd)
        simp only at c1 c2 c3
        have ho' : ∀ id' d', (m.put id d1).get id' = some d' → AcctOk b tt n1 id' d' := by
          intro id' d' hg
          rw [smap_get_put] at hg
          split at hg
          · rename_i e
            subst e
            cases hg
            exact c2
          · exact (ho id' d' hg).later hb c1
        obtain ⟨a1, a2, a3⟩ := ih h ho'
        refine ⟨c1.trans a1, a2, fun id' d' hd' => ?_⟩
        obtain ⟨⟨d2, hd2⟩, h2⟩ := a3 id' d' hd'
        simp only at hd2 h2
        rw [smap_get_put] at hd2 h2
        by_cases e : id = id'
        · subst e
          refine ⟨⟨d, hd⟩, .inr ?_⟩
          rcases h2 with ⟨h2, _⟩ | h2
          · rw [if_pos rfl] at h2
            cases h2
            exact c3
          · exact h2
        · rw [if_neg e] at hd2 h2
          refine ⟨⟨d2, hd2⟩, ?_⟩
          rcases h2 with ⟨h2, h3⟩ | h2
          · refine .inl ⟨h2, ?_⟩
            intro hm
            rcases List.mem_cons.1 hm with rfl | hm
            · exact e rfl
            · exact h3 hm
          · exact .inr h2

theorem addAccounts_ok {b : Feeds} {tt : TimeText} (as : List StAccount) : ∀ {m : SMap StData},
    (∀ a ∈ as, b.opened tt a) → (∀ id d, m.get id = some d → AcctOk b tt 0 id d) →
    ∀ id d, (as.foldl addAccount m).get id = some d → AcctOk b tt 0 id d := by
  induction as with
  | nil => intro m _ h; exact h
  | cons a as ih =>
    intro m ha h
    refine ih (fun x hx => ha x (by simp [hx])) ?_
    intro id d hg
    unfold addAccount at hg
    split at hg
    · rw [smap_get_put] at hg
      split at hg
      · rename_i e
        cases hg
        exact ⟨fun a' ha' => by cases ha'; exact ⟨e, ha _ (by simp)⟩, fun c f hf => by simp [SMap.get] at hf⟩
      · exact h id d hg
    · rename_i d0 hd0
      rw [smap_get_put] at hg
      split at hg
      · rename_i e
        cases hg
        exact ⟨fun a' ha' => by cases ha'; exact ⟨e, ha _ (by simp)⟩, fun c f hf => by rw [← e] at *; exact (h a.uid d0 hd0).feeds c f hf⟩
      · exact h id d hg

theorem get_mem_keys {α : Type} {m : SMap α} {k : Str} {v : α} (h : m.get k = some v) : k ∈ m.map (·.1) := by
  induction m with
  | nil => cases h
  | cons x m ih =>
    obtain ⟨k', v'⟩ := x
    unfold SMap.get at h
    split at h
    · rename_i e
      simp [e]
    · exact List.mem_cons_of_mem _ (ih h)

/-- C103: after a successful Starling sync every stored feed is the feed as the bank had it at some time, and the feeds of
every account's default category and of all its spaces are at least as new as when the sync began: every item is there,
in its last version, and nothing else.  This holds for every state file that earlier syncs left behind, so it holds for
every history of syncs. -/
theorem c103_nothing_missed {b : Feeds} {tt : TimeText} (hb : b.Ok tt) (ht : SoundTimes tt) {srv : StServer}
    (hs : b.answers tt srv) (hacc : ∀ as, srv.accounts = some as → ∀ a ∈ as, b.opened tt a) {allData : Bool}
    {ord : List Str → List Str} (hord : ∀ l, (ord l).Perm l) {m m' : SMap StData} {delivered : StLog} (hm : Synced b tt 0 m)
    (h : starlingSync srv (starlingSince tt allData) ord m = some (delivered, m')) :
    (∃ n, Synced b tt n m') ∧
      ∀ id d, m'.get id = some d → ∃ a n savings spending, d.account = some a ∧ srv.spaces n id = some (savings, spending) ∧
        ∀ c ∈ a.defaultCat :: (savings ++ spending), ∃ f k, d.feed.get c = some f ∧ b.known 0 id c ≤ k ∧
          AsOf f ((b.versions id c).take k) := by
  unfold starlingSync at h
  split at h
  · cases h
  · rename_i as has
    simp only at h
    split at h
    · cases h
    · rename_i n log m1 h1
      split at h
      · cases h
      · simp only [Option.some.injEq, Prod.mk.injEq] at h
        obtain ⟨rfl, rfl⟩ := h
        have h0 : ∀ id d, (as.foldl addAccount m).get id = some d → AcctOk b tt 0 id d :=
          addAccounts_ok as (hacc as has) (fun id d hd => ⟨fun a ha => hm.accounts id d a hd ha, fun c f hf => hm.feeds id d c f hd hf⟩)
        obtain ⟨-, a2, a3⟩ := syncAccts_fresh hb ht hs _ h1 h0
        refine ⟨⟨n, fun id d a hd ha => (a2 id d hd).account a ha, fun id d c f hd hf => (a2 id d hd).feeds c f hf⟩, ?_⟩
        intro id d hd
        obtain ⟨⟨d0, hd0⟩, h2⟩ := a3 id d hd
        rcases h2 with ⟨_, h3⟩ | h2
        · exfalso
          apply h3
          rw [(hord _).mem_iff]
          exact get_mem_keys hd0
        · exact h2

/-- C103 for every history of syncs: what the file holds of a feed is that feed as the bank had it at some time. -/
theorem c103_history {tt : TimeText} (ht : SoundTimes tt) {versions : (acct cat : Str) → List FeedItem} {u : Str → Str → Nat} {m : SMap StData}
    (h : StHistory tt versions u m) : Synced ⟨versions, fun _ => u⟩ tt 0 m := by
  induction h with
  | new => exact ⟨fun _ _ _ h => by simp [SMap.get] at h, fun _ _ _ _ h => by simp [SMap.get] at h⟩
  | sync u u' m m' b srv allData ord delivered _ hv hb hs hacc hord hu hu' hrun ih =>
    subst hv
    have hm : Synced b tt 0 m := ⟨ih.accounts, fun id d c f hd hf => by
      obtain ⟨k, hk, h1⟩ := ih.feeds id d c f hd hf
      exact ⟨k, le_trans hk (hu id c), h1⟩⟩
    obtain ⟨⟨n, hn⟩, -⟩ := c103_nothing_missed hb ht hs hacc hord hm hrun
    exact ⟨hn.accounts, fun id d c f hd hf => by
      obtain ⟨k, hk, h1⟩ := hn.feeds id d c f hd hf
      exact ⟨k, le_trans hk (hu' n id c), h1⟩⟩

/-! ### An example -/

/-- Times written as one character. -/
def demoTimes : TimeText := ⟨fun s => s.head?.map Int.ofNat, fun t => [(t - 20).toNat]⟩

theorem demoTimes_sound : SoundTimes demoTimes := by
  intro t ht s hs
  simp only [demoTimes, List.head?_cons, Option.map_some, Option.some.injEq] at hs
  subst hs
  simp only [Int.ofNat_eq_natCast, Int.toNat_sub']
  omega

/-- A bank with one account and three versions of two items, the third of which is made between two syncs. -/
def demoFeeds (k : Nat) : Feeds :=
  ⟨fun a c => if a = b!"a" ∧ c = b!"main" then [⟨b!"1", [50], b!"x"⟩, ⟨b!"2", [51], b!"y"⟩, ⟨b!"1", [60], b!"z"⟩] else [], fun _ _ _ => k⟩

/-- Its server. -/
def demoStarling (k : Nat) : StServer :=
  { accounts := some [⟨b!"a", b!"main", [40]⟩]
    identifiers := fun _ _ => true
    feed := fun n a c since => (demoTimes.parse since).map fun s => ((demoFeeds k).upTo n a c).filter fun v =>
      decide (lastSuch (fun i => decide (i.uid = v.uid)) ((demoFeeds k).upTo n a c) = some v) &&
        decide (s ≤ (demoTimes.parse v.updatedAt).getD 0)
    spaces := fun _ _ => some ([], [])
    payees := fun _ => true }

theorem demoFeeds_ok (k : Nat) : (demoFeeds k).Ok demoTimes := by
  refine ⟨?_, ?_, fun _ _ _ _ _ => le_refl _⟩
  · intro a c v hv
    simp only [demoFeeds] at hv
    split at hv
    · simp only [List.mem_cons, List.not_mem_nil, or_false] at hv
      rcases hv with rfl | rfl | rfl
      · exact ⟨50, rfl, by norm_num⟩
      · exact ⟨51, rfl, by norm_num⟩
      · exact ⟨60, rfl, by norm_num⟩
    · simp at hv
  · intro a c
    simp only [demoFeeds]
    split
    · simp [demoTimes]
    · simp

theorem demoStarling_answers (k : Nat) : (demoFeeds k).answers demoTimes (demoStarling k) := by
  intro n a c since items h
  simp only [demoStarling, Option.map_eq_some_iff] at h
  obtain ⟨s, hs, rfl⟩ := h
  refine ⟨s, hs, fun v => ?_⟩
  rw [List.mem_filter, Bool.and_eq_true, decide_eq_true_eq, decide_eq_true_eq]
  constructor
  · rintro ⟨hv, h1, h2⟩
    obtain ⟨t, ht, _⟩ := (demoFeeds_ok k).times a c v (List.mem_of_mem_take hv)
    rw [ht] at h2
    exact ⟨h1, t, ht, h2⟩
  · rintro ⟨h1, t, ht, h2⟩
    refine ⟨(lastSuch_mem h1).1, h1, ?_⟩
    rw [ht]
    exact h2

theorem demoFeeds_opened (k : Nat) : (demoFeeds k).opened demoTimes ⟨b!"a", b!"main", [40]⟩ := by
  intro s hs c v hv t ht
  simp only [demoFeeds] at hv
  split at hv
  · simp only [List.mem_cons, List.not_mem_nil, or_false] at hv
    rcases hv with rfl | rfl | rfl <;> simp [demoTimes] at hs ht <;> omega
  · simp at hv

/-- Two syncs, one before and one after the third version: all hypotheses of `c103_nothing_missed` and `c103_history` can
be met, and the changed item is replaced. -/
example : ∃ m1 m2, StHistory demoTimes (demoFeeds 0).versions (fun _ _ => 2) m1 ∧ StHistory demoTimes (demoFeeds 0).versions (fun _ _ => 3) m2 ∧
    stItem m1 b!"a" b!"main" b!"1" = some ⟨b!"1", [50], b!"x"⟩ ∧ stItem m2 b!"a" b!"main" b!"1" = some ⟨b!"1", [60], b!"z"⟩ := by
  have hrun : ∀ (k : Nat) (u : Str → Str → Nat) (m : SMap StData) (r : StLog × SMap StData), StHistory demoTimes (demoFeeds 0).versions u m →
      (∀ a c, u a c ≤ k) → starlingSync (demoStarling k) (starlingSince demoTimes false) id m = some r →
      StHistory demoTimes (demoFeeds 0).versions (fun _ _ => k) r.2 := by
    intro k u m r h hu hr
    refine .sync u _ m r.2 (demoFeeds k) (demoStarling k) false id r.1 h rfl (demoFeeds_ok k) (demoStarling_answers k) ?_ (fun _ => .refl _) hu
      (fun _ _ _ => le_refl _) hr
    intro as has a ha
    cases has
    simp only [List.mem_singleton] at ha
    subst ha
    exact demoFeeds_opened k
  have h1 := hrun 2 (fun _ _ => 0) [] _ .new (fun _ _ => by norm_num) rfl
  have h2 := hrun 3 _ _ _ h1 (fun _ _ => by norm_num) rfl
  exact ⟨_, _, h1, h2, by decide +kernel, by decide +kernel⟩

/-! ## What is asked for -/

theorem strBefore_lt (a b : Str) : strBefore a b = true ↔ a < b := by
  induction a generalizing b with
  | nil => cases b <;> simp [strBefore]
  | cons x a ih =>
    cases b with
    | nil => simp [strBefore]
    | cons y b =>
      rw [strBefore, List.cons_lt_cons_iff]
      split
      · simp [*]
      · split
        · simp only [Bool.false_eq_true, false_iff]; omega
        · have : x = y := by omega
          simp [this, ih]

theorem recentTime_greatest (f : SMap FeedItem) : ∀ e ∈ f, ¬ recentTime f < e.2.updatedAt := by
  suffices ∀ (l : SMap FeedItem) (r : Str),
      let x := l.foldl (fun r i => if r = [] ∨ strBefore r i.2.updatedAt = true then i.2.updatedAt else r) r
      ¬ x < r ∧ ∀ e ∈ l, ¬ x < e.2.updatedAt from (this f []).2
  intro l
  induction l with
  | nil => intro r; simp [List.lt_irrefl]
  | cons y l ih =>
    intro r
    simp only [List.foldl_cons, List.forall_mem_cons]
    split
    · next h =>
      obtain ⟨h1, h2⟩ := ih y.2.updatedAt
      refine ⟨fun hlt => ?_, h1, h2⟩
      rcases h with h | h
      · rw [h] at hlt; simp at hlt
      · exact h1 (lt_trans hlt ((strBefore_lt _ _).1 h))
    · next h =>
      obtain ⟨h1, h2⟩ := ih r
      refine ⟨h1, fun hlt => ?_, h2⟩
      simp only [not_or] at h
      have : ¬ r < y.2.updatedAt := fun h' => h.2 ((strBefore_lt _ _).2 h')
      exact h1 (lt_of_lt_of_le hlt (not_lt.1 this))

/-- C103, what is asked for: with `--all`, or if nothing is stored of the feed, everything from the opening of the account on; otherwise what changed
since twenty days before the latest change stored, but not from before the opening. -/
theorem c103_asked (tt : TimeText) (a : StAccount) (f : SMap FeedItem) :
    starlingSince tt true a f = some a.createdAt ∧ starlingSince tt false a [] = some a.createdAt ∧
    (f ≠ [] → ∃ e ∈ f, (∀ e' ∈ f, ¬ e.2.updatedAt < e'.2.updatedAt) ∧
      starlingSince tt false a f = (tt.parse e.2.updatedAt).map fun t => if a.createdAt < tt.back t then tt.back t else a.createdAt) := by
  refine ⟨by simp [starlingSince], by simp [starlingSince], fun hf => ?_⟩
  obtain ⟨e, he, h⟩ := recentTime_mem f hf
  refine ⟨e, he, fun e' he' => h ▸ recentTime_greatest f e' he', ?_⟩
  unfold starlingSince
  rw [if_pos ⟨rfl, hf⟩, h]
  cases tt.parse e.2.updatedAt with
  | none => rfl
  | some t =>
    simp only [Option.map_some, Option.some.injEq]
    by_cases hlt : a.createdAt < tt.back t
    · rw [if_pos hlt, if_pos ((strBefore_lt _ _).2 hlt)]
    · rw [if_neg hlt, if_neg fun h' => hlt ((strBefore_lt _ _).1 h')]

end Verif
