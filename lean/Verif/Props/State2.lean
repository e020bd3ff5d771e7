import Verif.Props.State

namespace Verif
open Spec

/-! # C97: every state a download comes to hold is read back from its file; C101: pending transactions -/

/-- What is read from a text is of that kind. -/
def Codec.Sound {α : Type} (c : Codec α) (ok : α → Prop) : Prop := ∀ j, IsText j → ∀ a, c.dec j = some a → ok a

theorem sound_any (e : JsonEnv) : (anyCodec e).Sound (JsonOf e) := fun j hj _ h => ⟨j, hj, h⟩

theorem sound_rec (e : JsonEnv) (keys : List Str) : (recCodec e keys).Sound (RecOf e keys) := fun j hj _ h => ⟨j, hj, h⟩

theorem sound_ptr {α : Type} {c : Codec α} {ok : α → Prop} (h : c.Sound ok) : c.ptr.Sound (AllAt ok) := by
  intro j hj a ha
  have key : ∀ a, (c.dec j).map some = some a → AllAt ok a := by
    intro a ha
    obtain ⟨b, hb, rfl⟩ := Option.map_eq_some_iff.1 ha
    exact h j hj b hb
  cases j with
  | null =>
    simp only [Codec.ptr, Option.some.injEq] at ha
    subst ha
    trivial
  | bool _ => exact key a ha
  | num _ => exact key a ha
  | str _ => exact key a ha
  | arr _ => exact key a ha
  | obj _ => exact key a ha

theorem sound_map {α : Type} (e : JsonEnv) {c : Codec α} {ok : α → Prop} (h : c.Sound ok) : (Codec.map e c).Sound (AllMap ok) := by
  intro j hj a ha
  cases hj with
  | null =>
    simp only [Codec.map, Option.some.injEq] at ha
    subst ha
    trivial
  | obj l hl =>
    obtain ⟨m, hm, rfl⟩ := Option.map_eq_some_iff.1 ha
    obtain ⟨-, h2, h3, -⟩ := decEntries_get c l [] m hm
    refine ⟨h2 (by simp), fun kv hkv => ?_⟩
    rcases h3 kv hkv with h4 | ⟨x, hx, h4⟩
    · simp at h4
    · exact h x.2 (hl x hx) kv.2 h4
  | bool _ => simp [Codec.map] at ha
  | num _ _ _ => simp [Codec.map] at ha
  | str _ => simp [Codec.map] at ha
  | arr _ _ => simp [Codec.map] at ha

theorem mapM_mem {α β : Type} {f : α → Option β} : ∀ {l : List α} {r : List β}, l.mapM f = some r → ∀ b ∈ r, ∃ a ∈ l, f a = some b := by
  intro l
  induction l with
  | nil =>
    intro r h b hb
    simp only [List.mapM_nil, Option.pure_def, Option.some.injEq] at h
    subst h
    simp at hb
  | cons a l ih =>
    intro r h b hb
    rw [List.mapM_cons] at h
    obtain ⟨x, h1, h2⟩ := Option.bind_eq_some_iff.1 h
    obtain ⟨xs, h3, h4⟩ := Option.bind_eq_some_iff.1 h2
    simp only [Option.pure_def, Option.some.injEq] at h4
    subst h4
    rcases List.mem_cons.1 hb with rfl | hb
    · exact ⟨a, by simp, h1⟩
    · obtain ⟨y, hy, h5⟩ := ih h3 b hb
      exact ⟨y, by simp [hy], h5⟩

theorem sound_slice {α : Type} {c : Codec α} {ok : α → Prop} (h : c.Sound ok) : c.slice.Sound (AllList ok) := by
  intro j hj a ha
  cases hj with
  | null =>
    simp only [Codec.slice, Option.some.injEq] at ha
    subst ha
    trivial
  | arr l hl =>
    obtain ⟨m, hm, rfl⟩ := Option.map_eq_some_iff.1 ha
    intro b hb
    obtain ⟨x, hx, h1⟩ := mapM_mem hm b hb
    exact h x (hl x hx) b h1
  | bool _ => simp [Codec.slice] at ha
  | num _ _ _ => simp [Codec.slice] at ha
  | str _ => simp [Codec.slice] at ha
  | obj _ _ => simp [Codec.slice] at ha

theorem sound_field {α : Type} {c : Codec α} {ok : α → Prop} (h : c.Sound ok) {zero : α} (hz : ok zero) {l : List (Str × Json)}
    (hl : ∀ kv ∈ l, IsText kv.2) {key : Str} {a : α} (ha : c.field zero key l = some a) : ok a := by
  unfold Codec.field at ha
  rw [smap_get_reverse] at ha
  cases hk : entry key l with
  | none =>
    rw [hk] at ha
    cases ha
    exact hz
  | some j =>
    rw [hk] at ha
    exact h j (hl _ (entry_mem hk)) a ha

theorem allMap_put {α : Type} {ok : α → Prop} {m : Option (SMap α)} (h : AllMap ok m) (k : Str) {v : α} (hv : ok v) :
    AllMap ok (some (SMap.put (m.getD []) k v)) := by
  have h' : ((m.getD []).map (·.1)).Nodup ∧ ∀ kv ∈ m.getD [], ok kv.2 := by
    cases m with
    | none => simp
    | some m => exact h
  obtain ⟨h1, h2⟩ := h'
  have hn := (smap_put_keys (m.getD []) k v h1).1
  refine ⟨hn, ?_⟩
  rintro ⟨k', v'⟩ hkv
  have hg := (smap_get_mem hn).2 hkv
  rw [smap_get_put] at hg
  split at hg
  · cases hg
    exact hv
  · exact h2 _ ((smap_get_mem h1).1 hg)

theorem allMap_get {α : Type} {ok : α → Prop} {m : Option (SMap α)} (h : AllMap ok m) {k : Str} {v : α} (hv : (m.getD []).get k = some v) : ok v := by
  cases m with
  | none => simp [SMap.get] at hv
  | some m => exact h.2 _ ((smap_get_mem h.1).1 hv)

theorem monzo_held {e : JsonEnv} {s : MonzoState} (h : MonzoHeld e s) : MonzoOk e s := by
  induction h with
  | new => exact ⟨trivial, trivial⟩
  | read j s hj h =>
    cases hj with
    | obj l hl =>
      simp only [monzoCodec, Option.bind_eq_some_iff, Option.map_eq_some_iff] at h
      obtain ⟨t, ht, a, ha, rfl⟩ := h
      exact ⟨sound_field (sound_map e (sound_ptr (sound_rec e _))) (by exact trivial) hl ht, sound_field (sound_map e (sound_ptr (sound_rec e _))) (by exact trivial) hl ha⟩
    | null =>
      simp only [monzoCodec, Option.some.injEq] at h
      subst h
      exact ⟨trivial, trivial⟩
    | _ => simp [monzoCodec] at h
  | transaction s k d r _ hd hr ih => exact ⟨allMap_put ih.1 k (v := some r) ⟨d, hd, hr⟩, ih.2⟩
  | account s k d r _ hd hr ih => exact ⟨ih.1, allMap_put ih.2 k (v := some r) ⟨d, hd, hr⟩⟩

/-- **C97**: whatever Monzo data a download has come to hold, its file is read back as it was written. -/
theorem c97_monzo_file (e : JsonEnv) (he : SoundJson e) (s zero : MonzoState) (hs : MonzoHeld e s) :
    ∃ s', loadState (monzoCodec e) zero (some ((monzoCodec e).enc s)) = some s' ∧ SameMonzo s s' :=
  c97_reload_monzo e he s zero (monzo_held hs)

theorem sound_spaces (e : JsonEnv) : (spacesCodec e).Sound
    (fun t => AllList (RecOf e savingsGoalKeys) t.savings ∧ AllList (RecOf e spendingSpaceKeys) t.spending) := by
  intro j hj s h
  cases hj with
  | obj l hl =>
    simp only [spacesCodec, Option.bind_eq_some_iff, Option.map_eq_some_iff] at h
    obtain ⟨t, ht, a, ha, rfl⟩ := h
    exact ⟨sound_field (sound_slice (sound_rec e _)) (by exact trivial) hl ht, sound_field (sound_slice (sound_rec e _)) (by exact trivial) hl ha⟩
  | null =>
    simp only [spacesCodec, Option.some.injEq] at h
    subst h
    exact ⟨trivial, trivial⟩
  | _ => simp [spacesCodec] at h

theorem json_null (e : JsonEnv) : JsonOf e .null := ⟨.null, .null, by simp [goValue]⟩

theorem sound_starlingAcct (e : JsonEnv) : (starlingAcctCodec e).Sound (StarlingAcctOk e) := by
  intro j hj s h
  cases hj with
  | obj l hl =>
    simp only [starlingAcctCodec, Option.bind_eq_some_iff, Option.map_eq_some_iff] at h
    obtain ⟨a, ha, b, hb, c, hc, d, hd, rfl⟩ := h
    exact ⟨sound_field (sound_ptr (sound_rec e _)) (by exact trivial) hl ha, sound_field (sound_ptr (sound_spaces e)) (by exact trivial) hl hb,
      sound_field (sound_any e) (json_null e) hl hc, sound_field (sound_map e (sound_map e (sound_ptr (sound_rec e _)))) (by exact trivial) hl hd⟩
  | null =>
    simp only [starlingAcctCodec, Option.some.injEq] at h
    subst h
    exact ⟨trivial, trivial, json_null e, trivial⟩
  | _ => simp [starlingAcctCodec] at h

theorem starlingAcct_held {e : JsonEnv} {s : StarlingAcctState} (h : StarlingAcctHeld e s) : StarlingAcctOk e s := by
  induction h with
  | new => exact ⟨trivial, trivial, json_null e, trivial⟩
  | read j s hj h => exact sound_starlingAcct e j hj s h
  | account s d r _ hd hr ih => exact ⟨⟨d, hd, hr⟩, ih.2⟩
  | spaces s d r _ hd hr ih => exact ⟨ih.1, sound_ptr (sound_spaces e) d hd r hr, ih.2.2⟩
  | identifiers s d r _ hd hr ih => exact ⟨ih.1, ih.2.1, ⟨d, hd, hr⟩, ih.2.2.2⟩
  | item s c k d r _ hd hr ih =>
    refine ⟨ih.1, ih.2.1, ih.2.2.1, allMap_put ih.2.2.2 c ?_⟩
    refine allMap_put (m := ((s.feeditems.getD []).get c).getD none) ?_ k (v := some r) ⟨d, hd, hr⟩
    cases hg : (s.feeditems.getD []).get c with
    | none => trivial
    | some f => exact allMap_get ih.2.2.2 hg

theorem starling_held {e : JsonEnv} {s : StarlingState} (h : StarlingHeld e s) : StarlingOk e s := by
  induction h with
  | new => exact ⟨trivial, trivial⟩
  | read j s hj h =>
    cases hj with
    | obj l hl =>
      simp only [starlingCodec, Option.bind_eq_some_iff, Option.map_eq_some_iff] at h
      obtain ⟨t, ht, a, ha, rfl⟩ := h
      exact ⟨sound_field (sound_map e (sound_ptr (sound_starlingAcct e))) (by exact trivial) hl ht, sound_field (sound_slice (sound_any e)) (by exact trivial) hl ha⟩
    | null =>
      simp only [starlingCodec, Option.some.injEq] at h
      subst h
      exact ⟨trivial, trivial⟩
    | _ => simp [starlingCodec] at h
  | account s k a _ ha ih => exact ⟨allMap_put ih.1 k (v := some a) (starlingAcct_held ha), ih.2⟩
  | payees s d l _ hd hr ih => exact ⟨ih.1, sound_slice (sound_any e) d hd l hr⟩

/-- **C97**: the same for Starling. -/
theorem c97_starling_file (e : JsonEnv) (he : SoundJson e) (s zero : StarlingState) (hs : StarlingHeld e s) :
    ∃ s', loadState (starlingCodec e) zero (some ((starlingCodec e).enc s)) = some s' ∧ SameStarling s s' :=
  c97_reload_starling e he s zero (starling_held hs)

theorem sound_nordAcct (e : JsonEnv) : (nordAcctCodec e).Sound (NordAcctOk e) := by
  intro j hj s h
  cases hj with
  | obj l hl =>
    simp only [nordAcctCodec, Option.bind_eq_some_iff, Option.map_eq_some_iff] at h
    obtain ⟨a, ha, b, hb, c, hc, rfl⟩ := h
    exact ⟨sound_field (sound_any e) (json_null e) hl ha, sound_field (sound_any e) (json_null e) hl hb,
      sound_field (sound_map e (sound_ptr (sound_rec e _))) (by exact trivial) hl hc⟩
  | null =>
    simp only [nordAcctCodec, Option.some.injEq] at h
    subst h
    exact ⟨json_null e, json_null e, trivial⟩
  | _ => simp [nordAcctCodec] at h

theorem nordAcct_held {e : JsonEnv} {s : NordAcctState} (h : NordAcctHeld e s) : NordAcctOk e s := by
  induction h with
  | new => exact ⟨json_null e, json_null e, trivial⟩
  | read j s hj h => exact sound_nordAcct e j hj s h
  | basic s d r _ hd hr ih => exact ⟨⟨d, hd, hr⟩, ih.2⟩
  | details s d r _ hd hr ih => exact ⟨ih.1, ⟨d, hd, hr⟩, ih.2.2⟩
  | transaction s k d r _ hd hr ih => exact ⟨ih.1, ih.2.1, allMap_put ih.2.2 k (v := some r) ⟨d, hd, hr⟩⟩

theorem nord_held {e : JsonEnv} {s : NordState} (h : NordHeld e s) : NordOk e s := by
  induction h with
  | new => exact ⟨trivial, trivial, trivial⟩
  | read j s hj h =>
    cases hj with
    | obj l hl =>
      simp only [nordCodec, Option.bind_eq_some_iff, Option.map_eq_some_iff] at h
      obtain ⟨t, ht, a, ha, b, hb, rfl⟩ := h
      refine ⟨sound_field (sound_map e (sound_ptr (sound_nordAcct e))) (by exact trivial) hl ht, sound_field (sound_ptr (sound_rec e _)) (by exact trivial) hl ha, ?_⟩
      exact sound_field (sound_ptr (c := requisitionCodec e) (ok := fun r => ∃ d, IsText d ∧ (requisitionCodec e).dec d = some r)
        (fun j hj _ h => ⟨j, hj, h⟩)) (by exact trivial) hl hb
    | null =>
      simp only [nordCodec, Option.some.injEq] at h
      subst h
      exact ⟨trivial, trivial, trivial⟩
    | _ => simp [nordCodec] at h
  | account s k a _ ha ih => exact ⟨allMap_put ih.1 k (v := some a) (nordAcct_held ha), ih.2⟩
  | institution s d r _ hd hr ih => exact ⟨ih.1, ⟨d, hd, hr⟩, ih.2.2⟩
  | requisition s d r _ hd hr ih => exact ⟨ih.1, ih.2.1, ⟨d, hd, hr⟩⟩

/-- **C97**: the same for Nordigen. -/
theorem c97_nordigen_file (e : JsonEnv) (he : SoundJson e) (s zero : NordState) (hs : NordHeld e s) :
    ∃ s', loadState (nordCodec e) zero (some ((nordCodec e).enc s)) = some s' ∧ SameNord s s' :=
  c97_reload_nordigen e he s zero (nord_held hs)

/-! ## C101 -/

theorem nordReply_eq (e : JsonEnv) (booked pending : List Json) : nordReply e (reply booked pending) =
    (booked.mapM (recCodec e nordigenTransactionKeys).dec).bind fun b => (pending.mapM (recCodec e nordigenTransactionKeys).dec).map fun p => (b, p) := by
  have hb : SMap.get [(b!"booked", Json.arr booked), (b!"pending", Json.arr pending)].reverse b!"booked" = some (.arr booked) := by
    rw [smap_get_reverse]
    simp [entry]
  have hp : SMap.get [(b!"booked", Json.arr booked), (b!"pending", Json.arr pending)].reverse b!"pending" = some (.arr pending) := by
    rw [smap_get_reverse]
    simp [entry]
  have ht : SMap.get [(b!"transactions", Json.obj [(b!"booked", Json.arr booked), (b!"pending", Json.arr pending)])].reverse b!"transactions" =
      some (.obj [(b!"booked", .arr booked), (b!"pending", .arr pending)]) := by
    rw [smap_get_reverse]
    simp [entry]
  have hall1 : ([(b!"transactions", Json.obj [(b!"booked", Json.arr booked), (b!"pending", Json.arr pending)])].all
      fun kv => decide (kv.1 = b!"transactions")) = true := by simp
  have hall2 : ([(b!"booked", Json.arr booked), (b!"pending", Json.arr pending)].all
      fun kv => decide (kv.1 = b!"booked" ∨ kv.1 = b!"pending")) = true := by simp
  simp only [nordReply, reply]
  rw [if_pos hall1, ht]
  simp only
  rw [if_pos hall2]
  simp only [Codec.field, hb, hp, Codec.slice]
  cases booked.mapM (recCodec e nordigenTransactionKeys).dec with
  | none => simp
  | some b =>
    cases pending.mapM (recCodec e nordigenTransactionKeys).dec with
    | none => simp
    | some p => simp

theorem moderate_text {d : Json} (h : Moderate d) : IsText d := by
  induction h with
  | null => exact .null
  | bool b => exact .bool b
  | num q n h _ => exact .num q n h
  | str s => exact .str s
  | arr l _ ih => exact .arr l ih
  | obj l _ ih => exact .obj l ih

theorem moderate_reads {e : JsonEnv} (he : SoundJson e) {d : Json} (h : Moderate d) : ∃ v, goValue e d = some v := by
  induction h with
  | null => exact ⟨.null, by simp [goValue]⟩
  | bool b => exact ⟨.bool b, by simp [goValue]⟩
  | num q n _ h =>
    obtain ⟨x, hx⟩ := he.reads q h
    exact ⟨_, by rw [goValue, hx]; rfl⟩
  | str s => exact ⟨.str s, by simp [goValue]⟩
  | arr l _ ih =>
    have key : ∀ l : List Json, (∀ j ∈ l, ∃ v, goValue e j = some v) → ∃ vs, goList e l = some vs := by
      intro l
      induction l with
      | nil => intro _; exact ⟨[], by simp [goList]⟩
      | cons j l ih =>
        intro h
        obtain ⟨v, hv⟩ := h j (by simp)
        obtain ⟨vs, hvs⟩ := ih (fun j hj => h j (by simp [hj]))
        exact ⟨v :: vs, by rw [goList, hv, hvs]; rfl⟩
    obtain ⟨vs, hvs⟩ := key l ih
    exact ⟨.arr vs, by rw [goValue, hvs]; rfl⟩
  | obj l _ ih =>
    obtain ⟨m, hm⟩ := decEntries_some (anyCodec e) l ih []
    exact ⟨.obj m, by rw [goValue, goMap_eq, hm]; rfl⟩

/-- A transaction can be read if it has an id. -/
theorem nord_reads {e : JsonEnv} (he : SoundJson e) {d : Json} (hd : Moderate d) : (∃ r, (recCodec e nordigenTransactionKeys).dec d = some r) ↔ HasId d := by
  obtain ⟨v, hv⟩ := moderate_reads he hd
  have hh := goValue_held (moderate_text hd) v hv
  have hl : ∀ s, getStringValue v b!"transactionId" = some s ↔ Json.look d [.key b!"transactionId"] = some (.str s) := by
    intro s
    rw [gsv_look hh, goValue_look e _ d v hv]
    constructor
    · intro h
      obtain ⟨w, h1, h2⟩ := Option.bind_eq_some_iff.1 h
      rw [h1]
      cases w with
      | num x => cases x <;> simp [readNum] at h2
      | _ => simpa [readNum] using h2
    · intro h
      rw [h]
      rfl
  have hdec : (recCodec e nordigenTransactionKeys).dec d = (getStringValue v b!"transactionId").map fun s => ⟨[s], v⟩ := by
    simp only [recCodec, hv, Option.bind_some, nordigenTransactionKeys, List.mapM_cons, List.mapM_nil]
    cases getStringValue v b!"transactionId" <;> rfl
  rw [hdec]
  constructor
  · rintro ⟨r, h⟩
    obtain ⟨s, hs, _⟩ := Option.map_eq_some_iff.1 h
    exact ⟨s, (hl s).1 hs⟩
  · rintro ⟨s, hs⟩
    exact ⟨⟨[s], v⟩, by rw [(hl s).2 hs]; rfl⟩

theorem mapM_reads {α β : Type} (f : α → Option β) (l : List α) : (∃ r, l.mapM f = some r) ↔ ∀ a ∈ l, ∃ b, f a = some b := by
  induction l with
  | nil => simp
  | cons a l ih =>
    rw [List.mapM_cons]
    simp only [List.mem_cons, forall_eq_or_imp]
    rw [← ih]
    constructor
    · rintro ⟨r, h⟩
      obtain ⟨x, h1, h2⟩ := Option.bind_eq_some_iff.1 h
      obtain ⟨xs, h3, _⟩ := Option.bind_eq_some_iff.1 h2
      exact ⟨⟨x, h1⟩, xs, h3⟩
    · rintro ⟨⟨x, h1⟩, xs, h2⟩
      exact ⟨x :: xs, by rw [h1, h2]; rfl⟩

/-- **C101** (partial: pending transactions that have an id).  What is received of the booked transactions does not depend
on the pending ones exactly if all of those have an id. -/
theorem c101_pending_partial (e : JsonEnv) (he : SoundJson e) (booked pending : List Json) (hb : ∀ d ∈ booked, Moderate d ∧ HasId d)
    (hp : ∀ d ∈ pending, Moderate d) :
    ((nordReply e (reply booked pending)).map (·.1) = (nordReply e (reply booked [])).map (·.1) ↔ ∀ d ∈ pending, HasId d) ∧
    (∀ r, nordReply e (reply booked pending) = some r → List.Forall₂ (fun d t => (recCodec e nordigenTransactionKeys).dec d = some t) booked r.1) := by
  obtain ⟨b, hb'⟩ := (mapM_reads (recCodec e nordigenTransactionKeys).dec booked).2 (fun d hd => (nord_reads he (hb d hd).1).2 (hb d hd).2)
  rw [nordReply_eq, nordReply_eq, hb']
  constructor
  · have : (∀ d ∈ pending, HasId d) ↔ ∃ p, pending.mapM (recCodec e nordigenTransactionKeys).dec = some p := by
      rw [mapM_reads]
      exact forall₂_congr fun d hd => (nord_reads he (hp d hd)).symm
    rw [this]
    cases pending.mapM (recCodec e nordigenTransactionKeys).dec with
    | none => simp
    | some p => simp
  · intro r hr
    obtain ⟨p, _, rfl⟩ := Option.map_eq_some_iff.1 hr
    clear hr
    have key : ∀ (l : List Json) (b : List Rec), l.mapM (recCodec e nordigenTransactionKeys).dec = some b →
        List.Forall₂ (fun d t => (recCodec e nordigenTransactionKeys).dec d = some t) l b := by
      intro l
      induction l with
      | nil => intro b h; cases h; exact .nil
      | cons d l ih =>
        intro b h
        rw [List.mapM_cons] at h
        obtain ⟨x, h1, h2⟩ := Option.bind_eq_some_iff.1 h
        obtain ⟨xs, h3, h4⟩ := Option.bind_eq_some_iff.1 h2
        cases h4
        exact .cons h1 (ih xs h3)
    exact key booked b hb'

/-- C101 is false of the code: one pending transaction without an id, and nothing is received. -/
theorem c101_pending_fails (e : JsonEnv) (he : SoundJson e) : ¬ ∀ booked pending : List Json, (∀ d ∈ booked, Moderate d ∧ HasId d) → (∀ d ∈ pending, Moderate d) →
    (nordReply e (reply booked pending)).map (·.1) = (nordReply e (reply booked [])).map (·.1) := by
  intro h
  have hm : Moderate (.obj []) := .obj [] (by simp)
  have := (c101_pending_partial e he [] [.obj []] (by simp) (by simpa using hm)).1.1 (h [] [.obj []] (by simp) (by simpa using hm)) (.obj []) (by simp)
  obtain ⟨s, hs⟩ := this
  simp [Json.look, entry] at hs

/-- Transactions that meet the hypotheses. -/
example : Moderate (.obj [(b!"transactionId", .str b!"t1"), (b!"amount", .num (.fin 5))]) ∧
    HasId (.obj [(b!"transactionId", .str b!"t1"), (b!"amount", .num (.fin 5))]) := by
  refine ⟨.obj _ ?_, b!"t1", by simp [Json.look, entry]⟩
  intro kv hkv
  simp only [List.mem_cons, List.not_mem_nil, or_false] at hkv
  rcases hkv with rfl | rfl
  · exact .str _
  · refine .num 5 1 ⟨5, 0, by norm_num, by norm_num⟩ ?_
    calc |(5 : Rat)| ≤ 10 ^ 1 := by norm_num
      _ ≤ 10 ^ 300 := pow_le_pow_right₀ (by norm_num) (by omega)

/-- Monzo data that was received, stored and loaded again. -/
example : ∃ r s, (recCodec demoJson monzoTransactionKeys).dec demoMonzoTxn = some r ∧
    s = (⟨some (SMap.put [] b!"tx1" (some r)), none⟩ : MonzoState) ∧ MonzoHeld demoJson s := by
  obtain ⟨r, hr⟩ : ∃ r, (recCodec demoJson monzoTransactionKeys).dec demoMonzoTxn = some r := by
    obtain ⟨r, hr, _⟩ := demoMonzoTxn_ok.2.1
    exact ⟨r, hr⟩
  exact ⟨r, _, hr, rfl, .transaction _ _ _ _ .new demoMonzoTxn_ok.1 hr⟩

end Verif
