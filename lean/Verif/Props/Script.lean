import Verif.Spec.Script
import Mathlib.Data.List.Perm.Basic

/-! # C83, C84, C85: data and amounts in scripts -/

namespace Verif
open Spec

theorem entry_append {α : Type} (k : Str) (l m : List (Str × α)) : entry k (l ++ m) = (entry k m).or (entry k l) := by
  induction l with
  | nil => cases h : entry k m <;> simp [entry, h]
  | cons e l ih =>
    obtain ⟨k', v⟩ := e
    rw [List.cons_append, entry, ih, entry]
    cases entry k m <;> simp

theorem entry_none {α : Type} {k : Str} {l : List (Str × α)} : entry k l = none ↔ k ∉ l.map (·.1) := by
  induction l with
  | nil => simp [entry]
  | cons e l ih =>
    obtain ⟨k', v⟩ := e
    rw [entry, List.map_cons, List.mem_cons, not_or, ← ih]
    by_cases h : k' = k
    · simp [h]
    · simp [h, Ne.symm h]

theorem entry_mem {α : Type} {k : Str} {v : α} {l : List (Str × α)} (h : entry k l = some v) : (k, v) ∈ l := by
  induction l with
  | nil => simp [entry] at h
  | cons e l ih =>
    obtain ⟨k', w⟩ := e
    rw [entry] at h
    cases h2 : entry k l with
    | some x => rw [h2] at h; exact List.mem_cons_of_mem _ (ih (by rw [h2]; simpa using h))
    | none =>
      rw [h2] at h
      by_cases hk : k' = k
      · simp [hk] at h; simp [hk, h]
      · simp [hk] at h

theorem entry_iff {α : Type} {k : Str} {v : α} {l : List (Str × α)} (hn : (l.map (·.1)).Nodup) : entry k l = some v ↔ (k, v) ∈ l := by
  refine ⟨entry_mem, fun h => ?_⟩
  induction l with
  | nil => cases h
  | cons e l ih =>
    obtain ⟨k', w⟩ := e
    rw [List.map_cons, List.nodup_cons] at hn
    rw [entry]
    rcases List.mem_cons.1 h with h | h
    · obtain ⟨rfl, rfl⟩ := Prod.mk.injEq .. ▸ h
      rw [entry_none.2 hn.1]; simp
    · rw [ih hn.2 h]; simp

theorem entry_perm {α : Type} {l l' : List (Str × α)} (hp : l.Perm l') (hn : (l.map (·.1)).Nodup) (k : Str) : entry k l = entry k l' := by
  have hn' : (l'.map (·.1)).Nodup := (hp.map _).nodup_iff.1 hn
  apply Option.ext
  intro v
  rw [entry_iff hn, entry_iff hn', hp.mem_iff]

theorem setKey_keys (k : Str) (v : SVal) (d : List (Str × SVal)) :
    (setKey k v d).map (·.1) = if k ∈ d.map (·.1) then d.map (·.1) else d.map (·.1) ++ [k] := by
  induction d with
  | nil => simp [setKey]
  | cons e d ih =>
    rw [setKey]
    by_cases h : e.1 = k
    · simp [h]
    · rw [if_neg h, List.map_cons, ih, List.map_cons]
      by_cases h2 : k ∈ d.map (·.1)
      · simp only [h2, if_true, List.mem_cons, or_true]
      · have h3 : ¬ k ∈ e.1 :: d.map (·.1) := by rw [List.mem_cons]; exact fun hc => hc.elim (fun hc => h hc.symm) h2
        rw [if_neg h2, if_neg h3]; rfl

theorem setKey_nodup {k : Str} {v : SVal} {d : List (Str × SVal)} (hn : (d.map (·.1)).Nodup) : ((setKey k v d).map (·.1)).Nodup := by
  rw [setKey_keys]
  split
  · exact hn
  · rename_i h
    rw [List.nodup_append]
    exact ⟨hn, by simp, fun a ha b hb => by rw [List.mem_singleton] at hb; subst hb; exact fun hc => h (hc ▸ ha)⟩

theorem setKey_entry {k k' : Str} {v : SVal} {d : List (Str × SVal)} (hn : (d.map (·.1)).Nodup) :
    entry k (setKey k' v d) = if k' = k then some v else entry k d := by
  induction d with
  | nil => simp [setKey, entry]
  | cons e d ih =>
    obtain ⟨k2, w⟩ := e
    rw [List.map_cons, List.nodup_cons] at hn
    rw [setKey]
    by_cases h : k2 = k'
    · subst h
      simp only [if_true, entry]
      by_cases hk : k2 = k
      · subst hk
        rw [entry_none.2 hn.1]; simp
      · simp [hk]
    · simp only [h, if_false, entry]
      rw [ih hn.2]
      by_cases hk : k' = k
      · simp [hk]
      · simp [hk]

theorem toStarlarkList_eq (l : List Json) : toStarlarkList l = l.map toStarlark := by
  induction l with
  | nil => rw [toStarlarkList]; rfl
  | cons j l ih => rw [toStarlarkList, ih]; rfl

theorem toStarlarkObj_entry (k : Str) (l : List (Str × Json)) : ∀ d : List (Str × SVal), (l.map (·.1)).Nodup → (d.map (·.1)).Nodup →
    entry k (toStarlarkObj l d) =
      ((entry k l).bind fun j => if (toStarlark j).isNone then none else some (toStarlark j)).or (entry k d) := by
  induction l with
  | nil => intro d _ _; rw [toStarlarkObj]; simp [entry]
  | cons e l ih =>
    intro d hl hd
    obtain ⟨k', j⟩ := e
    rw [List.map_cons, List.nodup_cons] at hl
    rw [toStarlarkObj, ih _ hl.2 (by split; exact hd; exact setKey_nodup hd), entry]
    by_cases hk : k' = k
    · subst hk
      rw [entry_none.2 hl.1]
      by_cases hj : (toStarlark j).isNone
      · simp [hj]
      · simp only [hj]
        rw [if_neg (by simp), setKey_entry hd]; simp [hj]
    · by_cases hj : (toStarlark j).isNone
      · simp [hj, hk]
      · rw [if_neg hj, setKey_entry hd]; simp [hk]

theorem isNone_iff (j : Json) : (toStarlark j).isNone = true ↔ j = .null := by
  cases j <;> simp [toStarlark, SVal.isNone]

theorem isEntry_cons (s s' : Step) (p : List Step) : isEntry (s :: s' :: p) = isEntry (s' :: p) := by
  unfold isEntry; rw [List.getLast?_cons_cons]

theorem null_look (p : List Step) : Json.look .null p = if p = [] then some .null else none := by
  cases p <;> simp [Json.look]

/-- C83 (partial): at every place of the data a script sees exactly what stands there in the JSON text, except that entries of objects
that are null are missing. -/
theorem c83_every_place_partial (j : Json) (hj : Json.Ok j) (p : List Step) :
    SVal.look (toStarlark j) p = if isEntry p = true ∧ Json.look j p = some .null then none else Json.look j p := by
  induction p generalizing j with
  | nil => cases j <;> simp [toStarlark, SVal.look, Json.look, isEntry, toStarlarkList_eq]
  | cons s p ih =>
    cases j with
    | null => simp [toStarlark, SVal.look, Json.look]
    | bool b => simp [toStarlark, SVal.look, Json.look]
    | num x => simp [toStarlark, SVal.look, Json.look]
    | str s => simp [toStarlark, SVal.look, Json.look]
    | arr l =>
      cases s with
      | key k => simp [toStarlark, SVal.look, Json.look]
      | idx i =>
        rw [toStarlark, SVal.look, Json.look, toStarlarkList_eq, List.getElem?_map]
        cases h : l[i]? with
        | none => simp
        | some j' =>
          have hok : Json.Ok j' := by cases hj with | arr _ h2 => exact h2 _ (List.mem_of_getElem? h)
          simp only [Option.map_some]
          rw [ih j' hok]
          cases p with
          | nil => cases j' <;> simp [isEntry]
          | cons s' p => rw [isEntry_cons]
    | obj l =>
      cases s with
      | idx k => simp [toStarlark, SVal.look, Json.look]
      | key k =>
        cases hj with
        | obj _ hn hv =>
          rw [toStarlark, SVal.look, Json.look, toStarlarkObj_entry k l [] hn (by simp)]
          simp only [entry, Option.or_none]
          cases h : entry k l with
          | none => simp
          | some j' =>
            have hok : Json.Ok j' := hv _ (entry_mem h)
            simp only [Option.bind_some]
            by_cases hnull : (toStarlark j').isNone = true
            · rw [if_pos hnull]
              obtain rfl := (isNone_iff j').1 hnull
              cases p with
              | nil => simp [isEntry, Json.look]
              | cons s' p => simp [Json.look]
            · rw [if_neg hnull]
              simp only
              rw [ih j' hok]
              cases p with
              | nil =>
                have : Json.look j' [] ≠ some .null := by
                  intro hc; apply hnull; cases j' <;> simp [Json.look] at hc <;> simp [toStarlark, SVal.isNone]
                simp [this, isEntry]
              | cons s' p => rw [isEntry_cons]

/-- C83 is false of null entries: they are dropped. -/
theorem c83_null_entry_fails : ¬ ∀ (j : Json), Json.Ok j → ∀ p, SVal.look (toStarlark j) p = Json.look j p := by
  intro h
  have := h (.obj [(b!"fee", .null)]) (.obj _ (by simp) (by intro e he; simp at he; subst he; exact .null)) [.key b!"fee"]
  simp [toStarlark, toStarlarkObj, SVal.look, Json.look, entry, SVal.isNone] at this

theorem look_congr_entry {l l' : List (Str × Json)} (h : ∀ k, entry k l = entry k l') (p : List Step) :
    Json.look (.obj l) p = Json.look (.obj l') p := by
  cases p with
  | nil => rfl
  | cons s p => cases s with
    | idx i => rfl
    | key k => rw [Json.look, Json.look, h]

theorem reordered_ok {j j' : Json} (h : Reordered j j') (hj : Json.Ok j) : Json.Ok j' := by
  induction h with
  | refl _ => exact hj
  | trans _ _ ih1 ih2 => exact ih2 (ih1 hj)
  | perm hp =>
    cases hj with
    | obj _ hn hv => exact .obj _ ((hp.map _).nodup_iff.1 hn) fun e he => hv e (hp.mem_iff.2 he)
  | elem l1 l2 _ ih =>
    cases hj with
    | arr _ hv =>
      refine .arr _ fun x hx => ?_
      rcases List.mem_append.1 hx with hx | hx
      · exact hv x (by simp [hx])
      · rcases List.mem_cons.1 hx with rfl | hx
        · exact ih (hv _ (by simp))
        · exact hv x (by simp [hx])
  | val l1 l2 k _ ih =>
    cases hj with
    | obj _ hn hv =>
      refine .obj _ (by simpa using hn) fun x hx => ?_
      rcases List.mem_append.1 hx with hx | hx
      · exact hv x (by simp [hx])
      · rcases List.mem_cons.1 hx with rfl | hx
        · exact ih (hv (k, _) (by simp))
        · exact hv x (by simp [hx])

theorem reordered_look {j j' : Json} (h : Reordered j j') (hj : Json.Ok j) : ∀ p, Json.look j p = Json.look j' p := by
  induction h with
  | refl _ => intro p; rfl
  | trans h1 _ ih1 ih2 => intro p; rw [ih1 hj, ih2 (reordered_ok h1 hj)]
  | perm hp =>
    cases hj with
    | obj _ hn _ => exact look_congr_entry (entry_perm hp hn)
  | @elem l1 l2 a a' _ ih =>
    intro p
    cases hj with
    | arr _ hv =>
      cases p with
      | nil => simp [Json.look]
      | cons s p =>
        cases s with
        | key k => rfl
        | idx i =>
          rw [Json.look, Json.look]
          by_cases hi : i < l1.length
          · rw [List.getElem?_append_left hi, List.getElem?_append_left hi]
          · rw [List.getElem?_append_right (by omega), List.getElem?_append_right (by omega)]
            cases hd : i - l1.length with
            | zero => simp only [List.getElem?_cons_zero]; exact ih (hv _ (by simp)) p
            | succ m => simp only [List.getElem?_cons_succ]
  | @val l1 l2 k a a' _ ih =>
    intro p
    cases hj with
    | obj _ hn hv =>
      cases p with
      | nil => simp [Json.look]
      | cons s p =>
        cases s with
        | idx i => rfl
        | key k' =>
          rw [Json.look, Json.look, entry_append, entry_append, entry, entry]
          have hk : k ∉ l2.map (·.1) := by
            rw [List.map_append, List.nodup_append] at hn
            have := hn.2.1
            rw [List.map_cons, List.nodup_cons] at this
            exact this.1
          by_cases he : k = k'
          · subst he
            rw [entry_none.2 hk]
            simp only [if_true, Option.none_or, Option.some_or]
            exact ih (hv (k, a) (by simp)) p
          · simp [he]

/-- C83: what a script finds at each place of its data does not depend on the order in which Go walks its maps. -/
theorem c83_any_order (j j' : Json) (hj : Json.Ok j) (h : Reordered j j') (p : List Step) :
    SVal.look (toStarlark j) p = SVal.look (toStarlark j') p := by
  rw [c83_every_place_partial j hj, c83_every_place_partial j' (reordered_ok h hj), reordered_look h hj]

/-- C83 is false of loops over an object: the order of the keys does depend on it. -/
theorem c83_loop_order_fails : ¬ ∀ j j', Json.Ok j → Reordered j j' → SVal.keys (toStarlark j) = SVal.keys (toStarlark j') := by
  intro h
  have := h (.obj [(b!"a", .num (.fin 1)), (b!"b", .num (.fin 2))]) (.obj [(b!"b", .num (.fin 2)), (b!"a", .num (.fin 1))])
    (.obj _ (by simp) (by intro e he; simp at he; rcases he with rfl | rfl <;> exact .num _)) (.perm (List.Perm.swap ..))
  simp [toStarlark, toStarlarkObj, SVal.keys, SVal.isNone, setKey] at this

/-- C83 is false of text after the first value: it is silently ignored. -/
theorem c83_rest_ignored_fails : ¬ ∀ (decode : Str → Option (Json × Str)) (text : Str), (readJSON decode text).isSome →
    ∃ j, decode text = some (j, []) := by
  intro h
  obtain ⟨j, hj⟩ := h (fun t => some (.arr [], t.drop 2)) b!"[] [1]" (by simp [readJSON])
  simp at hj

/-- C83 (partial: see `c83_every_place_partial`): the JSON importer hands the script the first value of the file, and fails only if the file does not
begin with one. -/
theorem c83_file_partial (decode : Str → Option (Json × Str)) (split : Nat → Str → Option (List (List Str))) (cfg : CLIConfig) (hcfg : cfg.typ = b!"json") :
    ∃ rd, importReader decode split cfg = some rd ∧ ∀ text, (decode text = none → rd text = .err) ∧
      ∀ j rest, decode text = some (j, rest) → Json.Ok j → ∃ v, rd text = .ok v ∧
        ∀ p, SVal.look v p = if isEntry p = true ∧ Json.look j p = some .null then none else Json.look j p := by
  refine ⟨_, by simp only [importReader, hcfg]; rfl, fun text => ⟨fun h => by simp only [readJSON, h, Option.map_none], fun j rest h hj => ?_⟩⟩
  exact ⟨toStarlark j, by simp only [readJSON, h, Option.map_some], fun p => c83_every_place_partial j hj p⟩

/-- A value, its reordering and what is seen of it. -/
example : SVal.look (toStarlark (.obj [(b!"t", .arr [.obj [(b!"amt", .str b!"5"), (b!"n", .null)], .null])])) [.key b!"t", .idx 0, .key b!"amt"] =
    some (.str b!"5") := by
  simp [toStarlark, toStarlarkObj, toStarlarkList, SVal.look, entry, SVal.isNone, setKey]

/-! ## CSV -/

theorem dictRow_spec : ∀ (hdr rec : List Str) (d : List (Str × SVal)), rec.length ≤ hdr.length → (d.map (·.1)).Nodup →
    ∃ d', dictRow hdr rec d = some d' ∧ (d'.map (·.1)).Nodup ∧
      ∀ k, entry k d' = ((entry k (hdr.zip rec)).map SVal.str).or (entry k d)
  | hdr, [], d, _, hd => ⟨d, by rw [dictRow], hd, fun k => by simp [entry]⟩
  | [], v :: vs, d, h, hd => by simp at h
  | h :: hs, v :: vs, d, hl, hd => by
    obtain ⟨d', h1, h2, h3⟩ := dictRow_spec hs vs (setKey h (.str v) d) (by simpa using hl) (setKey_nodup hd)
    refine ⟨d', by rw [dictRow]; exact h1, h2, fun k => ?_⟩
    rw [h3, setKey_entry hd, List.zip_cons_cons, entry]
    by_cases hk : h = k
    · cases entry k (hs.zip vs) <;> simp [hk]
    · cases entry k (hs.zip vs) <;> simp [hk]

theorem csvRows_header {hdr : List Str} : ∀ rows : List (List Str), (∀ r ∈ rows, r.length ≤ hdr.length) →
    ∃ l, csvRows true hdr rows = .ok l ∧ l.length = rows.length ∧
      ∀ (i : Nat) (k : Str), SVal.look (.list l) [.idx i, .key k] = (rows[i]?).bind fun r => (entry k (hdr.zip r)).map Seen.str
  | [], _ => ⟨[], rfl, rfl, fun i k => by simp [SVal.look]⟩
  | r :: rows, h => by
    obtain ⟨d, hd1, _, hd3⟩ := dictRow_spec hdr r [] (h r (by simp)) (by simp)
    obtain ⟨l, hl1, hl2, hl3⟩ := csvRows_header rows fun r' hr' => h r' (List.mem_cons_of_mem _ hr')
    refine ⟨.dict d :: l, ?_, by simp [hl2], fun i k => ?_⟩
    · rw [csvRows, if_pos rfl, if_neg (by have := h r (by simp); omega), hd1]
      simp only [hl1]
    · cases i with
      | zero =>
        simp only [SVal.look, List.getElem?_cons_zero, Option.bind_some]
        rw [hd3]
        simp only [entry, Option.or_none]
        cases entry k (hdr.zip r) <;> rfl
      | succ i =>
        have := hl3 i k
        simp only [SVal.look, List.getElem?_cons_succ] at this ⊢
        exact this

theorem csvRows_plain : ∀ rows : List (List Str), csvRows false [] rows = .ok (rows.map fun r => .list (r.map .str))
  | [] => rfl
  | r :: rows => by rw [csvRows, csvRows_plain rows]; simp

/-- C84: with a heading line: the script gets one entry per record, and under each heading the field of the last column of this
heading. -/
theorem c84_headings_exact (split : Nat → Str → Option (List (List Str))) (c : Nat) (text : Str) (hdr : List Str) (rows : List (List Str))
    (hs : split c text = some (hdr :: rows)) (hl : ∀ r ∈ rows, r.length = hdr.length) :
    ∃ v, readCSV split [c] true text = .ok v ∧ SVal.look v [] = some (.list rows.length) ∧
      ∀ (i : Nat) (k : Str), SVal.look v [.idx i, .key k] = (rows[i]?).bind fun r => (entry k (hdr.zip r)).map Seen.str := by
  obtain ⟨l, h1, h2, h3⟩ := csvRows_header (hdr := hdr) rows fun r hr => le_of_eq (hl r hr)
  refine ⟨.list l, ?_, by simp [SVal.look, h2], h3⟩
  have hsf : sameFields (hdr :: rows) = true := by
    unfold sameFields; rw [List.all_eq_true]; exact fun r hr => by simpa using hl r hr
  unfold readCSV
  simp only [hs, hsf, if_true, h1]

/-- C84 (partial): if the headings are distinct, every field of every record is found under its heading. -/
theorem c84_every_field_partial (split : Nat → Str → Option (List (List Str))) (c : Nat) (text : Str) (hdr : List Str) (rows : List (List Str))
    (hs : split c text = some (hdr :: rows)) (hl : ∀ r ∈ rows, r.length = hdr.length) (hn : hdr.Nodup) :
    ∃ v, readCSV split [c] true text = .ok v ∧ SVal.look v [] = some (.list rows.length) ∧
      ∀ (i j : Nat) (hi : i < rows.length) (hj : j < hdr.length), ∃ h : j < (rows[i]).length,
        SVal.look v [.idx i, .key hdr[j]] = some (.str (rows[i])[j]) := by
  obtain ⟨v, h1, h2, h3⟩ := c84_headings_exact split c text hdr rows hs hl
  refine ⟨v, h1, h2, fun i j hi hj => ?_⟩
  have hlen := hl rows[i] (List.getElem_mem hi)
  refine ⟨by omega, ?_⟩
  rw [h3, List.getElem?_eq_getElem hi, Option.bind_some]
  have hz : ((hdr.zip rows[i]).map (·.1)).Nodup := by rw [List.map_fst_zip (by omega)]; exact hn
  have : entry hdr[j] (hdr.zip rows[i]) = some (rows[i])[j] := by
    rw [entry_iff hz, List.mem_iff_getElem]
    exact ⟨j, by rw [List.length_zip]; omega, by rw [List.getElem_zip]⟩
  rw [this]; rfl

/-- C84 is false of repeated headings: only the last of the columns can be reached. -/
theorem c84_repeated_heading_fails : ¬ ∀ (split : Nat → Str → Option (List (List Str))) (c : Nat) (text : Str) (hdr : List Str) (rows : List (List Str)),
    split c text = some (hdr :: rows) → (∀ r ∈ rows, r.length = hdr.length) → ∃ v, readCSV split [c] true text = .ok v ∧
      ∀ (i j : Nat) (hi : i < rows.length) (hj : j < hdr.length), ∃ h : j < (rows[i]).length,
        SVal.look v [.idx i, .key hdr[j]] = some (.str (rows[i])[j]) := by
  intro h
  let sp : Nat → Str → Option (List (List Str)) := fun _ _ => some [[b!"a", b!"a"], [b!"1", b!"2"]]
  obtain ⟨v, h1, h2⟩ := h sp 44 [] [b!"a", b!"a"] [[b!"1", b!"2"]] rfl (by simp)
  obtain ⟨v', h1', _, h3⟩ := c84_headings_exact sp 44 [] [b!"a", b!"a"] [[b!"1", b!"2"]] rfl (by simp)
  rw [h1] at h1'
  cases h1'
  obtain ⟨_, h4⟩ := h2 0 0 (by simp) (by simp)
  rw [h3] at h4
  simp [entry] at h4

/-- C84: without a heading line: the script gets the records as lists, field by field. -/
theorem c84_no_headings (split : Nat → Str → Option (List (List Str))) (c : Nat) (text : Str) (rows : List (List Str))
    (hs : split c text = some rows) (hl : ∀ r ∈ rows, ∀ r' ∈ rows, r.length = r'.length) :
    ∃ v, readCSV split [c] false text = .ok v ∧ SVal.look v [] = some (.list rows.length) ∧
      (∀ i, SVal.look v [.idx i] = (rows[i]?).map fun r => Seen.list r.length) ∧
      ∀ (i j : Nat), SVal.look v [.idx i, .idx j] = (rows[i]?).bind fun r => (r[j]?).map Seen.str := by
  refine ⟨.list (rows.map fun r => .list (r.map .str)), ?_, by simp [SVal.look], fun i => ?_, fun i j => ?_⟩
  · have hsf : sameFields rows = true := by
      cases rows with
      | nil => rfl
      | cons r rows =>
        unfold sameFields; rw [List.all_eq_true]; exact fun r' hr => by simpa using hl r' (by simp [hr]) r (by simp)
    unfold readCSV
    simp only [hs, hsf, if_true, csvRows_plain]
    rfl
  · simp only [SVal.look, List.getElem?_map]
    cases rows[i]? <;> simp [SVal.look]
  · simp only [SVal.look, List.getElem?_map]
    cases rows[i]? with
    | none => rfl
    | some r =>
      simp only [Option.map_some, Option.bind_some, SVal.look, List.getElem?_map]
      cases r[j]? <;> simp [SVal.look]

/-- C84: reading with an importer that passed configuration never crashes, and a file whose records differ in length is an error. -/
theorem c84_no_crash (decode : Str → Option (Json × Str)) (split : Nat → Str → Option (List (List Str))) (cfg : CLIConfig)
    (rd : Str → ReadRes SVal) (h : importReader decode split cfg = some rd) (text : Str) : rd text ≠ .panic := by
  unfold importReader at h
  split at h
  · cases h
  · split at h
    · split at h
      · cases h
      · rename_i hlen
        split at h
        · cases h
        · rename_i header _
          cases h
          generalize cfg.str b!"delim" b!"," = delim at hlen
          match delim, hlen with
          | [], hl => simp at hl
          | _ :: _ :: _, hl => simp at hl
          | [c], _ =>
            unfold readCSV
            simp only
            split
            · simp
            · rename_i recs hrecs
              by_cases hsf : sameFields recs = true
              · rw [if_pos hsf]
                cases header with
                | true =>
                  rw [if_pos rfl]
                  cases recs with
                  | nil => simp
                  | cons hdr rows =>
                    unfold sameFields at hsf
                    rw [List.all_eq_true] at hsf
                    obtain ⟨l, h1, _⟩ := csvRows_header (hdr := hdr) rows fun r hr => by
                      have := hsf r hr
                      simp only [decide_eq_true_eq] at this
                      omega
                    simp only [h1]
                    simp
                | false =>
                  rw [if_neg (by simp), csvRows_plain]
                  simp
              · rw [if_neg hsf]; simp
    · split at h
      · cases h
        simp only
        split <;> simp
      · cases h

/-- A table with distinct headings, and a configuration for it. -/
example : ([b!"Date", b!"Amount"] : List Str).Nodup ∧
    (importReader (fun _ => none) (fun _ _ => none) ⟨b!"csv", [(b!"header", b!"true"), (b!"delim", b!";")]⟩).isSome := by
  decide +kernel

/-! ## Amounts -/

/-- C85 (partial): integers, texts and finite floats given as amounts are taken exactly; anything else is an error (no amount: none). -/
theorem c85_exact_partial (setString : Str → Option Rat) :
    (∀ i : Int, getBigRat setString (.int i) = .num i) ∧
    (∀ s r, setString s = some r → getBigRat setString (.str s) = .num r) ∧
    (∀ s, setString s = none → getBigRat setString (.str s) = .bad) ∧
    (∀ x, getBigRat setString (.float (.fin x)) = .num x) ∧
    ∀ v r, getBigRat setString v = .num r → (∃ i : Int, v = .int i) ∨ (∃ s, v = .str s) ∨ ∃ x, v = .float x := by
  refine ⟨fun i => rfl, fun s r h => by simp [getBigRat, h], fun s h => by simp [getBigRat, h], fun x => rfl, fun v r h => ?_⟩
  cases v with
  | none => simp [getBigRat] at h
  | bool b => simp [getBigRat] at h
  | int i => exact Or.inl ⟨i, rfl⟩
  | float x => exact Or.inr (Or.inr ⟨x, rfl⟩)
  | str s => exact Or.inr (Or.inl ⟨s, rfl⟩)
  | list l => simp [getBigRat] at h
  | dict l => simp [getBigRat] at h
  | other => simp [getBigRat] at h

/-- C85 is false of floats that are no numbers: they silently count as nothing. -/
theorem c85_nan_fails : ¬ ∀ (setString : Str → Option Rat) (x : Flt), (∀ q, x ≠ .fin q) → ∀ r, getBigRat setString (.float x) ≠ .num r := by
  intro h
  exact h (fun _ => none) .nan (by simp) 0 rfl

/-- C85 is false of amounts copied from the ledger: scripts see them as floats, and whatever way these are rounded to binary fractions
some amounts do not come back. -/
theorem c85_copied_amount_fails (setString : Str → Option Rat) (fl : Rat → Rat) (hfl : ∀ x, ∃ (m : Int) (k : Nat), fl x = m / 2 ^ k) :
    ¬ ∀ x, getBigRat setString (postingAmount fl x) = .num x := by
  intro h
  have h1 : fl (1 / 10) = 1 / 10 := by have := h (1 / 10); simpa [getBigRat, postingAmount] using this
  obtain ⟨m, k, hk⟩ := hfl (1 / 10)
  rw [h1] at hk
  have h2 : (2 : Rat) ^ k ≠ 0 := by positivity
  have h3 : (2 : Rat) ^ k = 10 * m := by rw [eq_div_iff h2] at hk; linarith
  have h4 : (2 : Int) ^ k = 10 * m := by exact_mod_cast h3
  have h5 : ∀ n : Nat, (2 : Int) ^ n % 5 ≠ 0 := by
    intro n
    induction n with
    | zero => decide
    | succ n ih => rw [pow_succ]; omega
  exact h5 k (by rw [h4]; omega)

end Verif
