import Verif.Proofs.Again
import Verif.Props.Parts

/-! # C125: the same command on the same files -/

namespace Verif

open Spec

theorem posts_filed {ps : List Call} (h : ∀ x ∈ ps, ∃ a c v n, x = Call.addPosting a c v n) {cs : List Call} {taken ns : List (Int × Str)} :
    FiledAs taken (ps ++ cs) ns ↔ FiledAs taken cs ns := by
  induction ps with
  | nil => exact Iff.rfl
  | cons x ps ih =>
    obtain ⟨a, c, v, n, rfl⟩ := h x (List.mem_cons_self ..)
    rw [List.cons_append]
    constructor
    · intro hf
      cases hf with
      | addPosting _ _ _ _ _ _ _ hf => exact (ih fun y hy => h y (List.mem_cons_of_mem _ hy)).1 hf
    · intro hf
      exact .addPosting _ _ _ _ _ _ _ ((ih fun y hy => h y (List.mem_cons_of_mem _ hy)).2 hf)

theorem shuffled_filed {cs cs' : List Call} (h : Shuffled cs cs') : ∀ {taken ns : List (Int × Str)}, FiledAs taken cs ns → FiledAs taken cs' ns := by
  induction h with
  | nil => intro taken ns hf; exact hf
  | cons c cs cs' _ ih =>
    intro taken ns hf
    cases hf with
    | addPosting _ _ _ _ _ _ _ hf => exact .addPosting _ _ _ _ _ _ _ (ih hf)
    | addPrice _ _ _ _ _ _ _ hf => exact .addPrice _ _ _ _ _ _ _ (ih hf)
    | fresh _ _ _ _ _ _ h1 hf => exact .fresh _ _ _ _ _ _ h1 (ih hf)
    | again _ _ _ _ _ _ k h1 h2 h3 h4 hf => exact .again _ _ _ _ _ _ k h1 h2 h3 h4 (ih hf)
  | posts ps ps' cs cs' hp hx _ ih =>
    intro taken ns hf
    exact (posts_filed fun x hx' => hx x (hp.mem_iff.2 hx')).2 (ih ((posts_filed hx).1 hf))

/-- Two readings of a file make books that are alike. -/
theorem built_shuffled {srt srt' : List Posting → List Posting} (hs : IsSort srt) (hs' : IsSort srt') {cs cs' : List Call} (h : Shuffled cs cs') {b b' : Book}
    (hb : Built srt cs b) (hb' : Built srt' cs' b') : SameBook b b' := by
  obtain ⟨bb, h1, h2⟩ := hb
  obtain ⟨bb', h1', h2'⟩ := hb'
  obtain ⟨f1, f2, f3⟩ := h.facts
  have n : issued Builder.new cs = issued Builder.new cs' :=
    c02_one_filing (shuffled_filed h (filedAs_aux cs _ bb [] seenInv_new h1)) (filedAs_aux cs' _ bb' [] seenInv_new h1')
  exact built_entries hs hs' h1 h1' n rfl (f3 _ _) f2 h2 h2'

theorem ends_trans {α : Type} {R S T : α → α → Prop} (hR : ∀ x y z, R x y → S y z → T x z) {x y z : CmdEnd α} (h : EndsLike R x y) (k : EndsLike S y z) :
    EndsLike T x z := by
  cases x <;> cases y <;> simp only [EndsLike] at h <;> cases z <;> simp only [EndsLike] at k <;> simp only [EndsLike] <;> exact hR _ _ _ h k

theorem sameReport_trans {r : ReportConf} {x y z : List Txn} (h : SameReport r x y) (k : SameReport r y z) : SameReport r x z := by
  unfold SameReport SameRows SameTxns at *
  split at h
  · rw [if_pos ‹_›] at k; rw [if_pos ‹_›]; exact h.trans k
  · rw [if_neg ‹_›] at k; rw [if_neg ‹_›]; exact h.trans k

/-- The books of two runs. -/
def AgainBook (b b' : Book) : Prop := ∃ m, GoodPair b m ∧ NearBook m b'

/-- The operations in two runs. -/
theorem again_ops {e : OpEnv} (he : e.Ok) {srt' : List Posting → List Posting} {walk' : (Str → Bool) → (Str → Str) → PriceBook → PriceBook}
    (he' : (e.again srt' walk').Ok) {a : AppConf} {args flat : List Str} (hx : Expansion a.macros args flat) :
    ∃ n, ∀ fuel fuel', n ≤ fuel → n ≤ fuel' → ∀ b b', AgainBook b b' → ClearOps e flat b.prices →
      EndsLike AgainBook (opsCmd e fuel a args b) (opsCmd (e.again srt' walk') fuel' a args b') := by
  have hes : (e.sorting srt').Ok := ⟨he'.1, he.2⟩
  obtain ⟨n, hn⟩ := near_ops (e := e.sorting srt') hes (walk' := walk') he' hx
  refine ⟨n, fun fuel fuel' h1 h2 b b' hb hc => ?_⟩
  obtain ⟨m, g, hm⟩ := hb
  have k1 := ops_like he.1 he'.1 fuel a args g
  have hcl : ∀ (flat : List Str) (q : PriceBook), ClearOps e flat q ↔ ClearOps (e.sorting srt') flat q := by
    intro flat
    induction flat with
    | nil => intro q; exact Iff.rfl
    | cons op flat ih =>
      intro q
      unfold ClearOps
      have : parsePrim (e.sorting srt') op = parsePrim e op := rfl
      rw [this]
      cases parsePrim e op with
      | none => exact ih q
      | some p => cases p <;> first | exact and_congr Iff.rfl (ih _) | exact ih q
  have k2 := hn fuel fuel' h1 h2 m b' hm (by rw [← hcl, ← g.2.2.prices]; exact hc)
  exact ends_trans (fun x y z hx hy => ⟨y, hx, hy⟩) k1 k2

/-- The reports of two runs. -/
theorem again_report {e : OpEnv} (he : e.Ok) {srt' : List Posting → List Posting} {walk' : (Str → Bool) → (Str → Str) → PriceBook → PriceBook}
    (he' : (e.again srt' walk').Ok) {a : AppConf} (hd : a.divider ≠ []) (r : ReportConf) {o o' : Int → Str → List Str → List Str}
    (ho : ∀ d py l, (o d py l).Perm l) (ho' : ∀ d py l, (o' d py l).Perm l) {b b' : Book} (h : AgainBook b b') :
    EndsLike (SameReport r) (reportTxns e a r o b) (reportTxns (e.again srt' walk') a r o' b') := by
  obtain ⟨m, g, hm⟩ := h
  have := near_report (e := e.sorting srt') (walk' := walk') a r o' hm
  have k : EndsLike (SameReport r) (reportTxns e a r o b) (reportTxns (e.sorting srt') a r o' m) := reportTxns_like he.1 he'.1 (a := a) hd r ho ho' g
  rw [this] at k
  exact k

/-- **C125** (partial: the currencies are renamed clearly): run again on the same files, a report command shows the same, whatever the sorting algorithm does with equal keys and
in whatever order the maps (amounts of an open transaction, prices, accounts of a summary) are walked. -/
theorem c125_again_partial (le : Env) (he : le.Ok) (hl : PlainLetters le) (ord' : Builder → List (Str × Rat)) (he' : (le.again ord').Ok)
    (fs : Str → Option (List FileLine)) (hdisk : OnDisk le fs) (a : AppConf) (ls : List FileLine) (hf : fs a.ledger = some ls)
    (e : OpEnv) (hok : e.Ok) (srt' : List Posting → List Posting) (walk' : (Str → Bool) → (Str → Str) → PriceBook → PriceBook) (hok' : (e.again srt' walk').Ok)
    (hd : a.divider ≠ []) (r : ReportConf) (o o' : Int → Str → List Str → List Str) (ho : ∀ d py l, (o d py l).Perm l) (ho' : ∀ d py l, (o' d py l).Perm l)
    (args flat : List Str) (hx : Expansion a.macros args flat) (depth : Nat) (b0 : Book) (h0 : loadCmd le depth e.srt a = .ok b0)
    (hc : ClearOps e flat b0.prices) :
    ∃ n, ∀ depth' fuel fuel', n ≤ depth' → n ≤ fuel → n ≤ fuel' →
      EndsLike (SameReport r) (reportCmd le depth e fuel a r o args) (reportCmd (le.again ord') depth' (e.again srt' walk') fuel' a r o' args) := by
  have h0' := loadCmd_book h0
  obtain ⟨ds, s1, b1, hbal⟩ := c96_loaded_book he hl hdisk hf h0'
  have hl' : PlainLetters (le.again ord') := ⟨hl.letter, hl.space⟩
  have hdisk' : OnDisk (le.again ord') fs := hdisk
  obtain ⟨n1, hn1⟩ := c96_balanced_loads he' hl' hdisk' hf s1 hbal srt'
  obtain ⟨n2, hn2⟩ := again_ops hok hok' hx
  refine ⟨max n1 n2, fun depth' fuel fuel' i1 i2 i3 => ?_⟩
  obtain ⟨bk, hbk⟩ := hn1 depth' (le_trans (le_max_left _ _) i1)
  obtain ⟨ds', s1', b1', _⟩ := c96_loaded_book he' hl' hdisk' hf hbk
  have hsame := built_shuffled hok.1 hok'.1 (readings_shuffled s1 [] ds' (.refl _) s1') b1 b1'
  have l2 : loadCmd (le.again ord') depth' srt' a = .ok bk := by unfold loadCmd; rw [hbk]
  unfold reportCmd
  rw [h0, show (e.again srt' walk').srt = srt' from rfl, l2]
  exact EndsLike.bind (hn2 fuel fuel' (le_trans (le_max_right _ _) i2) (le_trans (le_max_right _ _) i3) b0 bk
    ⟨bk, ⟨b1.wf hok.1, b1'.wf hok'.1, hsame⟩, ⟨rfl, rfl, fun _ => rfl⟩⟩ hc) fun b b' hb => again_report hok hok' hd r ho ho' hb

/-! ## Examples -/

/-- Any order of the keys is a way to range. -/
theorem walkKeys_perm (ρ : Str × Str → Str × Str) : ∀ (ks todo fresh : List (Str × Str)) (m : PriceBook), todo.Perm ks → RangeRun ρ todo fresh m (walkKeys ρ ks m) := by
  intro ks
  induction ks with
  | nil => intro todo fresh m h; rw [h.eq_nil]; exact .done _ _
  | cons k ks ih =>
    intro todo fresh m h
    have hk : k ∈ todo := h.mem_iff.2 List.mem_cons_self
    have he : (todo.erase k).Perm ks := by
      have := h.erase k
      rwa [List.erase_cons_head] at this
    simp only [walkKeys]
    cases hf : m.find k with
    | none => exact .gone k _ _ _ _ hk hf (ih _ _ _ he)
    | some pl => exact .visit k pl _ _ _ _ hk hf (ih _ _ _ he)

/-- The prices walked in the opposite order. -/
def walkBack (mat : Str → Bool) (rep : Str → Str) (m : PriceBook) : PriceBook := walkKeys (renamePair mat rep) (m.map (·.1)).dedup.reverse m

/-- An environment whose patterns are the currencies of one letter in the pattern. -/
def againOps : OpEnv := { okOps with valid := fun _ => true, mat := fun s c => decide (c.length = 1) && c.all (fun x => decide (x ∈ s)), rep := fun _ r _ => r }

theorem againOps_ok : againOps.Ok := ⟨insSort_isSort, fun _ _ _ => walkKeys_run _ _ _ _⟩

theorem againOps_back : (againOps.again insSort walkBack).Ok := ⟨insSort_isSort, fun _ _ _ => walkKeys_perm _ _ _ _ _ (List.reverse_perm _).symm⟩

def againLines : List FileLine := [
  demoMain[3],
  .price {
    sp0 := [32], day := ⟨b!"2020", b!"01", b!"02"⟩, date := ⟨2020, 1, 2⟩, sp1 := [32], hour := b!"00", minute := b!"00", second := b!"00",
    sp2 := [32], unitQuoted := false, unit := b!"W", sp3 := [32], ccyFirst := false, quoted := false, ccy := b!"Y", sp4 := [32],
    num := ⟨false, b!"3", none⟩ }] ++ partOne

def againDisk (f : Str) : Option (List FileLine) := if f = b!"main" then some againLines else none

def againEnv : Env := demoEnv [(b!"main", fileText againLines)]

example : fileText againLines =
    b!"P 2020/01/02 00:00:00 X 1.5 Y\nP 2020/01/02 00:00:00 W 3 Y\n2020/1/2 * shop ; note\n  A 5 X\n  B -5 X\n" := by decide +kernel

theorem again_disk : OnDisk againEnv againDisk := by
  intro f ls hf
  unfold againDisk at hf
  split at hf
  · rename_i h
    cases h; cases hf
    refine ⟨by decide +kernel, fun l hl => ?_⟩
    unfold againLines at hl
    rcases List.mem_append.1 hl with hl | hl
    · simp only [List.mem_cons, List.not_mem_nil, or_false] at hl
      rcases hl with rfl | rfl
      · exact ⟨((demo_disk b!"main" demoMain rfl).2 demoMain[3] (List.getElem_mem _)).1, by rintro sp q g ⟨⟩⟩
      · refine ⟨⟨⟨by decide, by decide, by decide⟩, by decide, by decide, by decide, by decide, by decide, by decide,
          ⟨⟨by decide, by rintro f ⟨⟩⟩, by decide, by decide⟩, ⟨_, _, rfl, by decide⟩, by decide, by decide, by decide⟩, by rintro sp q g ⟨⟩⟩
    · refine ⟨part_txn l (.inl hl), ?_⟩
      rintro sp q g rfl
      simp [partOne, partPost] at hl
  · cases hf

/-- The amount a converted report shows on account A. -/
def againShown (e : OpEnv) (op : Str) : Option Rat :=
  match reportCmd againEnv 5 e 5 (partApp b!"main") (partConf false) (fun _ _ l => l) [op] with
  | .ok ts => some (chosenTotal (fun _ ac _ => decide (ac = b!"A")) ts.flatten)
  | _ => none

/-- Two currencies with prices become one: the amount shown depends on the order in which the prices are walked. -/
example : againShown againOps b!"mapccy=/[XW]/Z/" = some 15 ∧ againShown (againOps.again insSort walkBack) b!"mapccy=/[XW]/Z/" = some (15 / 2) := by
  decide +kernel

/-- One currency renamed: both orders show the same. -/
example : againShown againOps b!"mapccy=/X/Z/" = some (15 / 2) ∧ againShown (againOps.again insSort walkBack) b!"mapccy=/X/Z/" = some (15 / 2) := by
  decide +kernel

/-- **C125** is false when a renaming gives the prices of two currencies the same name: the same command on the same file shows different amounts. -/
theorem c125_merged_fails : ¬ ∀ (le : Env) (_ : le.Ok) (_ : PlainLetters le) (fs : Str → Option (List FileLine)) (_ : OnDisk le fs) (a : AppConf)
    (ls : List FileLine) (_ : fs a.ledger = some ls) (e : OpEnv) (_ : e.Ok) (srt' : List Posting → List Posting)
    (walk' : (Str → Bool) → (Str → Str) → PriceBook → PriceBook) (_ : (e.again srt' walk').Ok) (_ : a.divider ≠ []) (r : ReportConf)
    (o : Int → Str → List Str → List Str) (_ : ∀ d py l, (o d py l).Perm l) (args : List Str) (depth fuel : Nat) (ts ts' : List Txn),
    reportCmd le depth e fuel a r o args = .ok ts → reportCmd le depth (e.again srt' walk') fuel a r o args = .ok ts' → SameReport r ts ts' := by
  intro h
  have hk := h againEnv (demoEnv_ok _) (demo_letters _) againDisk again_disk (partApp b!"main") againLines rfl againOps againOps_ok insSort walkBack againOps_back
    (by decide) (partConf false) (fun _ _ l => l) (fun _ _ _ => .refl _) [b!"mapccy=/[XW]/Z/"] 5 5
  have h1 : againShown againOps b!"mapccy=/[XW]/Z/" = some 15 := by decide +kernel
  have h2 : againShown (againOps.again insSort walkBack) b!"mapccy=/[XW]/Z/" = some (15 / 2) := by decide +kernel
  unfold againShown at h1 h2
  generalize reportCmd againEnv 5 againOps 5 (partApp b!"main") (partConf false) (fun _ _ l => l) [b!"mapccy=/[XW]/Z/"] = x at *
  generalize reportCmd againEnv 5 (againOps.again insSort walkBack) 5 (partApp b!"main") (partConf false) (fun _ _ l => l) [b!"mapccy=/[XW]/Z/"] = y at *
  cases x <;> simp only [Option.some.injEq, reduceCtorEq] at h1
  cases y <;> simp only [Option.some.injEq, reduceCtorEq] at h2
  rename_i ts ts'
  have hs : SameTxns ts ts' := by
    have := hk ts ts' rfl rfl
    unfold SameReport at this
    rwa [if_neg (by decide)] at this
  have hflat : ts.flatten.map obs = ts'.flatten.map obs := by rw [List.map_flatten, List.map_flatten, hs]
  have hal := forall₂_alike.2 hflat
  have := total_alike (P := fun p => decide (p.acct = b!"A")) (fun p q hpq => by rw [hpq.fields.2.2.1]) hal
  have h12 : (15 : Rat) = 15 / 2 := h1.symm.trans (Eq.trans this h2)
  norm_num at h12

/-- Renaming one currency is clear for the prices of the file, which loads. -/
theorem again_clear : ∃ b0, loadCmd againEnv 5 insSort (partApp b!"main") = .ok b0 ∧ ClearOps againOps [b!"mapccy=/X/Z/"] b0.prices := by
  have hl : (match loadCmd againEnv 5 insSort (partApp b!"main") with
      | .ok b0 => decide (b0.prices = [((b!"X", b!"Y"), [⟨20200102, 3 / 2⟩]), ((b!"W", b!"Y"), [⟨20200102, 3⟩])])
      | _ => false) = true := by decide +kernel
  split at hl <;> try cases hl
  rename_i b0 hb0
  rw [decide_eq_true_eq] at hl
  refine ⟨b0, hb0, ?_⟩
  have hp : parsePrim againOps b!"mapccy=/X/Z/" = some (.mapccy b!"X" b!"Z") := by
    rw [c61_syntax]; exact .mapccy b!"X" b!"Z" (by unfold Part; decide) (by unfold Part; decide)
  unfold ClearOps
  rw [hp, hl]
  refine ⟨⟨?_, ?_⟩, trivial⟩
  · have hw : ∀ (u c : Str) (pl : PriceList), PriceBook.find [((b!"X", b!"Y"), [⟨20200102, 3 / 2⟩]), ((b!"W", b!"Y"), [⟨20200102, 3⟩])] (u, c) = some pl →
        (u = b!"X" ∨ u = b!"W") ∧ c = b!"Y" := by
      intro u c pl h
      simp only [PriceBook.find] at h
      split_ifs at h with g1 g2
      · cases g1; exact ⟨.inl rfl, rfl⟩
      · cases g2; exact ⟨.inr rfl, rfl⟩
    intro u c pl u' c' pl' h1 h2
    obtain ⟨rfl | rfl, rfl⟩ := hw _ _ _ h1 <;> obtain ⟨rfl | rfl, rfl⟩ := hw _ _ _ h2 <;> decide
  · intro u c pl h
    simp only [PriceBook.find] at h
    split_ifs at h with g1 g2
    · cases g1; decide
    · cases g2; decide

/-- The hypotheses of the partial theorem hold: one currency renamed. -/
example (srt' : List Posting → List Posting) (walk' : (Str → Bool) → (Str → Str) → PriceBook → PriceBook) (hok' : (againOps.again srt' walk').Ok) (r : ReportConf)
    (ord' : Builder → List (Str × Rat)) (he' : (againEnv.again ord').Ok) :
    ∃ n, ∀ depth' fuel fuel', n ≤ depth' → n ≤ fuel → n ≤ fuel' → EndsLike (SameReport r)
      (reportCmd againEnv 5 againOps fuel (partApp b!"main") r (fun _ _ l => l) [b!"mapccy=/X/Z/"])
      (reportCmd (againEnv.again ord') depth' (againOps.again srt' walk') fuel' (partApp b!"main") r (fun _ _ l => l.reverse) [b!"mapccy=/X/Z/"]) := by
  obtain ⟨b0, hb0, hc⟩ := again_clear
  exact c125_again_partial againEnv (demoEnv_ok _) (demo_letters _) ord' he' againDisk again_disk (partApp b!"main") againLines rfl againOps againOps_ok srt' walk' hok'
    (by decide) r _ _ (fun _ _ _ => .refl _) (fun _ _ l => l.reverse_perm) _ [b!"mapccy=/X/Z/"] (.prim rfl .nil) 5 b0 hb0 hc

end Verif
