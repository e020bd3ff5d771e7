import Verif.Spec.ExportCmd
import Verif.Props.ExportPrices
import Verif.Props.Lang
import Verif.Props.Commands

/-! # C105: exporting an export -/

namespace Verif
open Spec

theorem bookFmt_sound {x : PrintEnv} (hx : SoundPrint x) (b : Book) : SoundFmt (bookFmt .english x b) :=
  english_sound _ hx.float hx.nearest _

theorem txnCalls_asLoaded (t : Txn) : txnCalls (asLoaded t) = txnCalls t := by
  cases t with
  | nil => rfl
  | cons p t => simp [txnCalls, asLoaded]

theorem flatMap_asLoaded (ts : List Txn) : (ts.map asLoaded).flatMap txnCalls = ts.flatMap txnCalls := by
  rw [List.flatMap_map]
  congr 1
  funext t
  exact txnCalls_asLoaded t

theorem build_ccy {srt : List Posting → List Posting} {bb : Builder} {b : Book} (h : bb.build srt = some b) : b.ccy = ccyDecimals bb.post := by
  unfold Builder.build at h
  split at h
  · cases h
  · rename_i b2 hb2
    cases h
    have : b2.post = bb.post := by
      unfold Builder.checkAndClear at hb2
      split at hb2
      · cases hb2; rfl
      · cases hb2
    rw [← this]
    unfold Book.compact; split <;> rfl

/-- The postings of a builder depend on the transactions only. -/
theorem calls_prices_post {txns : List Call} {pl pl' : PriceBook} {bb bb' : Builder}
    (h : Builder.new.calls (txns ++ priceCallsOf pl) = some bb) (h' : Builder.new.calls (txns ++ priceCallsOf pl') = some bb') : bb.post = bb'.post := by
  rw [calls_append] at h h'
  cases hb : Builder.new.calls txns with
  | none => rw [hb] at h; cases h
  | some b1 =>
    rw [hb] at h h'
    obtain ⟨l, hl⟩ := priceCallsOf_eq pl
    obtain ⟨l', hl'⟩ := priceCallsOf_eq pl'
    obtain ⟨b2, q1, q2, _⟩ := prices_calls l b1
    obtain ⟨b3, r1, r2, _⟩ := prices_calls l' b1
    rw [← hl] at q1
    rw [← hl'] at r1
    have e1 : some bb = some b2 := h.symm.trans q1
    have e2 : some bb' = some b3 := h'.symm.trans r1
    cases e1; cases e2
    rw [q2, r2]

theorem perm_of_find {a b : PriceBook} (ha : (a.map (·.1)).Nodup) (hb : (b.map (·.1)).Nodup) (h : ∀ k, a.find k = b.find k) : a.Perm b := by
  refine (List.perm_ext_iff_of_nodup (List.Nodup.of_map _ ha) (List.Nodup.of_map _ hb)).2 ?_
  rintro ⟨k, v⟩
  rw [mem_find ha, mem_find hb, h]

/-- A book loaded from an export of a book. -/
structure FromExport (srt : List Posting → List Posting) (bk : Book) : Prop where
  src : ∃ (ts : List Txn) (pl : PriceBook) (bb : Builder), Builder.new.calls (ts.flatMap txnCalls ++ priceCallsOf pl) = some bb ∧
    bb.build srt = some bk ∧ bk.transactions srt = ts.map asLoaded

theorem FromExport.fromCalls {srt : List Posting → List Posting} {bk : Book} (h : FromExport srt bk) (today : Int) :
    ∃ cs, FromCalls srt today cs bk := by
  obtain ⟨ts, pl, bb, h1, h2, _⟩ := h.src
  exact ⟨_, bb, _, [], h1, h2, rfl⟩

/-- Writing and loading again a book that came from an export changes nothing. -/
theorem fromExport_again {srt : List Posting → List Posting} (hs : IsSort srt) {bk : Book} (h : FromExport srt bk) {x : PrintEnv}
    (hx : SoundPrint x) (hw : Writable srt x bk) {pl : PriceBook} (hpl : pl.Perm bk.prices) :
    ∃ text, exportLedger (bookFmt .english x bk) (bk.transactions srt) pl = some text ∧
      ∀ (e : Env), e.letter 10 = false → ∀ (depth : Nat) (fn : Str), e.files fn = some text →
        ∃ bk2, loadBook srt e (depth + 1) fn = .ok bk2 ∧ bk2.transactions srt = bk.transactions srt ∧ bk2.ccy = bk.ccy ∧
          bk2.prices.Perm bk.prices := by
  obtain ⟨cs, hc⟩ := h.fromCalls 0
  obtain ⟨hwf, hbal⟩ := reachable_wf hs ⟨cs, hc⟩
  obtain ⟨text, h1, h2⟩ := export_reload_calls hs hwf hbal (fromCalls_prices hc) (bookFmt_sound hx bk) hw.txns hw.prices hpl
  refine ⟨text, h1, fun e he depth fn hfile => ?_⟩
  obtain ⟨bk2, bb2, k1, k2, k3, k4, k5⟩ := h2 e he depth fn hfile
  obtain ⟨ts, pl0, bb, m1, m2, m3⟩ := h.src
  rw [m3, flatMap_asLoaded] at k4
  refine ⟨bk2, k1, ?_, ?_, ?_⟩
  · rw [k2, m3, List.map_map]
    apply List.map_congr_left
    intro t _
    cases t with
    | nil => rfl
    | cons p t => simp [asLoaded]
  · rw [build_ccy k5, build_ccy m2, calls_prices_post k4 m1]
  · exact perm_of_find (fromCalls_keys (today := 0) ⟨bb2, bk2, [], k4, k5, rfl⟩) (fromCalls_keys (today := 0) ⟨bb, bk, [], m1, m2, rfl⟩) k3

/-- The ledger export of a loaded book. -/
theorem export_ledger_run {le : Env} {depth : Nat} {e : OpEnv} {fuel : Nat} {a : AppConf} {l : Lang} {x : PrintEnv} {typ : Str} (ht : LedgerType typ)
    {b : Book} (hb : loadBook e.srt le depth a.ledger = .ok b) :
    exportCmd le depth e fuel a l x typ [] = .orCrash ((exportLedger (bookFmt l x b) (b.transactions e.srt) (x.pairs b.prices)).map .text) := by
  unfold exportCmd loadCmd opsCmd bookOps
  rw [hb]
  simp only [CmdEnd.bind, runAll]
  unfold exportBook
  rw [if_neg ht.1, if_neg ht.2.1, if_neg ht.2.2]

theorem export_ok {le : Env} {depth : Nat} {e : OpEnv} {fuel : Nat} {a : AppConf} {l : Lang} {x : PrintEnv} {typ : Str} (ht : LedgerType typ)
    {args : List Str} {out : Exported} (h : exportCmd le depth e fuel a l x typ args = .ok out) :
    ∃ b0 b text, loadCmd le depth e.srt a = .ok b0 ∧ opsCmd e fuel a args b0 = .ok b ∧ out = .text text ∧
      exportLedger (bookFmt l x b) (b.transactions e.srt) (x.pairs b.prices) = some text := by
  unfold exportCmd at h
  obtain ⟨b, h1, h2⟩ := bind_ok h
  obtain ⟨b0, h0, h1⟩ := bind_ok h1
  unfold exportBook at h2
  rw [if_neg ht.1, if_neg ht.2.1, if_neg ht.2.2] at h2
  cases hx : exportLedger (bookFmt l x b) (b.transactions e.srt) (x.pairs b.prices) with
  | none => rw [hx] at h2; cases h2
  | some text => rw [hx] at h2; cases h2; exact ⟨b0, b, text, h0, h1, rfl, hx⟩

/-! ## The prices through the operations -/

theorem goodPrices_set {m : PriceBook} (h : GoodPrices m) {k : Str × Str} {v : PriceList} (hv : v ≠ [] ∧ v.Pairwise (fun a b => a.date ≤ b.date)) :
    GoodPrices (m.set k v) := by
  refine ⟨(set_keys m k v h.1).1, ?_⟩
  have : ∀ (m : PriceBook), (∀ k' v', (k', v') ∈ m → v' ≠ [] ∧ v'.Pairwise (fun a b => a.date ≤ b.date)) →
      ∀ k' v', (k', v') ∈ m.set k v → v' ≠ [] ∧ v'.Pairwise (fun a b => a.date ≤ b.date) := by
    intro m
    induction m with
    | nil => intro _ k' v' hm; simp [PriceBook.set] at hm; rw [hm.2]; exact hv
    | cons kv m ih =>
      obtain ⟨k0, v0⟩ := kv
      intro hall k' v' hm
      simp only [PriceBook.set] at hm
      split at hm
      · rcases List.mem_cons.1 hm with e | e
        · cases e; exact hv
        · exact hall k' v' (List.mem_cons_of_mem _ e)
      · rcases List.mem_cons.1 hm with e | e
        · cases e; exact hall k0 v0 List.mem_cons_self
        · exact ih (fun k1 v1 hx => hall k1 v1 (List.mem_cons_of_mem _ hx)) _ _ e
  exact this m h.2

theorem goodPrices_del {m : PriceBook} (h : GoodPrices m) (k : Str × Str) : GoodPrices (m.del k) :=
  ⟨(List.filter_sublist.map _).nodup h.1, fun k' v' hm => h.2 k' v' (List.mem_of_mem_filter hm)⟩

theorem goodPrices_run {ρ : Str × Str → Str × Str} {todo fresh : List (Str × Str)} {m m' : PriceBook} (hr : RangeRun ρ todo fresh m m')
    (h : GoodPrices m) : GoodPrices m' := by
  have hbody : ∀ {m : PriceBook} {k pl}, GoodPrices m → m.find k = some pl → GoodPrices (renameBody ρ m k pl) := by
    intro m k pl hg hf
    unfold renameBody
    split
    · exact hg
    · exact goodPrices_del (goodPrices_set hg (hg.2 _ _ ((mem_find hg.1).2 hf))) _
  induction hr with
  | done => exact h
  | gone _ _ _ _ _ _ _ _ ih => exact ih h
  | visit _ _ _ _ _ _ _ hf _ ih => exact ih (hbody h hf)
  | extra _ _ _ _ _ _ _ hf _ ih => exact ih (hbody h hf)

/-- A book in good order, prices included. -/
def Book.Sound (b : Book) : Prop := b.Good ∧ GoodPrices b.prices

theorem sound_prim {e : OpEnv} (he : e.Ok) {p : Prim} {b b' : Book} (h : b.Sound) (hp : p.apply e b = some b') : b'.Sound := by
  refine ⟨good_prim he.1 h.1 hp, ?_⟩
  cases p <;> simp only [Prim.apply] at hp
  case mapccy s r =>
    split at hp
    · cases hp
      exact goodPrices_run (he.2 _ _ _) h.2
    · cases hp
  case map s r alt =>
    split at hp
    · cases hp
      unfold Book.regexAccounts
      rw [apply_prices (srt := e.srt) (today := e.today) (o := .mapAccount _) (b := b) rfl]; exact h.2
    · cases hp
  case move s a f =>
    split at hp
    · cases hp
      rw [apply_prices (srt := e.srt) (today := e.today) (o := .adjustPost _ _ _) (b := b) rfl]; exact h.2
    · cases hp
  case asof d => cases hp; rw [apply_prices (srt := e.srt) (today := e.today) (o := .asof _) (b := b) rfl]; exact h.2
  case since d => cases hp; rw [apply_prices (srt := e.srt) (today := e.today) (o := .since _) (b := b) rfl]; exact h.2
  case combine t => cases hp; rw [apply_prices (srt := e.srt) (today := e.today) (o := .splitBy _) (b := b) rfl]; exact h.2
  case depreciate s a n =>
    split at hp
    · cases hp; rw [apply_prices (srt := e.srt) (today := e.today) (o := .depreciate _ _ _ _) (b := b) rfl]; exact h.2
    · cases hp

/-- What every operation preserves, the operations of a command line preserve. -/
theorem runAll_inv {P : Book → Prop} {f : Str → Book → OpEnd} (hf : ∀ o b b', P b → f o b = .ok b' → P b') :
    ∀ (ops : List Str) (b b' : Book), P b → runAll f ops b = .ok b' → P b' := by
  intro ops
  induction ops with
  | nil => intro b b' h hb; simp only [runAll] at hb; cases hb; exact h
  | cons o ops ih =>
    intro b b' h hb
    simp only [runAll] at hb
    cases hx : f o b with
    | ok b1 => rw [hx] at hb; exact ih b1 b' (hf o b b1 h hx) hb
    | err _ _ => rw [hx] at hb; cases hb
    | panic => rw [hx] at hb; cases hb
    | diverge => rw [hx] at hb; cases hb

theorem bookOp_inv {P : Book → Prop} {e : OpEnv} (hp : ∀ (p : Prim) b b', P b → p.apply e b = some b' → P b') (mac : Str → Option (List Str)) :
    ∀ (n : Nat) (op : Str) (b b' : Book), P b → bookOp e mac n op b = .ok b' → P b' := by
  intro n
  induction n with
  | zero => intro op b b' _ h; simp only [bookOp] at h; cases h
  | succ n ih =>
    intro op b b' hg h
    simp only [bookOp] at h
    cases hm : mac op with
    | some ms =>
      rw [hm] at h
      exact runAll_inv (fun o b b' => ih o b b') ms b b' hg (opWrap_ok h)
    | none =>
      rw [hm] at h
      simp only [primOp] at h
      split at h
      · cases h
      · split at h
        · cases h
        · rename_i hx; cases h; exact hp _ _ _ hg hx

theorem ops_inv {P : Book → Prop} {e : OpEnv} (hp : ∀ (p : Prim) b b', P b → p.apply e b = some b' → P b') {fuel : Nat} {a : AppConf}
    {args : List Str} {b b' : Book} (h : P b) (ho : opsCmd e fuel a args b = .ok b') : P b' := by
  unfold opsCmd at ho
  split at ho <;> cases ho
  rename_i hb
  exact runAll_inv (fun o b b' hg hx => bookOp_inv hp a.macros fuel o b b' hg (opWrap_ok hx)) args b b' h hb

theorem sound_load {le : Env} {depth : Nat} {srt : List Posting → List Posting} (hs : IsSort srt) {a : AppConf} {b : Book}
    (h : loadCmd le depth srt a = .ok b) : b.Sound := by
  refine ⟨good_load hs h, ?_⟩
  unfold loadCmd at h
  split at h <;> cases h
  rename_i hb
  obtain ⟨⟨cs, bb, h1, h2, _⟩, h3⟩ := c59_loaded_book_balanced_partial srt hs le depth a.ledger b hb
  exact fromCalls_prices (today := 0) ⟨bb, b, [], h1, h2, rfl⟩

theorem loadCmd_ok {le : Env} {depth : Nat} {srt : List Posting → List Posting} {a : AppConf} {b : Book}
    (h : loadBook srt le depth a.ledger = .ok b) : loadCmd le depth srt a = .ok b := by
  unfold loadCmd; rw [h]

/-- What an export with any operations leads to. -/
theorem export_then_load {le : Env} {depth : Nat} {e : OpEnv} (he : e.Ok) {fuel : Nat} {a : AppConf} {x : PrintEnv} (hx : SoundPrint x)
    {typ : Str} (ht : LedgerType typ) {args : List Str} {b0 b : Book} (h0 : loadCmd le depth e.srt a = .ok b0) (h1 : opsCmd e fuel a args b0 = .ok b)
    (hw : Writable e.srt x b) : ∃ text, exportCmd le depth e fuel a .english x typ args = .ok (.text text) ∧
      ∀ (le1 : Env), le1.letter 10 = false → ∀ (depth1 : Nat) (a1 : AppConf), le1.files a1.ledger = some text →
        ∃ bk, loadCmd le1 (depth1 + 1) e.srt a1 = .ok bk ∧ bk.transactions e.srt = (b.transactions e.srt).map asLoaded ∧
          (∀ pair, bk.prices.find pair = b.prices.find pair) ∧ FromExport e.srt bk := by
  have hsd : b.Sound := ops_inv (fun p b b' hb hp => sound_prim he hb hp) (sound_load he.1 h0) h1
  obtain ⟨text, k1, k2⟩ := export_reload_calls he.1 hsd.1.1 hsd.1.2 hsd.2 (bookFmt_sound hx b) hw.txns hw.prices (hx.pairs b.prices)
  refine ⟨text, ?_, ?_⟩
  · unfold exportCmd
    rw [h0]
    simp only [CmdEnd.bind, h1]
    unfold exportBook
    rw [if_neg ht.1, if_neg ht.2.1, if_neg ht.2.2, k1]
    rfl
  · intro le1 hl depth1 a1 hfile
    obtain ⟨bk, bb, m1, m2, m3, m4, m5⟩ := k2 le1 hl depth1 a1.ledger hfile
    exact ⟨bk, loadCmd_ok m1, m2, m3, ⟨_, _, bb, m4, m5, m2⟩⟩

/-- **C106** (partial: English, and what the format can express).  `goledger export` with any operations, saved to a file and loaded from
there (includes or not, whatever the other settings), gives the book after the operations: the same transactions and the same prices. -/
theorem c106_export_saved_partial (le : Env) (depth : Nat) (e : OpEnv) (he : e.Ok) (fuel : Nat) (a : AppConf) (x : PrintEnv) (hx : SoundPrint x)
    (typ : Str) (ht : LedgerType typ) (args : List Str) (b0 b : Book) (h0 : loadCmd le depth e.srt a = .ok b0) (h1 : opsCmd e fuel a args b0 = .ok b)
    (hw : Writable e.srt x b) :
    ∃ text, exportCmd le depth e fuel a .english x typ args = .ok (.text text) ∧
      ∀ (le1 : Env), le1.letter 10 = false → ∀ (depth1 : Nat) (a1 : AppConf), le1.files a1.ledger = some text →
        ∃ bk, loadCmd le1 (depth1 + 1) e.srt a1 = .ok bk ∧ bk.transactions e.srt = (b.transactions e.srt).map asLoaded ∧
          ∀ date u c, bk.prices.getPrice date u c = b.prices.getPrice date u c := by
  obtain ⟨text, k1, k2⟩ := export_then_load he hx ht h0 h1 hw
  refine ⟨text, k1, fun le1 hl depth1 a1 hfile => ?_⟩
  obtain ⟨bk, m1, m2, m3, _⟩ := k2 le1 hl depth1 a1 hfile
  refine ⟨bk, m1, m2, ?_⟩
  intro date u c
  unfold PriceBook.getPrice
  simp only [m3]

/-- The texts a ledger export of a file can write, depending on the order in which Go ranges over the prices. -/
def CanExport (le : Env) (depth : Nat) (e : OpEnv) (fuel : Nat) (a : AppConf) (x : PrintEnv) (typ text : Str) : Prop :=
  ∃ pairs : PriceBook → PriceBook, (∀ pb, (pairs pb).Perm pb) ∧
    exportCmd le depth e fuel a .english { x with pairs := pairs } typ [] = .ok (.text text)

theorem canExport_iff {le : Env} {depth : Nat} {e : OpEnv} {fuel : Nat} {a : AppConf} {x : PrintEnv} {typ : Str} (ht : LedgerType typ)
    {b : Book} (hb : loadCmd le depth e.srt a = .ok b) (text : Str) :
    CanExport le depth e fuel a x typ text ↔ ∃ pl : PriceBook, pl.Perm b.prices ∧
      exportLedger (bookFmt .english x b) (b.transactions e.srt) pl = some text := by
  have hb' : loadBook e.srt le depth a.ledger = .ok b := by
    unfold loadCmd at hb
    split at hb <;> cases hb
    assumption
  have hrun : ∀ pairs, exportCmd le depth e fuel a .english { x with pairs := pairs } typ [] =
      .orCrash ((exportLedger (bookFmt .english x b) (b.transactions e.srt) (pairs b.prices)).map .text) := fun pairs => export_ledger_run ht hb'
  constructor
  · rintro ⟨pairs, h1, h2⟩
    refine ⟨pairs b.prices, h1 _, ?_⟩
    rw [hrun] at h2
    cases hx : exportLedger (bookFmt .english x b) (b.transactions e.srt) (pairs b.prices) with
    | none => rw [hx] at h2; cases h2
    | some t => rw [hx] at h2; cases h2; rfl
  · rintro ⟨pl, h1, h2⟩
    classical
    refine ⟨fun pb => if pb = b.prices then pl else pb, ?_, ?_⟩
    · intro pb
      by_cases h : pb = b.prices
      · simp only [if_pos h]; rw [h]; exact h1
      · simp only [if_neg h]; exact List.Perm.refl _
    · rw [hrun, if_pos rfl, h2]; rfl

/-- **C105** (partial: English, from the second export on, and what the format can express).  A file written by `goledger export` (with any
operations) is exported, and the result exported again: the second of these exports can write exactly the texts the first one can, that is,
the same text up to the order of the price pairs. -/
theorem c105_export_again_partial (le : Env) (depth : Nat) (e : OpEnv) (he : e.Ok) (fuel : Nat) (a : AppConf) (x : PrintEnv) (hx : SoundPrint x)
    (typ : Str) (ht : LedgerType typ) (args : List Str) (b0 b : Book) (h0 : loadCmd le depth e.srt a = .ok b0) (h1 : opsCmd e fuel a args b0 = .ok b)
    (hw : Writable e.srt x b) :
    ∃ text1, exportCmd le depth e fuel a .english x typ args = .ok (.text text1) ∧
      ∀ (le1 : Env), le1.letter 10 = false → ∀ (depth1 : Nat) (a1 : AppConf), le1.files a1.ledger = some text1 →
        ∃ b1, loadCmd le1 (depth1 + 1) e.srt a1 = .ok b1 ∧ (Writable e.srt x b1 →
          ∃ text2, exportCmd le1 (depth1 + 1) e fuel a1 .english x typ [] = .ok (.text text2) ∧
            ∀ (le2 : Env), le2.letter 10 = false → ∀ (depth2 : Nat) (a2 : AppConf), le2.files a2.ledger = some text2 →
              ∀ text3, CanExport le2 (depth2 + 1) e fuel a2 x typ text3 ↔ CanExport le1 (depth1 + 1) e fuel a1 x typ text3) := by
  obtain ⟨text1, k1, k2⟩ := export_then_load he hx ht h0 h1 hw
  refine ⟨text1, k1, fun le1 hl1 depth1 a1 hf1 => ?_⟩
  obtain ⟨b1, m1, _, _, m4⟩ := k2 le1 hl1 depth1 a1 hf1
  refine ⟨b1, m1, fun hw1 => ?_⟩
  obtain ⟨text2, n1, n2⟩ := fromExport_again he.1 m4 hx hw1 (hx.pairs b1.prices)
  have hb1 : loadBook e.srt le1 (depth1 + 1) a1.ledger = .ok b1 := by
    unfold loadCmd at m1
    split at m1 <;> cases m1
    assumption
  refine ⟨text2, by rw [export_ledger_run ht hb1, n1]; rfl, fun le2 hl2 depth2 a2 hf2 text3 => ?_⟩
  obtain ⟨b2, o1, o2, o3, o4⟩ := n2 le2 hl2 depth2 a2.ledger hf2
  rw [canExport_iff ht (loadCmd_ok o1), canExport_iff ht m1, o2]
  have hfmt : bookFmt .english x b2 = bookFmt .english x b1 := by unfold bookFmt; rw [o3]
  rw [hfmt]
  constructor
  · rintro ⟨pl, p1, p2⟩; exact ⟨pl, p1.trans o4, p2⟩
  · rintro ⟨pl, p1, p2⟩; exact ⟨pl, p1.trans o4.symm, p2⟩

/-! ## Examples -/

/-- One way to range: the original keys in order, nothing that was created on the way. -/
def walkKeys (ρ : Str × Str → Str × Str) : List (Str × Str) → PriceBook → PriceBook
  | [], m => m
  | k :: ks, m => match m.find k with
    | none => walkKeys ρ ks m
    | some pl => walkKeys ρ ks (renameBody ρ m k pl)

theorem walkKeys_run (ρ : Str × Str → Str × Str) : ∀ (ks fresh : List (Str × Str)) (m : PriceBook), RangeRun ρ ks fresh m (walkKeys ρ ks m) := by
  intro ks
  induction ks with
  | nil => intro fresh m; exact .done _ _
  | cons k ks ih =>
    intro fresh m
    have he : (k :: ks).erase k = ks := by simp
    simp only [walkKeys]
    cases h : m.find k with
    | none => exact .gone k _ _ _ _ List.mem_cons_self h (by rw [he]; exact ih _ _)
    | some pl => exact .visit k pl _ _ _ _ List.mem_cons_self h (by rw [he]; exact ih _ _)

/-- Example operations that satisfy `OpEnv.Ok`. -/
def okOps : OpEnv := { plainOps with walk := fun mat rep m => walkKeys (renamePair mat rep) (m.map (·.1)).dedup m }

theorem okOps_ok : okOps.Ok := ⟨insSort_isSort, fun _ _ _ => walkKeys_run _ _ _ _⟩

/-- An example print environment. -/
def demoPrint : PrintEnv where
  letter := fun c => decide (65 ≤ c ∧ c ≤ 90) || decide (97 ≤ c ∧ c ≤ 122)
  space := isSpace
  title := id
  up := id
  fl := toDouble
  rd := halfEven
  tm := fun _ _ _ => []
  accts := id
  pairs := id

theorem demoPrint_sound : SoundPrint demoPrint := ⟨toDouble_rounding, halfEven_nearest, fun _ => .refl _⟩

/-- The text written, if the command succeeds. -/
def CmdEnd.text? : CmdEnd Exported → Option Str
  | .ok (.text t) => some t
  | _ => none

theorem text_some {x : CmdEnd Exported} {t : Str} (h : x.text? = some t) : x = .ok (.text t) := by
  cases x with
  | ok y => cases y with
    | json j => cases h
    | text s => cases h; rfl
  | _ => cases h

/-- A file with a price, and an operation that renames a currency. -/
def fundFile : Str := b!"P 2020/01/02 00:00:00 FUND 2.5 EUR\n2020/01/02 Buy\n  A  1,200 FUND\n  B  -1,200 FUND\n"

def fundOps : List Str := [b!"mapccy=/FUND/GOLD/"]

/-- What its export writes. -/
example : (exportCmd (demoEnv [(b!"a", fundFile)]) 1 okOps 1 demoApp .english demoPrint b!"Ledger" fundOps).text? =
    some b!"2020/01/02 Buy\n  A  GOLD 1,200.00\n  B  GOLD -1,200.00\n\n\n; Prices\nP 2020/01/02 00:00:00 GOLD EUR 2.50\n" := by decide +kernel

/-- A checkable form of `Writable`. -/
def writableB (srt : List Posting → List Posting) (x : PrintEnv) (b : Book) : Bool :=
  (b.transactions srt).all (printableB (bookFmt .english x b)) &&
    b.prices.all fun kv => kv.2.all fun q => printablePriceB (bookFmt .english x b) kv.1.1 kv.1.2 q

theorem writable_of_b {srt : List Posting → List Posting} {x : PrintEnv} {b : Book} (h : writableB srt x b = true) : Writable srt x b := by
  unfold writableB at h
  rw [Bool.and_eq_true] at h
  refine ⟨fun t ht => printable_of_b (List.all_eq_true.1 h.1 t ht), ?_⟩
  intro u c q hq
  cases hv : b.prices.find (u, c) with
  | none => rw [hv] at hq; cases hq
  | some v =>
    rw [hv] at hq
    obtain ⟨kv, hkv, e⟩ : ∃ kv ∈ b.prices, kv = ((u, c), v) := by
      clear h hq
      revert hv
      generalize b.prices = m
      intro hv
      induction m with
      | nil => cases hv
      | cons kv m ih =>
        obtain ⟨k0, v0⟩ := kv
        unfold PriceBook.find at hv
        split at hv
        · rename_i h; cases hv; exact ⟨_, List.mem_cons_self, by rw [h]⟩
        · obtain ⟨kv, h1, h2⟩ := ih hv
          exact ⟨kv, List.mem_cons_of_mem _ h1, h2⟩
    have := List.all_eq_true.1 h.2 kv hkv
    rw [e] at this
    exact printablePrice_of_b (List.all_eq_true.1 this q hq)

/-- Non-vacuity: a file with a price and an operation meets the hypotheses of C105 and C106, and so does its export. -/
example : ∃ b0 b, okOps.Ok ∧ SoundPrint demoPrint ∧ LedgerType b!"Ledger" ∧
    loadCmd (demoEnv [(b!"a", fundFile)]) 1 okOps.srt demoApp = .ok b0 ∧ opsCmd okOps 1 demoApp fundOps b0 = .ok b ∧ Writable okOps.srt demoPrint b := by
  have h : (match loadCmd (demoEnv [(b!"a", fundFile)]) 1 insSort demoApp with
      | .ok b0 => match opsCmd okOps 1 demoApp fundOps b0 with
        | .ok b => writableB insSort demoPrint b
        | _ => false
      | _ => false) = true := by decide +kernel
  split at h <;> try cases h
  rename_i b0 hb0
  split at h <;> try cases h
  rename_i b hb
  exact ⟨b0, b, okOps_ok, demoPrint_sound, by unfold LedgerType; decide, hb0, hb, writable_of_b h⟩

/-- Two halves: the currency is given one decimal when the file is read, and none when the export is read, where they are added up. -/
def halvesFile : Str := b!"2020/01/02 x\n  A  0.5 E\n  A  0.5 E\n  B  -1 E\n"

/-- C105 is false of the first export of an export: its text differs. -/
theorem c105_first_fails : ¬ ∀ (le : Env) (depth : Nat) (e : OpEnv) (_ : e.Ok) (fuel : Nat) (a : AppConf) (x : PrintEnv) (_ : SoundPrint x)
    (args : List Str) (b0 b : Book), loadCmd le depth e.srt a = .ok b0 → opsCmd e fuel a args b0 = .ok b → Writable e.srt x b →
    ∀ text, exportCmd le depth e fuel a .english x b!"Ledger" args = .ok (.text text) →
      ∀ (le1 : Env), le1.letter 10 = false → ∀ (depth1 : Nat) (a1 : AppConf), le1.files a1.ledger = some text →
        CanExport le1 (depth1 + 1) e fuel a1 x b!"Ledger" text := by
  intro h
  have hl : (match loadCmd (demoEnv [(b!"a", halvesFile)]) 1 insSort demoApp with
      | .ok b0 => writableB insSort demoPrint b0
      | _ => false) = true := by decide +kernel
  split at hl <;> try cases hl
  rename_i b0 hb0
  have ht : exportCmd (demoEnv [(b!"a", halvesFile)]) 1 okOps 1 demoApp .english demoPrint b!"Ledger" [] =
      .ok (.text b!"2020/01/02 x\n  A  E 1.0\n  B  E -1.0\n\n\n; Prices\n") := text_some (by decide +kernel)
  obtain ⟨pairs, h1, h2⟩ := h (demoEnv [(b!"a", halvesFile)]) 1 okOps okOps_ok 1 demoApp demoPrint demoPrint_sound [] b0 b0 hb0 rfl
    (writable_of_b hl) _ ht (demoEnv [(b!"a", b!"2020/01/02 x\n  A  E 1.0\n  B  E -1.0\n\n\n; Prices\n")]) (by decide) 0 demoApp (by decide)
  have hx : (match loadCmd (demoEnv [(b!"a", b!"2020/01/02 x\n  A  E 1.0\n  B  E -1.0\n\n\n; Prices\n")]) 1 insSort demoApp with
      | .ok b1 => b1.prices.isEmpty && decide (exportLedger (bookFmt .english demoPrint b1) (b1.transactions insSort) [] =
          some b!"2020/01/02 x\n  A  E 1\n  B  E -1\n\n\n; Prices\n")
      | _ => false) = true := by decide +kernel
  split at hx <;> try cases hx
  rename_i b1 hb1
  rw [Bool.and_eq_true, List.isEmpty_iff, decide_eq_true_eq] at hx
  obtain ⟨pl, p1, p2⟩ := (canExport_iff (e := okOps) (fuel := 1) (x := demoPrint) (typ := b!"Ledger") (by unfold LedgerType; decide) hb1 _).1 ⟨pairs, h1, h2⟩
  rw [hx.1] at p1
  rw [List.perm_nil.1 p1] at p2
  have := hx.2.symm.trans p2
  revert this
  decide

/-- C106 is false of a text that the format cannot express: an account renamed to one with a blank cannot be read again. -/
theorem c106_account_fails : ¬ ∀ (le : Env) (depth : Nat) (e : OpEnv) (_ : e.Ok) (fuel : Nat) (a : AppConf) (x : PrintEnv) (_ : SoundPrint x)
    (args : List Str) (text : Str), exportCmd le depth e fuel a .english x b!"Ledger" args = .ok (.text text) →
      ∀ (le1 : Env), le1.letter 10 = false → ∀ (depth1 : Nat) (a1 : AppConf), le1.files a1.ledger = some text →
        ∃ bk, loadCmd le1 (depth1 + 1) e.srt a1 = .ok bk := by
  intro h
  have ht : exportCmd (demoEnv [(b!"a", halvesFile)]) 1 okOps 1 demoApp .english demoPrint b!"Ledger" [b!"map=/A/my cash/"] =
      .ok (.text b!"2020/01/02 x\n  B  E -1.0\n  my cash  E 1.0\n\n\n; Prices\n") := text_some (by decide +kernel)
  obtain ⟨bk, hb⟩ := h _ _ okOps okOps_ok _ _ _ demoPrint_sound _ _ ht
    (demoEnv [(b!"a", b!"2020/01/02 x\n  B  E -1.0\n  my cash  E 1.0\n\n\n; Prices\n")]) (by decide) 0 demoApp (by decide)
  have hx : (match loadCmd (demoEnv [(b!"a", b!"2020/01/02 x\n  B  E -1.0\n  my cash  E 1.0\n\n\n; Prices\n")]) 1 insSort demoApp with
      | .ok _ => true
      | _ => false) = false := by decide +kernel
  have hb' : loadCmd (demoEnv [(b!"a", b!"2020/01/02 x\n  B  E -1.0\n  my cash  E 1.0\n\n\n; Prices\n")]) 1 insSort demoApp = .ok bk := hb
  rw [hb'] at hx
  cases hx

/-! ## How many decimals are printed -/

theorem find_decimals {l : List (Str × Nat)} (hn : (l.map (·.1)).Nodup) {c : Str} {d : Nat} (h : (c, d) ∈ l) :
    ((l.find? fun kv => decide (kv.1 = c)).map (·.2)) = some d := by
  induction l with
  | nil => cases h
  | cons kv l ih =>
    rw [List.map_cons, List.nodup_cons] at hn
    rw [List.find?_cons]
    rcases List.mem_cons.1 h with rfl | h
    · simp
    · have hne : kv.1 ≠ c := fun e => hn.1 (e ▸ List.mem_map.2 ⟨(c, d), h, rfl⟩)
      rw [decide_eq_false hne]
      exact ih hn.2 h

theorem entries_calls (cs : List Call) : ∀ (cur : Int × Str) (names : List (Int × Str)), ∀ e ∈ entries cur names cs,
    ∃ n, Call.addPosting e.acct e.ccy e.amt n ∈ cs := by
  induction cs with
  | nil => intro cur names e he; simp [entries] at he
  | cons c cs ih =>
    intro cur names e he
    cases c with
    | addPosting a c v n =>
      simp only [entries, List.mem_cons] at he
      rcases he with rfl | he
      · exact ⟨n, by simp⟩
      · obtain ⟨n', h⟩ := ih _ _ e he; exact ⟨n', List.mem_cons_of_mem _ h⟩
    | addPrice d u c v =>
      simp only [entries] at he
      obtain ⟨n', h⟩ := ih _ _ e he; exact ⟨n', List.mem_cons_of_mem _ h⟩
    | newTransaction d py n =>
      cases names with
      | nil => simp [entries] at he
      | cons x names =>
        simp only [entries] at he
        obtain ⟨n', h⟩ := ih _ _ e he; exact ⟨n', List.mem_cons_of_mem _ h⟩

theorem calls_cons_some {c : Call} {cs : List Call} {b bb : Builder} (h : b.calls (c :: cs) = some bb) :
    ∃ b1, b.call c = some b1 ∧ b1.calls cs = some bb := by
  unfold Builder.calls at h
  cases hb : b.call c with
  | none => simp [hb] at h
  | some b1 => exact ⟨b1, rfl, by simpa [hb] using h⟩

theorem calls_entries (cs : List Call) : ∀ (b bb : Builder) (cur : Int × Str), b.calls cs = some bb → ∀ a c v n,
    Call.addPosting a c v n ∈ cs → ∃ e ∈ entries cur (issued b cs) cs, e.acct = a ∧ e.ccy = c ∧ e.amt = v := by
  induction cs with
  | nil => intro b bb cur _ a c v n h; cases h
  | cons x cs ih =>
    intro b bb cur hb a c v n h
    obtain ⟨b1, h1, h2⟩ := calls_cons_some hb
    rcases List.mem_cons.1 h with rfl | hin
    · exact ⟨⟨cur.1, cur.2, a, c, v⟩, by simp [entries], rfl, rfl, rfl⟩
    · cases x with
      | addPosting a' c' v' n' =>
        obtain ⟨e, he, h'⟩ := ih b1 bb cur h2 a c v n hin
        exact ⟨e, by simp only [issued, h1, entries]; exact List.mem_cons_of_mem _ he, h'⟩
      | addPrice d u c' v' =>
        obtain ⟨e, he, h'⟩ := ih b1 bb cur h2 a c v n hin
        exact ⟨e, by simp only [issued, h1, entries]; exact he, h'⟩
      | newTransaction d py nt =>
        obtain ⟨e, he, h'⟩ := ih b1 bb (b1.currDate, b1.currPayee) h2 a c v n hin
        exact ⟨e, by simp only [issued, h1, entries]; exact he, h'⟩

/-- The postings of the builder are the postings of the calls. -/
theorem post_calls {cs : List Call} {bb : Builder} (h : Builder.new.calls cs = some bb) (c : Str) (v : Rat) :
    (∃ p ∈ bb.post, p.ccy = c ∧ p.val = v) ↔ ∃ a n, Call.addPosting a c v n ∈ cs := by
  obtain ⟨e1, _⟩ := builder_post cs bb h
  constructor
  · rintro ⟨p, hp, rfl, rfl⟩
    have : (⟨p.date, p.payee, p.acct, p.ccy, p.val⟩ : Entry) ∈ entries (-1, []) (issued Builder.new cs) cs := by
      rw [← e1]; exact List.mem_map.2 ⟨p, hp, rfl⟩
    obtain ⟨n, hn⟩ := entries_calls cs _ _ _ this
    exact ⟨p.acct, n, hn⟩
  · rintro ⟨a, n, hn⟩
    obtain ⟨e, he, h1, h2, h3⟩ := calls_entries cs _ _ (-1, []) h a c v n hn
    rw [← e1] at he
    obtain ⟨p, hp, rfl⟩ := List.mem_map.1 he
    exact ⟨p, hp, h2, h3⟩

/-- **C106**: how many decimals a currency is printed with, whatever the language: if amounts were entered in it, the least number `k` for which
`10^k` is at least the denominator of every amount entered; else two. -/
theorem c106_decimals (srt : List Posting → List Posting) (cs : List Call) (b : Book) (h : Built srt cs b) (l : Lang) (x : PrintEnv) (c : Str) :
    ((∃ a v n, Call.addPosting a c v n ∈ cs) →
      (∀ a v n, Call.addPosting a c v n ∈ cs → v.den ≤ 10 ^ decimalsOf (bookFmt l x b) c) ∧
      ∀ k, (∀ a v n, Call.addPosting a c v n ∈ cs → v.den ≤ 10 ^ k) → decimalsOf (bookFmt l x b) c ≤ k) ∧
    ((∀ a v n, Call.addPosting a c v n ∉ cs) → decimalsOf (bookFmt l x b) c = 2) := by
  obtain ⟨bb, h1, h2⟩ := h
  obtain ⟨k1, k2, k3⟩ := c19_decimals_partial srt cs bb b h1 h2
  have hdec : decimalsOf (bookFmt l x b) c = ((b.ccy.find? fun kv => decide (kv.1 = c)).map (·.2)).getD 2 := rfl
  refine ⟨?_, ?_⟩
  · rintro ⟨a0, v0, n0, h0⟩
    obtain ⟨p0, hp0, e0, _⟩ := (post_calls h1 c v0).2 ⟨a0, n0, h0⟩
    obtain ⟨⟨c', d⟩, hd, ec⟩ := List.mem_map.1 ((k2 c).2 ⟨p0, hp0, e0⟩)
    simp only at ec
    subst ec
    obtain ⟨m1, m2, _⟩ := k3 c' d hd
    rw [hdec, find_decimals k1 hd]
    refine ⟨?_, ?_⟩
    · intro a v n hv
      obtain ⟨p, hp, e1, e2⟩ := (post_calls h1 c' v).2 ⟨a, n, hv⟩
      have := m1 p hp e1
      rw [e2] at this
      exact this
    · intro k hk
      apply m2
      intro p hp hc
      obtain ⟨a, n, hv⟩ := (post_calls h1 c' p.val).1 ⟨p, hp, hc, rfl⟩
      exact hk a p.val n hv
  · intro hno
    have : (b.ccy.find? fun kv => decide (kv.1 = c)) = none := by
      rw [List.find?_eq_none]
      intro kv hkv
      simp only [decide_eq_true_eq]
      intro e
      obtain ⟨p, hp, hpc⟩ := (k2 c).1 (List.mem_map.2 ⟨kv, hkv, e⟩)
      obtain ⟨a, n, hv⟩ := (post_calls h1 c p.val).1 ⟨p, hp, hpc, rfl⟩
      exact hno a p.val n hv
    rw [hdec, this]; rfl

/-- **C106**: if all amounts of a currency were entered as whole numbers or with a denominator that is a power of ten, then every amount reported in
it is printed exactly. -/
theorem c106_amounts_fit (srt : List Posting → List Posting) (hs : IsSort srt) (cs : List Call) (b : Book) (h : Built srt cs b) (l : Lang) (x : PrintEnv)
    (c : Str) (hc : ∀ a v n, Call.addPosting a c v n ∈ cs → ∃ k, v.den = 10 ^ k) (p : Posting) (hp : p ∈ reported srt b) (hpc : p.ccy = c) :
    ∃ z : Int, p.val * 10 ^ decimalsOf (bookFmt l x b) c = z := by
  have hwf := (Built.wf hs h).1
  have hcan : Canonical (b.transactions srt) := compact_canonical hs hwf
  have hdecs := c106_decimals srt cs b h l x c
  generalize decimalsOf (bookFmt l x b) c = d at *
  obtain ⟨bb, h1, h2⟩ := h
  obtain ⟨t, ht, hpt⟩ := List.mem_flatten.1 hp
  have hval : p.val = entrySum p.date p.payee p.acct p.ccy (entries (-1, []) (issued Builder.new cs) cs) := by
    rw [← c03_built_amounts srt hs cs bb b h1 h2, entry_in_txns ⟨fun t ht => ⟨hcan.nonempty t ht, hcan.oneTxn t ht⟩, hcan.txnOrder⟩ ht hpt, entry_in_txn (canonical_distinct hcan ht) (hcan.oneTxn t ht) hpt]
  rw [hval, hpc]
  unfold entrySum
  have key : ∀ es : List Entry, (∀ e ∈ es, ∃ n, Call.addPosting e.acct e.ccy e.amt n ∈ cs) → (∀ e ∈ es, e.ccy = c) →
      ∃ z : Int, ((es.map (·.amt)).sum) * 10 ^ d = z := by
    intro es
    induction es with
    | nil => intro _ _; exact ⟨0, by simp⟩
    | cons e es ih =>
      intro g1 g2
      obtain ⟨z, hz⟩ := ih (fun e he => g1 e (List.mem_cons_of_mem _ he)) (fun e he => g2 e (List.mem_cons_of_mem _ he))
      obtain ⟨n, hn⟩ := g1 e (by simp)
      rw [g2 e (by simp)] at hn
      obtain ⟨k, hk⟩ := hc _ _ _ hn
      have hle := (hdecs.1 ⟨_, _, _, hn⟩).1 _ _ _ hn
      rw [hk] at hle
      have hkd : k ≤ d := (Nat.pow_le_pow_iff_right (by norm_num)).1 hle
      refine ⟨e.amt.num * 10 ^ (d - k) + z, ?_⟩
      have e1 : e.amt * 10 ^ k = e.amt.num := by
        have := Rat.mul_den_eq_num e.amt
        rw [hk] at this
        exact_mod_cast this
      rw [List.map_cons, List.sum_cons, add_mul, hz]
      push_cast
      rw [← e1, mul_assoc, ← pow_add, Nat.add_sub_cancel' hkd]
  refine key _ ?_ ?_
  · intro e he
    exact entries_calls cs _ _ e (List.mem_filter.1 he).1
  · intro e he
    have := (List.mem_filter.1 he).2
    simp only [decide_eq_true_eq] at this
    exact this.2.2.2

/-- Two currencies, one with one decimal and one with none: each is printed with its own. -/
example : (exportCmd (demoEnv [(b!"a", b!"2020/01/02 x\n  A  0.1 E\n  A  7 F\n  B  -0.1 E\n  B  -7 F\n")]) 1 okOps 1 demoApp .english demoPrint b!"Ledger" []).text? =
    some b!"2020/01/02 x\n  A  E 0.1\n  A  F 7\n  B  E -0.1\n  B  F -7\n\n\n; Prices\n" := by decide +kernel

end Verif
