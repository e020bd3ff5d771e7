import Verif.Props.Again

/-! # C126: a saved export as the ledger -/

namespace Verif

open Spec

theorem wsum_asLoaded (u : Weight) (ts : List Txn) : wsum (wt u) (ts.map asLoaded).flatten = wsum (wt u) ts.flatten := by
  induction ts with
  | nil => rfl
  | cons t ts ih =>
    rw [List.map_cons, List.flatten_cons, List.flatten_cons, wsum_append, wsum_append, ih]
    congr 1
    cases t with
    | nil => rfl
    | cons p t => exact wsum_map (wt u) (fun q => { q with tnote := p.tnote, acctterm := [] }) (wt u) (fun q => rfl) (p :: t)

/-- **C126** (partial: English, what the format can express, currencies renamed clearly): a report of a saved export shows what the report of the ledger
shows, with the operations of the export before its own: `goledger export OPS > f` and then `goledger -l f report MORE` is `goledger report OPS MORE`. -/
theorem c126_saved_partial (le : Env) (depth : Nat) (e : OpEnv) (he : e.Ok) (walk' : (Str → Bool) → (Str → Str) → PriceBook → PriceBook)
    (he' : (e.again e.srt walk').Ok) (a : AppConf) (hd : a.divider ≠ []) (x : PrintEnv) (hx : SoundPrint x) (typ : Str) (ht : LedgerType typ)
    (ops more flat : List Str) (hm : Expansion a.macros more flat) (r : ReportConf) (o o' : Int → Str → List Str → List Str)
    (ho : ∀ d py l, (o d py l).Perm l) (ho' : ∀ d py l, (o' d py l).Perm l) :
    ∃ n, ∀ fuel fuel', n ≤ fuel → n ≤ fuel' → ∀ b0 b, loadCmd le depth e.srt a = .ok b0 → opsCmd e fuel a ops b0 = .ok b → Writable e.srt x b →
      ClearOps e flat b.prices →
      ∃ text, exportCmd le depth e fuel a .english x typ ops = .ok (.text text) ∧
        ∀ (le1 : Env), le1.letter 10 = false → ∀ (depth1 : Nat) (f1 : Str), le1.files f1 = some text →
          SameShown r (reportCmd le depth e fuel a r o (ops ++ more)) (reportCmd le1 (depth1 + 1) (e.again e.srt walk') fuel' (a.reading f1) r o' more) := by
  obtain ⟨n, hn⟩ := near_ops he he' hm
  refine ⟨n, fun fuel fuel' i1 i2 b0 b h0 h1 hw hc => ?_⟩
  obtain ⟨text, k1, k2⟩ := export_then_load he hx ht h0 h1 hw
  refine ⟨text, k1, fun le1 hl depth1 f1 hfile => ?_⟩
  obtain ⟨bk, m1, m2, m3, _⟩ := k2 le1 hl depth1 (a.reading f1) hfile
  have gb := good_ops he.1 (good_load he.1 h0) h1
  have gk := good_load he.1 m1
  have hnear : NearBook { bk with prices := b.prices } bk := ⟨rfl, rfl, fun k => (m3 k).symm⟩
  have htot : SameTotals b { bk with prices := b.prices } := by
    refine ⟨gb, ⟨⟨gk.1.1, gk.1.2, gk.1.3, gk.1.4⟩, gk.2⟩, rfl, fun u => ?_⟩
    rw [← wsum_reported he.1 (wt_key u) gb.1, show ({ bk with prices := b.prices } : Book).post = bk.post from rfl, ← wsum_reported he.1 (wt_key u) gk.1]
    unfold reported
    rw [m2, wsum_asLoaded]
  have t1 := ops_totals he.1 fuel a more htot
  have t2 := hn fuel fuel' i1 i2 { bk with prices := b.prices } bk hnear hc
  unfold reportCmd
  rw [h0, show (e.again e.srt walk').srt = e.srt from rfl, m1]
  show SameShown r ((opsCmd e fuel a (ops ++ more) b0).bind _) ((opsCmd (e.again e.srt walk') fuel' (a.reading f1) more bk).bind _)
  rw [opsCmd_append, h1]
  show SameShown r ((opsCmd e fuel a more b).bind _) ((opsCmd (e.again e.srt walk') fuel' a more bk).bind (reportTxns (e.again e.srt walk') a r o'))
  generalize opsCmd e fuel a more b = X at t1
  generalize opsCmd e fuel a more { bk with prices := b.prices } = Y at t1 t2
  generalize opsCmd (e.again e.srt walk') fuel' a more bk = Z at t2
  have hrefl : ∀ x : CmdEnd (List Txn), (∀ ts, x ≠ .ok ts) → SameShown r x x := by
    intro x hx
    refine ⟨fun ts ts' h1 => absurd h1 (hx ts), fun _ => ?_⟩
    cases x with
    | ok ts => exact absurd rfl (hx ts)
    | _ => trivial
  cases X <;> cases Y <;> simp only [EndsLike] at t1 <;> cases Z <;> simp only [EndsLike] at t2 <;> simp only [CmdEnd.bind]
  · rw [← near_report (e := e) (walk' := walk') a r o' t2]
    exact report_totals he.1 hd r ho ho' t1
  all_goals exact hrefl _ (by simp)

/-- Non-vacuity: an export that renames a currency of a ledger with a price, and a report of it that renames an account. -/
example (le1 : Env) (hl : le1.letter 10 = false) (r : ReportConf) : ∃ n, ∀ fuel fuel', n ≤ fuel → n ≤ fuel' → ∃ text,
    exportCmd (demoEnv [(b!"a", fundFile)]) 1 okOps fuel demoApp .english demoPrint b!"Ledger" fundOps = .ok (.text text) ∧
      ∀ f1, le1.files f1 = some text → SameShown r (reportCmd (demoEnv [(b!"a", fundFile)]) 1 okOps fuel demoApp r (fun _ _ l => l) (fundOps ++ [b!"map=/A/C/"]))
        (reportCmd le1 1 okOps fuel' (demoApp.reading f1) r (fun _ _ l => l) [b!"map=/A/C/"]) := by
  obtain ⟨n, hn⟩ := c126_saved_partial (demoEnv [(b!"a", fundFile)]) 1 okOps okOps_ok okOps.walk okOps_ok demoApp (by decide) demoPrint demoPrint_sound
    b!"Ledger" (by unfold LedgerType; decide) fundOps [b!"map=/A/C/"] [b!"map=/A/C/"] (.prim rfl .nil) r (fun _ _ l => l) (fun _ _ l => l)
    (fun _ _ _ => .refl _) (fun _ _ _ => .refl _)
  refine ⟨n + 1, fun fuel fuel' i1 i2 => ?_⟩
  have h : (match loadCmd (demoEnv [(b!"a", fundFile)]) 1 insSort demoApp with
      | .ok b0 => match opsCmd okOps 1 demoApp fundOps b0 with
        | .ok b => writableB insSort demoPrint b
        | _ => false
      | _ => false) = true := by decide +kernel
  split at h <;> try cases h
  rename_i b0 hb0
  split at h <;> try cases h
  rename_i b hb
  have hb' : opsCmd okOps fuel demoApp fundOps b0 = .ok b := by
    obtain ⟨k, rfl⟩ : ∃ k, fuel = k + 1 := ⟨fuel - 1, by omega⟩
    exact hb
  obtain ⟨text, h1, h2⟩ := hn fuel fuel' (by omega) (by omega) b0 b hb0 hb' (writable_of_b h) (by
    have hp : (match parsePrim okOps b!"map=/A/C/" with
      | some (.mapccy _ _) => false
      | _ => true) = true := by decide +kernel
    unfold ClearOps
    split
    · rename_i hq; rw [hq] at hp; cases hp
    · trivial)
  exact ⟨text, h1, fun f1 hf => h2 le1 hl 0 f1 hf⟩

/-- What a saved export should be: its report shows what the report of the ledger shows. -/
def SavedServes (le : Env) (depth : Nat) (e : OpEnv) (fuel : Nat) (a : AppConf) (x : PrintEnv) (ops more : List Str) (r : ReportConf) : Prop :=
  ∀ (o : Int → Str → List Str → List Str) (_ : ∀ d py l, (o d py l).Perm l) (text : Str) (ts : List Txn),
    exportCmd le depth e fuel a .english x b!"Ledger" ops = .ok (.text text) → reportCmd le depth e fuel a r o (ops ++ more) = .ok ts →
    ∀ (le1 : Env), le1.letter 10 = false → ∀ (depth1 : Nat) (f1 : Str), le1.files f1 = some text →
      ∃ ts', reportCmd le1 (depth1 + 1) e fuel (a.reading f1) r o more = .ok ts' ∧ SameReport r ts ts'

/-- The export of an account renamed to one with a blank. -/
def blankText : Str := b!"2020/01/02 x\n  B  E -1.0\n  my cash  E 1.0\n\n\n; Prices\n"

/-- C126 is false of texts that the format cannot express: an account renamed to one with a blank is reported, and its saved export is refused. -/
theorem c126_account_fails : ¬ ∀ (le : Env) (depth : Nat) (e : OpEnv) (_ : e.Ok) (fuel : Nat) (a : AppConf) (_ : a.divider ≠ []) (x : PrintEnv)
    (_ : SoundPrint x) (ops more : List Str) (r : ReportConf), SavedServes le depth e fuel a x ops more r := by
  intro h
  have hr : (reportCmd (demoEnv [(b!"a", halvesFile)]) 1 okOps 1 demoApp (yearReport false b!"skip") (fun _ _ l => l) ([b!"map=/A/my cash/"] ++ [])).lines =
      some [[⟨20200102, b!"x", b!"B", b!"E", -1⟩, ⟨20200102, b!"x", b!"my cash", b!"E", 1⟩]] := by decide +kernel
  have ht : exportCmd (demoEnv [(b!"a", halvesFile)]) 1 okOps 1 demoApp .english demoPrint b!"Ledger" [b!"map=/A/my cash/"] =
      .ok (.text blankText) := text_some (by decide +kernel)
  have hk := h (demoEnv [(b!"a", halvesFile)]) 1 okOps okOps_ok 1 demoApp (by decide) demoPrint demoPrint_sound [b!"map=/A/my cash/"] []
    (yearReport false b!"skip") (fun _ _ l => l) (fun _ _ _ => .refl _) blankText
  generalize reportCmd (demoEnv [(b!"a", halvesFile)]) 1 okOps 1 demoApp (yearReport false b!"skip") (fun _ _ l => l) ([b!"map=/A/my cash/"] ++ []) = X at *
  cases X <;> try cases hr
  rename_i ts
  obtain ⟨ts', h1, _⟩ := hk ts ht rfl (demoEnv [(b!"a", blankText)]) (by decide) 0 b!"a" (by decide)
  have hx : (reportCmd (demoEnv [(b!"a", blankText)]) 1 okOps 1 (demoApp.reading b!"a")
      (yearReport false b!"skip") (fun _ _ l => l) []).lines = none := by decide +kernel
  have h1' := congrArg CmdEnd.lines h1
  rw [hx] at h1'
  cases h1'

/-- A whole number of units. -/
def unitsFile : Str := b!"2020/01/02 x\n  A  2 E\n  B  -2 E\n"

/-- The export with a quarter of it moved: rounded to the decimals of the ledger. -/
def roundedText : Str := b!"2020/01/02 x\n  A  E 2\n  B  E -2\n  C  E 0\n\n\n; Prices\n"

/-- C126 is false of amounts the operations divide further than the decimals of the ledger: the saved export has rounded them, and its report shows others. -/
theorem c126_rounded_fails : ¬ ∀ (le : Env) (depth : Nat) (e : OpEnv) (_ : e.Ok) (fuel : Nat) (a : AppConf) (_ : a.divider ≠ []) (x : PrintEnv)
    (_ : SoundPrint x) (ops more : List Str) (r : ReportConf), SavedServes le depth e fuel a x ops more r := by
  intro h
  have hr : (reportCmd (demoEnv [(b!"a", unitsFile)]) 1 okOps 1 demoApp (yearReport false b!"skip") (fun _ _ l => l) ([b!"move=/A/C/0.25/"] ++ [])).lines =
      some [[⟨20200102, b!"x", b!"A", b!"E", 3/2⟩, ⟨20200102, b!"x", b!"B", b!"E", -2⟩, ⟨20200102, b!"x", b!"C", b!"E", 1/2⟩]] := by decide +kernel
  have ht : exportCmd (demoEnv [(b!"a", unitsFile)]) 1 okOps 1 demoApp .english demoPrint b!"Ledger" [b!"move=/A/C/0.25/"] =
      .ok (.text roundedText) := text_some (by decide +kernel)
  have hk := h (demoEnv [(b!"a", unitsFile)]) 1 okOps okOps_ok 1 demoApp (by decide) demoPrint demoPrint_sound [b!"move=/A/C/0.25/"] []
    (yearReport false b!"skip") (fun _ _ l => l) (fun _ _ _ => .refl _) roundedText
  generalize reportCmd (demoEnv [(b!"a", unitsFile)]) 1 okOps 1 demoApp (yearReport false b!"skip") (fun _ _ l => l) ([b!"move=/A/C/0.25/"] ++ []) = X at *
  cases X <;> try cases hr
  rename_i ts
  obtain ⟨ts', h1, h2⟩ := hk ts ht rfl (demoEnv [(b!"a", roundedText)]) (by decide) 0 b!"a" (by decide)
  have hx : (reportCmd (demoEnv [(b!"a", roundedText)]) 1 okOps 1 (demoApp.reading b!"a")
      (yearReport false b!"skip") (fun _ _ l => l) []).lines = some [[⟨20200102, b!"x", b!"A", b!"E", 2⟩, ⟨20200102, b!"x", b!"B", b!"E", -2⟩]] := by decide +kernel
  have h1' := congrArg CmdEnd.lines h1
  rw [hx] at h1'
  unfold SameReport at h2
  rw [if_neg (by decide)] at h2
  have hlen := congrArg (fun l : List (List Obs) => l.map List.length) h2
  simp only [List.map_map, Function.comp_def, List.length_map] at hlen
  unfold CmdEnd.lines at hr h1'
  have e1 := congrArg (fun l : List (List Line) => l.map List.length) (Option.some.inj hr)
  have e2 := congrArg (fun l : List (List Line) => l.map List.length) (Option.some.inj h1')
  simp only [List.map_map, Function.comp_def, List.length_map] at e1 e2
  rw [e1, ← e2] at hlen
  cases hlen

end Verif
