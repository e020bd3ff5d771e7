import Verif.Props.Repriced

/-! # C160 (d): summaries of a ledger with all its prices multiplied -/

namespace Verif
open Spec

/-- Where there is a summary there is the listing, converted or not. -/
theorem summary_listing {le : Env} {depth : Nat} {e : OpEnv} {fuel : Nat} {a : AppConf} {r : ReportConf} (ht : r.typ ≠ b!"Beancount") {o : Int → Str → List Str → List Str}
    {args : List Str} {ts : List Txn} (h : reportCmd le depth e fuel a r o args = .ok ts) :
    (∃ t, reportCmd le depth e fuel a { r with sum := false } o args = .ok t) ∧
    ∃ t, reportCmd le depth e fuel a { r with convert := false, sum := false } o args = .ok t := by
  unfold reportCmd at h
  obtain ⟨b, h1, h2⟩ := bind_ok h
  unfold reportTxns at h2
  rw [if_neg ht] at h2
  obtain ⟨fb, h3, h4⟩ := bind_ok h2
  have hv : ¬ (r.credit ≠ [] ∧ e.valid r.credit = false) := by
    intro hv
    unfold sumCmd at h4
    rw [if_pos hv] at h4
    cases h4
  constructor
  · unfold reportCmd
    rw [h1]
    refine ⟨fb.transactions e.srt, ?_⟩
    show reportTxns e a { r with sum := false } o b = _
    unfold reportTxns
    rw [if_neg ht]
    show (convertCmd a r.convert (if r.combineby ≠ b!"skip" then b.splitBy e.srt e.today r.combineby else b)).bind _ = _
    rw [h3]
    show sumCmd e a { r with sum := false } o fb = _
    unfold sumCmd
    rw [if_neg hv]
    rfl
  · unfold reportCmd
    rw [h1]
    refine ⟨(if r.combineby ≠ b!"skip" then b.splitBy e.srt e.today r.combineby else b).transactions e.srt, ?_⟩
    show reportTxns e a { r with convert := false, sum := false } o b = _
    unfold reportTxns
    rw [if_neg ht]
    show sumCmd e a { r with convert := false, sum := false } o (if r.combineby ≠ b!"skip" then b.splitBy e.srt e.today r.combineby else b) = _
    unfold sumCmd
    rw [if_neg hv]
    rfl

/-- What a converted summary has on an account and below it is what the converted listing shows there. -/
theorem tree_listing {le : Env} {depth : Nat} {e : OpEnv} (hs : IsSort e.srt) {fuel : Nat} {a : AppConf} {r : ReportConf} (hcomb : combines r)
    (hcv : r.convert = true) {o : Int → Str → List Str → List Str} {args : List Str} {b0 b : Book} (l0 : loadCmd le depth e.srt a = .ok b0)
    (p0 : opsCmd e fuel a args b0 = .ok b) {t : List Txn} (h : reportCmd le depth e fuel a { r with sum := false } o args = .ok t) (d : Int) (ac : Str) :
    columnTree b.prices e.today a r d [] ac (reported e.srt b) = chosenTotal (fun d' ac' _ => decide (d' = d ∧ AtOrAbove a.divider ac ac')) t.flatten ∧
    columnEntry b.prices e.today a r d [] ac a.baseCCY (reported e.srt b) = chosenTotal (fun d' ac' _ => decide (d' = d ∧ ac' = ac)) t.flatten := by
  have hc : converts r := ⟨hcomb.1, hcv⟩
  have hg := good_ops hs (good_load hs l0) p0
  constructor
  · obtain ⟨c0, c, k0, k1, hP⟩ := report_chosen hs (.inl rfl) h (fun d' ac' _ => decide (d' = d ∧ AtOrAbove a.divider ac ac'))
    rw [l0] at k0; cases k0
    rw [p0] at k1; cases k1
    rw [hP]
    unfold columnTree
    rw [weighted_wsum, ← wsum_reported hs (wt_key _) hg.1]
    refine wsum_congr fun p _ => ?_
    have hp : shownPayee r p = [] := if_pos hcomb
    have hccy : shownCCY a.baseCCY r p = a.baseCCY := if_pos hc
    have hiff : (InColumn e.today r d [] p ∧ AtOrAbove a.divider ac p.acct) ↔ (shownDate e.today r p = d ∧ AtOrAbove a.divider ac p.acct) := by
      unfold InColumn; rw [hp]; simp
    unfold sumRate
    rw [if_pos hccy]
    show (if decide _ = true then _ else 0) = (if decide (shownDate e.today r p = d ∧ AtOrAbove a.divider ac p.acct) = true then _ else 0)
    rw [decide_eq_decide.2 hiff]
    rfl
  · obtain ⟨c0, c, k0, k1, hP⟩ := report_chosen hs (.inl rfl) h (fun d' ac' _ => decide (d' = d ∧ ac' = ac))
    rw [l0] at k0; cases k0
    rw [p0] at k1; cases k1
    rw [hP]
    unfold columnEntry
    rw [weighted_wsum, ← wsum_reported hs (wt_key _) hg.1]
    refine wsum_congr fun p _ => ?_
    have hp : shownPayee r p = [] := if_pos hcomb
    have hccy : shownCCY a.baseCCY r p = a.baseCCY := if_pos hc
    have hiff : (InColumn e.today r d [] p ∧ p.acct = ac ∧ shownCCY a.baseCCY r p = a.baseCCY) ↔ (shownDate e.today r p = d ∧ p.acct = ac) := by
      unfold InColumn; rw [hp, hccy]; simp
    show (if decide _ = true then _ else 0) = (if decide (shownDate e.today r p = d ∧ p.acct = ac) = true then _ else 0)
    rw [decide_eq_decide.2 hiff]
    rfl

/-- **C160** (d), summaries: the same for the rows of converted summaries (before signs are turned and the hidden account is left out): of the row of an
account that both summaries have, as a subtotal or as an account of its own, what comes from priced currencies is multiplied. -/
theorem c160_summary {k : Rat} {le le' : Env} (depth depth' : Nat) (e : OpEnv) (hs : IsSort e.srt) (fuel : Nat) (a : AppConf) (hdiv : a.divider ≠ []) (f' : Str)
    (cs : List Call) (h : Repriced k a.baseCCY le le' a.ledger f' cs) (args : List Str) (hm : ∀ op, Used a.macros args op → ¬ RenamesCCY op)
    (r : ReportConf) (hr : r.sum = true) (hcomb : combines r) (hcv : r.convert = true) (o o' : Int → Str → List Str → List Str)
    (ho : ∀ d py l, (o d py l).Perm l) (ho' : ∀ d py l, (o' d py l).Perm l) (ts ts' : List Txn) (h0 : reportCmd le depth e fuel a r o args = .ok ts)
    (h1 : reportCmd le' depth' e fuel (a.reading f') r o' args = .ok ts') :
    ∃ (b b' : Book) (S S' : List Str) (gs gs' t0 : List Txn),
      (loadCmd le depth e.srt a).bind (opsCmd e fuel a args) = .ok b ∧
      (loadCmd le' depth' e.srt (a.reading f')).bind (opsCmd e fuel a args) = .ok b' ∧
      SummaryOf b.prices e.today a r (reported e.srt b) S gs ∧ SummaryOf b'.prices e.today a r (reported e.srt b') S' gs' ∧
      ts = gs.map (shown (if r.credit = [] then none else some (e.mat r.credit)) r.hidden) ∧
      ts' = gs'.map (shown (if r.credit = [] then none else some (e.mat r.credit)) r.hidden) ∧
      reportCmd le depth e fuel a { r with convert := false, sum := false } o args = .ok t0 ∧
      ∀ g ∈ gs, ∀ g' ∈ gs', ∀ x ∈ g, ∀ x' ∈ g', x'.date = x.date → x'.payee = [] → x.payee = [] → x'.acct = x.acct →
        (x.acct ∈ S → x.acct ∈ S' → x.acctlevel = (levelOf S a.divider x.acct : Int) → x'.acctlevel = (levelOf S' a.divider x.acct : Int) →
          x'.val = k * x.val + (1 - k) * chosenTotal (fun d ac c => decide (d = x.date ∧ AtOrAbove a.divider x.acct ac) && decide (Standing a.baseCCY cs c)) t0.flatten) ∧
        (x.acct ∉ S → x.acct ∉ S' → x.ccy = a.baseCCY → x'.ccy = a.baseCCY →
          x'.val = k * x.val + (1 - k) * chosenTotal (fun d ac c => decide (d = x.date ∧ ac = x.acct) && decide (Standing a.baseCCY cs c)) t0.flatten) := by
  obtain ⟨b0, b, l0, p0, S, gs, y0, z0⟩ := c116_summary le depth e hs fuel a hdiv r hr hcomb.1 o ho _ _ h0
  obtain ⟨b0', b1, l1, p1, S1, gs1, y1, z1⟩ := c116_summary le' depth' e hs fuel (a.reading f') hdiv r hr hcomb.1 o' ho' _ _ h1
  obtain ⟨⟨t, q0⟩, t0, q2⟩ := summary_listing hcomb.1 h0
  obtain ⟨⟨t', q1⟩, _⟩ := summary_listing hcomb.1 h1
  have e0 : ({ r with sum := false } : ReportConf) = { { r with sum := false } with convert := true } := by rw [← hcv]
  have main := fun P => c160_converted depth depth' e hs fuel a f' cs h args hm { r with sum := false } rfl hcomb.1 o o' o t t' t0 (by rw [← e0]; exact q0)
    (by rw [← e0]; exact q1) q2 P
  have sub : ∀ {a : AppConf} {prices : PriceBook} {ps : List Posting} {S : List Str} {gs : List Txn}, SummaryOf prices e.today a r ps S gs → ∀ g ∈ gs, ∀ x ∈ g,
      x.acct ∈ S → x.acctlevel = (levelOf S a.divider x.acct : Int) → x.val = columnTree prices e.today a r x.date x.payee x.acct ps := by
    intro a prices ps S gs hz g hg x hx hS hl
    obtain ⟨y, h1, _, h3⟩ := (hz.columns g hg).sums x.acct hS
    have : x ∈ g.filter (fun y => decide (y.acct = x.acct ∧ y.acctlevel = (levelOf S a.divider x.acct : Int))) :=
      List.mem_filter.2 ⟨hx, by simp [hl]⟩
    rw [h1, List.mem_singleton] at this
    rw [this] at h3 ⊢
    exact h3
  have own : ∀ {a : AppConf} {prices : PriceBook} {ps : List Posting} {S : List Str} {gs : List Txn}, SummaryOf prices e.today a r ps S gs → ∀ g ∈ gs, ∀ x ∈ g,
      x.acct ∉ S → x.val = columnEntry prices e.today a r x.date x.payee x.acct x.ccy ps := by
    intro a prices ps S gs hz g hg x hx hS
    rcases (hz.columns g hg).rows x hx with ⟨h, _⟩ | h
    · exact absurd h hS
    · exact h
  refine ⟨b, b1, S, S1, gs, gs1, t0, by rw [l0]; exact p0, by rw [l1]; exact p1, z0,
    ⟨z1.1, fun g hg => ⟨(z1.2 g hg).1, (z1.2 g hg).2, (z1.2 g hg).3, (z1.2 g hg).4, (z1.2 g hg).5⟩, z1.3, z1.4, z1.5⟩, y0, y1, q2, ?_⟩
  intro g hg g1 hg1 x hx x1 hx1 e1 e2 e3 e4
  constructor
  · intro s s1 u u1
    rw [sub z0 g hg x hx s u, sub z1 g1 hg1 x1 hx1 (by rw [e4]; exact s1) (by rw [e4]; exact u1), e1, e2, e3, e4,
      (tree_listing hs hcomb hcv l0 p0 q0 _ _).1, (tree_listing hs hcomb hcv l1 p1 q1 _ _).1]
    exact main fun d ac => decide (d = x.date ∧ AtOrAbove a.divider x.acct ac)
  · intro s s1 c c1
    rw [own z0 g hg x hx s, own z1 g1 hg1 x1 hx1 (by rw [e4]; exact s1), e1, e2, e3, e4, c, c1,
      (tree_listing hs hcomb hcv l0 p0 q0 _ _).2]
    have := (tree_listing hs hcomb hcv l1 p1 q1 x.date x.acct).2
    rw [show (a.reading f').baseCCY = a.baseCCY from rfl] at this
    rw [this]
    exact main fun d ac => decide (d = x.date ∧ ac = x.acct)

/-- The row of account A: 9.5 is 7.5 of priced currencies and 2 of others; 24.5 is three times 7.5 and 2. -/
def dearRow (f : Str) : Option Rat :=
  match reportCmd dearEnv 5 plainOps 100 (partApp f) { partConf true with convert := true } (fun _ _ l => l) [] with
  | .ok ts => some (chosenTotal (fun _ ac _ => decide (ac = b!"A")) ts.flatten)
  | _ => none

example : dearRow b!"cheap" = some (19 / 2) ∧ dearRow b!"dear" = some (49 / 2) := by decide +kernel

example : combines { partConf true with convert := true } := by decide

end Verif
