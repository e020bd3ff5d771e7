import Verif.Spec.Scaled
import Verif.Props.Parts
import Verif.Props.Included

/-! # C157: a ledger with all its amounts multiplied -/

namespace Verif
open Spec

theorem headers_times (k : Rat) (cs : List Call) : headers (cs.map (timesCall k)) = headers cs := by
  induction cs with
  | nil => rfl
  | cons c cs ih => cases c <;> simp only [List.map_cons, timesCall, headers, ih]

theorem priceLines_times (k : Rat) (cs : List Call) : priceLines (cs.map (timesCall k)) = priceLines cs := by
  induction cs with
  | nil => rfl
  | cons c cs ih => cases c <;> simp only [List.map_cons, timesCall, priceLines, ih]

theorem esum_times (k : Rat) (u : Weight) : ∀ (cs : List Call) (cur : Int × Str) (ns : List (Int × Str)),
    esum u (entries cur ns (cs.map (timesCall k))) = k * esum u (entries cur ns cs) := by
  intro cs
  induction cs with
  | nil => intro cur ns; simp [entries, esum]
  | cons c cs ih =>
    intro cur ns
    cases c with
    | addPosting a c v n =>
      have := ih cur ns
      simp only [List.map_cons, timesCall, entries]
      unfold esum at this ⊢
      rw [List.map_cons, List.map_cons, List.sum_cons, List.sum_cons, this]
      ring
    | addPrice d u c v => simp only [List.map_cons, timesCall, entries]; exact ih _ _
    | newTransaction d p n =>
      cases ns with
      | nil => simp [timesCall, entries, esum]
      | cons n ns => simp only [List.map_cons, timesCall, entries]; exact ih _ _

theorem segments_times (k : Rat) : ∀ (cs : List Call) (cur : List (Str × Rat)),
    segments (cur.map fun x => (x.1, k * x.2)) (cs.map (timesCall k)) = (segments cur cs).map fun s => s.map fun x => (x.1, k * x.2) := by
  intro cs
  induction cs with
  | nil => intro cur; rfl
  | cons c cs ih =>
    intro cur
    cases c with
    | addPosting a c v n =>
      simp only [List.map_cons, timesCall, segments]
      rw [← ih]; simp
    | addPrice d u c v => simp only [List.map_cons, timesCall, segments, ih]
    | newTransaction d p n =>
      simp only [List.map_cons, timesCall, segments]
      rw [← ih]; rfl

theorem net_times (k : Rat) (c : Str) (s : List (Str × Rat)) : net c (s.map fun x => (x.1, k * x.2)) = k * net c s := by
  unfold net
  induction s with
  | nil => simp
  | cons x s ih =>
    simp only [List.map_cons, List.filter_cons]
    split_ifs with h
    · simp only [List.map_cons, List.sum_cons] at ih ⊢
      rw [ih]; ring
    · exact ih

/-- **C157** (a): if the ledger loads, so does the one with all amounts multiplied; and the other way round, unless they are multiplied by zero. -/
theorem c157_loads {le le' : Env} (he : le.Ok) (he' : le'.Ok) (hl : PlainLetters le) (hl' : PlainLetters le') {fs fs' : Str → Option (List FileLine)}
    (hdisk : OnDisk le fs) (hdisk' : OnDisk le' fs') {f f' : Str} {ls ls' : List FileLine} (hf : fs f = some ls) (hf' : fs' f' = some ls')
    {cs : List Call} (k : Rat) (hsay : FileSays fs le.join f [] [] ls cs) (hsay' : FileSays fs' le'.join f' [] [] ls' (cs.map (timesCall k)))
    (srt srt' : List Posting → List Posting) :
    (Loads srt le f → Loads srt' le' f') ∧ (k ≠ 0 → Loads srt' le' f' → Loads srt le f) := by
  rw [loads_iff he hl hdisk hf hsay, loads_iff he' hl' hdisk' hf' hsay']
  have e : segments [] (cs.map (timesCall k)) = _ := segments_times k cs []
  rw [e]
  constructor
  · intro h s hs
    obtain ⟨t, ht, rfl⟩ := List.mem_map.1 hs
    intro c
    rw [net_times, h t ht c, mul_zero]
  · intro hk h s hs c
    have := h _ (List.mem_map_of_mem hs) c
    rw [net_times] at this
    exact (mul_eq_zero.1 this).resolve_left hk

/-- Two ledgers, the second one that of the first with its amounts multiplied by `k`. -/
structure Multiplied (k : Rat) (le le' : Env) (f f' : Str) : Prop where
  ok : le.Ok
  ok' : le'.Ok
  letters : PlainLetters le
  letters' : PlainLetters le'
  disk : ∃ fs ls fs' ls' cs, OnDisk le fs ∧ fs f = some ls ∧ FileSays fs le.join f [] [] ls cs ∧
    OnDisk le' fs' ∧ fs' f' = some ls' ∧ FileSays fs' le'.join f' [] [] ls' (cs.map (timesCall k))

/-- The two books after the same operations. -/
theorem times_ops {k : Rat} {le le' : Env} {depth depth' : Nat} {e : OpEnv} (hs : IsSort e.srt) {fuel : Nat} {a : AppConf} {f' : Str}
    (h : Multiplied k le le' a.ledger f') {args : List Str} {b0 b0' b b' : Book} (l0 : loadCmd le depth e.srt a = .ok b0)
    (l1 : loadCmd le' depth' e.srt (a.reading f') = .ok b0') (o0 : opsCmd e fuel a args b0 = .ok b) (o1 : opsCmd e fuel a args b0' = .ok b') :
    (∀ u, NoPayee u → wsum (wt u) b'.post = k * wsum (wt u) b.post) ∧ b'.prices = b.prices := by
  obtain ⟨U, Q, hU, hlin⟩ := ops_linear hs fuel a args
  obtain ⟨_, p0, w0⟩ := hlin b0 b (good_load hs l0) o0
  obtain ⟨_, p1, w1⟩ := hlin b0' b' (good_load hs l1) o1
  obtain ⟨fs, ls, fs', ls', cs, hd, hf, hsay, hd', hf', hsay'⟩ := h.disk
  obtain ⟨ds, s1, b1, _⟩ := c96_loaded_book h.ok h.letters hd hf (loadCmd_book l0)
  obtain ⟨ds', s2, b2, _⟩ := c96_loaded_book h.ok' h.letters' hd' hf' (loadCmd_book l1)
  obtain ⟨i1, i2, i3⟩ := (readings_shuffled hsay [] ds (.refl _) s1).facts
  obtain ⟨j1, j2, j3⟩ := (readings_shuffled hsay' [] ds' (.refl _) s2).facts
  constructor
  · intro u hu
    rw [w0, w1, wsum_read hs b1 (hU u hu), wsum_read hs b2 (hU u hu), ← i1, ← j1]
    have q1 : esum (U u) (entries (-1, []) (headers cs) ds) = esum (U u) (entries (-1, []) (headers cs) cs) := (((i3 _ _).map _).sum_eq).symm
    have q2 : esum (U u) (entries (-1, []) (headers (cs.map (timesCall k))) ds') =
      esum (U u) (entries (-1, []) (headers (cs.map (timesCall k))) (cs.map (timesCall k))) := (((j3 _ _).map _).sum_eq).symm
    rw [q1, q2, headers_times, esum_times]
  · rw [p0, p1, built_pricesAfter b1, built_pricesAfter b2, ← i2, ← j2, priceLines_times]

/-- **C157** (b), listings: the report of the ledger with all amounts multiplied shows, under any dates, accounts and currencies, what the report of the
ledger shows there multiplied, after any operations, converted or not. -/
theorem c157_listing {k : Rat} {le le' : Env} (depth depth' : Nat) (e : OpEnv) (hs : IsSort e.srt) (fuel : Nat) (a : AppConf) (f' : Str)
    (h : Multiplied k le le' a.ledger f') (r : ReportConf) (hr : r.sum = false ∨ r.typ = b!"Beancount") (o o' : Int → Str → List Str → List Str)
    (args : List Str) (ts ts' : List Txn) (h0 : reportCmd le depth e fuel a r o args = .ok ts)
    (h1 : reportCmd le' depth' e fuel (a.reading f') r o' args = .ok ts') (P : Int → Str → Str → Bool) :
    chosenTotal P ts'.flatten = k * chosenTotal P ts.flatten := by
  obtain ⟨b0, b, l0, p0, t0⟩ := report_chosen hs hr h0 P
  obtain ⟨b0', b', l1, p1, t1⟩ := report_chosen hs hr h1 P
  obtain ⟨hw, hp⟩ := times_ops hs h l0 l1 p0 p1
  rw [t0, t1, hp]
  exact hw _ fun D P P' A C => rfl

/-- **C157** (c), summaries: the same for the rows of summaries (before signs are turned and the hidden account is left out): a row that both have is the
row multiplied, as a subtotal or as an account of its own in the same currency. -/
theorem c157_summary {k : Rat} {le le' : Env} (depth depth' : Nat) (e : OpEnv) (hs : IsSort e.srt) (fuel : Nat) (a : AppConf) (hdiv : a.divider ≠ [])
    (f' : Str) (h : Multiplied k le le' a.ledger f') (r : ReportConf) (hr : r.sum = true) (hcomb : combines r)
    (o o' : Int → Str → List Str → List Str) (ho : ∀ d py l, (o d py l).Perm l) (ho' : ∀ d py l, (o' d py l).Perm l)
    (args : List Str) (ts ts' : List Txn) (h0 : reportCmd le depth e fuel a r o args = .ok ts)
    (h1 : reportCmd le' depth' e fuel (a.reading f') r o' args = .ok ts') :
    ∃ (b b' : Book) (S S' : List Str) (gs gs' : List Txn),
      (loadCmd le depth e.srt a).bind (opsCmd e fuel a args) = .ok b ∧
      (loadCmd le' depth' e.srt (a.reading f')).bind (opsCmd e fuel a args) = .ok b' ∧
      SummaryOf b.prices e.today a r (reported e.srt b) S gs ∧ SummaryOf b'.prices e.today a r (reported e.srt b') S' gs' ∧
      ts = gs.map (shown (if r.credit = [] then none else some (e.mat r.credit)) r.hidden) ∧
      ts' = gs'.map (shown (if r.credit = [] then none else some (e.mat r.credit)) r.hidden) ∧
      (∀ d py ac, columnTree b'.prices e.today a r d py ac (reported e.srt b') = k * columnTree b.prices e.today a r d py ac (reported e.srt b)) ∧
      (∀ d py ac c, columnEntry b'.prices e.today a r d py ac c (reported e.srt b') = k * columnEntry b.prices e.today a r d py ac c (reported e.srt b)) ∧
      ∀ g ∈ gs, ∀ g' ∈ gs', ∀ x ∈ g, ∀ x' ∈ g', x'.date = x.date → x'.payee = x.payee → x'.acct = x.acct →
        (x.acct ∈ S → x.acct ∈ S' → x.acctlevel = (levelOf S a.divider x.acct : Int) → x'.acctlevel = (levelOf S' a.divider x.acct : Int) →
          x'.val = k * x.val) ∧
        (x.acct ∉ S → x.acct ∉ S' → x'.ccy = x.ccy → x'.val = k * x.val) := by
  obtain ⟨b0, b, l0, p0, S, gs, y0, z0⟩ := c116_summary le depth e hs fuel a hdiv r hr hcomb.1 o ho _ _ h0
  obtain ⟨b0', b1, l1, p1, S1, gs1, y1, z1⟩ := c116_summary le' depth' e hs fuel (a.reading f') hdiv r hr hcomb.1 o' ho' _ _ h1
  obtain ⟨hw, hp⟩ := times_ops hs h l0 l1 p0 p1
  have gb := good_ops hs (good_load hs l0) p0
  have gb1 := good_ops hs (good_load hs l1) p1
  have sub : ∀ {a : AppConf} {prices : PriceBook} {ps : List Posting} {S : List Str} {gs : List Txn}, SummaryOf prices e.today a r ps S gs → ∀ g ∈ gs, ∀ x ∈ g,
      x.acct ∈ S → x.acctlevel = (levelOf S a.divider x.acct : Int) → x.val = columnTree prices e.today a r x.date x.payee x.acct ps := by
    intro a prices ps S gs hz g hg x hx hS hl
    obtain ⟨y, h1, _, h3⟩ := (hz.columns g hg).sums x.acct hS
    have : x ∈ g.filter (fun y => decide (y.acct = x.acct ∧ y.acctlevel = (levelOf S a.divider x.acct : Int))) :=
      List.mem_filter.2 ⟨hx, by simp [hl]⟩
    rw [h1, List.mem_singleton] at this
    rw [this] at h3 ⊢
    exact h3
  have own : ∀ {a : AppConf} {prices : PriceBook} {ps : List Posting} {S : List Str} {gs : List Txn}, SummaryOf prices e.today a r ps S gs → ∀ g ∈ gs, ∀ x ∈ g,
      x.acct ∉ S → x.val = columnEntry prices e.today a r x.date x.payee x.acct x.ccy ps := by
    intro a prices ps S gs hz g hg x hx hS
    rcases (hz.columns g hg).rows x hx with ⟨h, _⟩ | h
    · exact absurd h hS
    · exact h
  have tree : ∀ {a : AppConf} {b : Book}, b.Good → ∀ d py ac, columnTree b.prices e.today a r d py ac (reported e.srt b) =
      wsum (wt (rowWeight b.prices e.today a.baseCCY r (fun d' ac' _ => decide ((d' = d ∧ [] = py) ∧ AtOrAbove a.divider ac ac')) false)) b.post := by
    intro a b gb d py ac
    unfold columnTree
    rw [weighted_wsum, ← wsum_reported hs (wt_key _) gb.1]
    refine wsum_congr fun p _ => ?_
    have hp : shownPayee r p = [] := if_pos hcomb
    have hiff : (InColumn e.today r d py p ∧ AtOrAbove a.divider ac p.acct) ↔
        ((shownDate e.today r p = d ∧ [] = py) ∧ AtOrAbove a.divider ac p.acct) := by unfold InColumn; rw [hp]
    show (if decide _ = true then _ else 0) = (if decide ((shownDate e.today r p = d ∧ [] = py) ∧ AtOrAbove a.divider ac p.acct) = true then _ else 0)
    rw [decide_eq_decide.2 hiff]
    rfl
  have entry : ∀ {a : AppConf} {b : Book}, b.Good → ∀ d py ac c, columnEntry b.prices e.today a r d py ac c (reported e.srt b) =
      wsum (wt (rowWeight b.prices e.today a.baseCCY r (fun d' ac' c' => decide ((d' = d ∧ [] = py) ∧ ac' = ac ∧ c' = c)) true)) b.post := by
    intro a b gb d py ac c
    unfold columnEntry
    rw [weighted_wsum, ← wsum_reported hs (wt_key _) gb.1]
    refine wsum_congr fun p _ => ?_
    have hp : shownPayee r p = [] := if_pos hcomb
    have hiff : (InColumn e.today r d py p ∧ p.acct = ac ∧ shownCCY a.baseCCY r p = c) ↔
        ((shownDate e.today r p = d ∧ [] = py) ∧ p.acct = ac ∧ shownCCY a.baseCCY r p = c) := by unfold InColumn; rw [hp]
    show (if decide _ = true then _ else 0) = (if decide ((shownDate e.today r p = d ∧ [] = py) ∧ p.acct = ac ∧ shownCCY a.baseCCY r p = c) = true then _ else 0)
    rw [decide_eq_decide.2 hiff]
    rfl
  have mulTree : ∀ d py ac, columnTree b1.prices e.today a r d py ac (reported e.srt b1) = k * columnTree b.prices e.today a r d py ac (reported e.srt b) := by
    intro d py ac
    rw [tree gb, tree gb1, hp]
    exact hw _ fun D P P' A C => rfl
  have mulEntry : ∀ d py ac c, columnEntry b1.prices e.today a r d py ac c (reported e.srt b1) =
      k * columnEntry b.prices e.today a r d py ac c (reported e.srt b) := by
    intro d py ac c
    rw [entry gb, entry gb1, hp]
    exact hw _ fun D P P' A C => rfl
  refine ⟨b, b1, S, S1, gs, gs1, by rw [l0]; exact p0, by rw [l1]; exact p1, z0,
    ⟨z1.1, fun g hg => ⟨(z1.2 g hg).1, (z1.2 g hg).2, (z1.2 g hg).3, (z1.2 g hg).4, (z1.2 g hg).5⟩, z1.3, z1.4, z1.5⟩, y0, y1, mulTree, mulEntry, ?_⟩
  intro g hg g1 hg1 x hx x1 hx1 e1 e2 e3
  constructor
  · intro s s1 t t1
    rw [sub z0 g hg x hx s t, sub z1 g1 hg1 x1 hx1 (by rw [e3]; exact s1) (by rw [e3]; exact t1), e1, e2, e3]
    exact mulTree _ _ _
  · intro s s1 c1
    rw [own z0 g hg x hx s, own z1 g1 hg1 x1 hx1 (by rw [e3]; exact s1), e1, e2, e3, c1]
    exact mulEntry _ _ _ _

/-! Non-vacuity: a ledger in euros, as it were, and the same in cents. -/

def eurLines : List FileLine := demoMain[3] :: partOne
def centLines : List FileLine :=
  [demoMain[3], .txn (demoTxn ⟨b!"2020", b!"1", b!"2"⟩ ⟨2020, 1, 2⟩ b!"shop"), partPost b!"A" b!"500" false, partPost b!"B" b!"500" true]

def centFiles : List (Str × List FileLine) := [(b!"eur", eurLines), (b!"cent", centLines)]
def centDisk (f : Str) : Option (List FileLine) := (centFiles.find? fun x => decide (x.1 = f)).map (·.2)
def centEnv : Env := demoEnv (centFiles.map fun x => (x.1, fileText x.2))

theorem cent_line : (∀ l ∈ eurLines, l.Valid) ∧ ∀ l ∈ centLines, l.Valid := by
  have hp : demoMain[3].Valid := ((demo_disk b!"main" demoMain rfl).2 demoMain[3] (List.getElem_mem _)).1
  constructor
  · intro l hl
    rcases List.mem_cons.1 hl with rfl | hl
    · exact hp
    · exact part_txn l (.inl hl)
  · intro l hl
    simp only [centLines, List.mem_cons, List.not_mem_nil, or_false] at hl
    rcases hl with rfl | rfl | rfl | rfl
    · exact hp
    · exact part_txn _ (.inl (by simp [partOne]))
    · exact ⟨⟨by decide, by decide, by decide, by decide, ⟨⟨by decide, by rintro f ⟨⟩⟩, by decide, by decide⟩, ⟨_, _, rfl, by decide⟩,
        by decide, by decide, by rintro _ c r ⟨⟩; decide, by decide, by rintro n ⟨⟩⟩, by decide⟩
    · exact ⟨⟨by decide, by decide, by decide, by decide, ⟨⟨by decide, by rintro f ⟨⟩⟩, by decide, by decide⟩, ⟨_, _, rfl, by decide⟩,
        by decide, by decide, by rintro _ c r ⟨⟩; decide, by decide, by rintro n ⟨⟩⟩, by decide⟩

theorem cent_disk : OnDisk centEnv centDisk := by
  have hmem : ∀ f ls, centDisk f = some ls → (f, ls) ∈ centFiles := by
    intro f ls h
    unfold centDisk at h
    rw [Option.map_eq_some_iff] at h
    obtain ⟨x, hx, rfl⟩ := h
    have h1 := List.mem_of_find?_eq_some hx
    have h2 := List.find?_some hx
    simp only [decide_eq_true_eq] at h2
    rw [← h2]; exact h1
  have hno : ∀ l, l ∈ eurLines ∨ l ∈ centLines → ∀ sp q g, l ≠ .incl sp q g := by
    rintro l hl sp q g rfl
    simp [eurLines, centLines, partOne, partPost, demoMain] at hl
  intro f ls hf
  have hm := hmem f ls hf
  simp only [centFiles, List.mem_cons, Prod.mk.injEq, List.not_mem_nil, or_false] at hm
  rcases hm with ⟨rfl, rfl⟩ | ⟨rfl, rfl⟩
  · exact ⟨by decide +kernel, fun l hl => ⟨cent_line.1 l hl, fun sp q g h => absurd h (hno l (.inl hl) sp q g)⟩⟩
  · exact ⟨by decide +kernel, fun l hl => ⟨cent_line.2 l hl, fun sp q g h => absurd h (hno l (.inr hl) sp q g)⟩⟩

def eurCalls : List Call := .addPrice 20200102 b!"X" b!"Y" (3 / 2) :: partCalls1

theorem eur_says (fn : Str) : FileSays centDisk centEnv.join fn [] [] eurLines eurCalls := by
  have h0 : (3 / 2 : Rat) = (⟨false, b!"1", some b!"5"⟩ : Numeral).value := by decide +kernel
  have h1 : (5 : Rat) = 1 * (⟨false, b!"5", none⟩ : Numeral).value := by decide +kernel
  have h2 : (-5 : Rat) = -1 * (⟨false, b!"5", none⟩ : Numeral).value := by decide +kernel
  unfold eurCalls partCalls1
  rw [h2, h1, h0]
  exact .price _ _ _ _ _ _ (.txn _ _ _ _ _ _ (.posting _ _ _ _ _ _ (.posting _ _ _ _ _ _ (.nil _ _ _))))

theorem cent_says (fn : Str) : FileSays centDisk centEnv.join fn [] [] centLines (eurCalls.map (timesCall 100)) := by
  have h0 : (3 / 2 : Rat) = (⟨false, b!"1", some b!"5"⟩ : Numeral).value := by decide +kernel
  have h1 : (100 * 5 : Rat) = 1 * (⟨false, b!"500", none⟩ : Numeral).value := by decide +kernel
  have h2 : (100 * -5 : Rat) = -1 * (⟨false, b!"500", none⟩ : Numeral).value := by decide +kernel
  unfold eurCalls partCalls1
  simp only [List.map_cons, List.map_nil, timesCall]
  rw [h2, h1, h0]
  exact .price _ _ _ _ _ _ (.txn _ _ _ _ _ _ (.posting _ _ _ _ _ _ (.posting _ _ _ _ _ _ (.nil _ _ _))))

/-- The hypotheses of C157 hold of the two ledgers. -/
theorem cent_demo : Multiplied 100 centEnv centEnv b!"eur" b!"cent" where
  ok := demoEnv_ok _
  ok' := demoEnv_ok _
  letters := demo_letters _
  letters' := demo_letters _
  disk := ⟨centDisk, _, centDisk, _, _, cent_disk, rfl, eur_says _, cent_disk, rfl, cent_says _⟩

/-- The totals of account A, at the price of 1.5, after half of it was moved elsewhere: 3.75 and 375; in the listing and as the row of a summary. -/
def centShown (sum : Bool) (f : Str) : Option Rat :=
  match reportCmd centEnv 5 plainOps 100 (partApp f) (partConf sum) (fun _ _ l => l) [b!"move=/A/Z/0.5/"] with
  | .ok ts => some (chosenTotal (fun _ ac _ => decide (ac = b!"A")) ts.flatten)
  | _ => none

example : centShown false b!"eur" = some (15 / 4) ∧ centShown false b!"cent" = some 375 ∧ centShown true b!"eur" = some (15 / 4) ∧
    centShown true b!"cent" = some 375 := by decide +kernel

end Verif
