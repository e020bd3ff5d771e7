import Verif.Props.Again
import Verif.Props.RegisterCmd

/-! # C117 and C125 for `register` -/

namespace Verif

open Spec

/-- The rows of two runs, without the notes. -/
def bareRows (x : Option (RegState × List RegEntry)) : Option (RegState × List RegEntry) := x.map fun y => (y.1, y.2.map noNotes)

/-- One step after another, without the notes. -/
theorem bareRows_bind {x y : Option (RegState × List RegEntry)} (hxy : bareRows x = bareRows y) {f g : RegState → Option (RegState × List RegEntry)}
    (hf : ∀ s, bareRows (f s) = bareRows (g s)) :
    bareRows (x.bind fun z => (f z.1).map fun w => (w.1, z.2 ++ w.2)) = bareRows (y.bind fun z => (g z.1).map fun w => (w.1, z.2 ++ w.2)) := by
  unfold bareRows at *
  cases x with
  | none => cases y with
    | none => rfl
    | some y => cases hxy
  | some x =>
    cases y with
    | none => cases hxy
    | some y =>
      obtain ⟨x1, x2⟩ := x
      obtain ⟨y1, y2⟩ := y
      simp only [Option.map_some, Option.some.injEq, Prod.mk.injEq] at hxy
      obtain ⟨rfl, h2⟩ := hxy
      simp only [Option.bind_some]
      have := hf x1
      cases hx : f x1 with
      | none =>
        rw [hx] at this
        cases hy : g x1 with
        | none => rfl
        | some z => rw [hy] at this; cases this
      | some w =>
        rw [hx] at this
        cases hy : g x1 with
        | none => rw [hy] at this; cases this
        | some z =>
          rw [hy] at this
          simp only [Option.map_some, Option.some.injEq, Prod.mk.injEq, List.map_append] at this ⊢
          exact ⟨this.1, by rw [h2, this.2]⟩

section
variable {t t' : Txn} (h : List.Forall₂ Alike t t')
include h

theorem alike_get (i : Nat) : (t[i]? = none ∧ t'[i]? = none) ∨ ∃ p q, t[i]? = some p ∧ t'[i]? = some q ∧ Alike p q := by
  induction h generalizing i with
  | nil => exact .inl ⟨by simp, by simp⟩
  | cons hp _ ih =>
    cases i with
    | zero => exact .inr ⟨_, _, by simp, by simp, hp⟩
    | succ i => simpa using ih i

theorem inferLoop_alike (base unit : Str) : ∀ (f : Nat) (last : Int) (i : Nat), inferLoop t base unit f last i = inferLoop t' base unit f last i := by
  intro f
  induction f with
  | zero => intros; rfl
  | succ f ih =>
    intro last i
    have hget : ∀ k, ((if k ≤ i then t[i - k]? else none) = none ∧ (if k ≤ i then t'[i - k]? else none) = none) ∨
        ∃ p q, (if k ≤ i then t[i - k]? else none) = some p ∧ (if k ≤ i then t'[i - k]? else none) = some q ∧ Alike p q := by
      intro k
      by_cases hk : k ≤ i
      · rw [if_pos hk, if_pos hk]; exact alike_get h _
      · rw [if_neg hk, if_neg hk]; exact .inl ⟨rfl, rfl⟩
    simp only [inferLoop, h.length_eq]
    rcases hget 1 with ⟨h1, h2⟩ | ⟨p, q, h1, h2, hpq⟩
    all_goals rcases hget 2 with ⟨h3, h4⟩ | ⟨p', q', h3, h4, hpq'⟩
    all_goals rcases alike_get h i with ⟨h5, h6⟩ | ⟨x, y, h5, h6, hxy⟩
    all_goals rcases alike_get h last.toNat with ⟨h7, h8⟩ | ⟨x', y', h7, h8, hxy'⟩
    all_goals rw [h1, h2, h3, h4, h5, h6, h7, h8]
    all_goals simp only [ih]
    all_goals try simp only [hxy.fields.2.2.1]
    all_goals try simp only [hxy'.fields.2.2.1]
    all_goals try simp only [hpq.fields.2.2.2.1, hpq.fields.2.2.2.2.1, hpq'.fields.2.2.2.1, hpq'.fields.2.2.2.2.1]

theorem inferRate_alike (base unit : Str) : inferRate t base unit = inferRate t' base unit := by
  unfold inferRate
  rw [h.length_eq, inferLoop_alike h]

theorem counterPosts_alike {p q : Posting} (hpq : Alike p q) : List.Forall₂ Alike (counterPosts t p) (counterPosts t' q) := by
  unfold counterPosts
  induction h with
  | nil => exact .nil
  | cons hx _ ih =>
    rw [List.filter_cons, List.filter_cons]
    simp only [hx.fields.2.2.1, hx.fields.2.2.2.1, hx.fields.2.2.2.2.1, hpq.fields.2.2.1, hpq.fields.2.2.2.1, hpq.fields.2.2.2.2.1] at ih ⊢
    split
    · exact .cons hx ih
    · exact ih

theorem regAllocs_alike {p q : Posting} (hpq : Alike p q) (split : Bool) : regAllocs t p split = regAllocs t' q split := by
  have hc := counterPosts_alike h hpq
  have hv : (counterPosts t p).map (·.val) = (counterPosts t' q).map (·.val) := by
    generalize counterPosts t p = l at hc; generalize counterPosts t' q = m at hc
    induction hc with
    | nil => rfl
    | cons hx _ ih => rw [List.map_cons, List.map_cons, ih, hx.fields.2.2.2.2.1]
  have ha : (counterPosts t p).map (·.acct) = (counterPosts t' q).map (·.acct) := by
    clear hv
    generalize counterPosts t p = l at hc; generalize counterPosts t' q = m at hc
    induction hc with
    | nil => rfl
    | cons hx _ ih => rw [List.map_cons, List.map_cons, ih, hx.fields.2.2.1]
  have hm : ∀ s, (counterPosts t p).map (fun tp => (tp.acct, tp.val * p.val * s)) = (counterPosts t' q).map (fun tp => (tp.acct, tp.val * q.val * s)) := by
    intro s
    clear hv ha
    generalize counterPosts t p = l at hc; generalize counterPosts t' q = m at hc
    induction hc with
    | nil => rfl
    | cons hx _ ih => rw [List.map_cons, List.map_cons, ih, hx.fields.2.2.1, hx.fields.2.2.2.2.1, hpq.fields.2.2.2.2.1]
  unfold regAllocs
  simp only
  rw [hc.length_eq, hv, ha, hm, hpq.fields.2.2.2.2.1]

theorem regBase_alike {P P' : PriceBook} (hP : P.getPrice = P'.getPrice) (base : Str) (d : Int) {p q : Posting} (hpq : Alike p q) (amt : Rat) :
    regBase P base t d p amt = regBase P' base t' d q amt := by
  unfold regBase
  rw [hpq.fields.2.2.2.1, inferRate_alike h, hP]

theorem regRows_alike {P P' : PriceBook} (hP : P.getPrice = P'.getPrice) (base : Str) (d : Int) (py : Str) {p q : Posting} (hpq : Alike p q) :
    ∀ (as : List (Str × Rat)) (s : RegState), bareRows (regRows P base t d py p as s) = bareRows (regRows P' base t' d py q as s) := by
  intro as
  induction as with
  | nil => intro s; rfl
  | cons x as ih =>
    intro s
    obtain ⟨v, amt⟩ := x
    simp only [regRows]
    rw [regBase_alike h hP base d hpq, hpq.fields.2.2.2.1, hpq.fields.2.2.1]
    cases regBase P' base t' d q amt with
    | none => rfl
    | some y =>
      obtain ⟨ba, src⟩ := y
      simp only
      have := ih ⟨amtAdd s.bals q.ccy amt, s.baseBal + ba⟩
      unfold bareRows at this ⊢
      cases hx : regRows P base t d py p as ⟨amtAdd s.bals q.ccy amt, s.baseBal + ba⟩ with
      | none =>
        rw [hx] at this
        cases hy : regRows P' base t' d py q as ⟨amtAdd s.bals q.ccy amt, s.baseBal + ba⟩ with
        | none => rfl
        | some z => rw [hy] at this; cases this
      | some w =>
        rw [hx] at this
        cases hy : regRows P' base t' d py q as ⟨amtAdd s.bals q.ccy amt, s.baseBal + ba⟩ with
        | none => rw [hy] at this; cases this
        | some z =>
          rw [hy] at this
          simp only [Option.map_some, Option.some.injEq, Prod.mk.injEq] at this
          obtain ⟨w1, w2⟩ := w
          obtain ⟨z1, z2⟩ := z
          simp only [Option.map_some, List.map_cons, Option.some.injEq, Prod.mk.injEq] at this ⊢
          refine ⟨this.1, ?_⟩
          rw [this.2]
          rfl

theorem regTxn_alike {P P' : PriceBook} (hP : P.getPrice = P'.getPrice) (base : Str) (mat : Str → Bool) (split : Bool) {l l' : List Posting}
    (hl : List.Forall₂ Alike l l') : ∀ s, bareRows (regTxn P base mat split t l s) = bareRows (regTxn P' base mat split t' l' s) := by
  induction hl with
  | nil => intro s; rfl
  | @cons p q l l' hpq _ ih =>
    intro s
    simp only [regTxn]
    rw [hpq.fields.2.2.1]
    by_cases hm : mat q.acct = true
    · rw [if_pos hm, if_pos hm, regAllocs_alike h hpq]
      cases h with
      | nil => rfl
      | @cons f f' r r' hf hr =>
        cases regAllocs (f' :: r') q split with
        | none => rfl
        | some as =>
          have k := bareRows_bind (regRows_alike (.cons hf hr) hP base f.date f.payee hpq as s) ih
          rw [hf.fields.1, hf.fields.2.1] at k
          simp only [hf.fields.1, hf.fields.2.1]
          convert k using 1
          · cases regRows P base (f :: r) f'.date f'.payee p as s with
            | none => rfl
            | some z =>
              simp only [Option.bind_some]
              cases regTxn P base mat split (f :: r) l z.1 <;> rfl
          · cases regRows P' base (f' :: r') f'.date f'.payee q as s with
            | none => rfl
            | some z =>
              simp only [Option.bind_some]
              cases regTxn P' base mat split (f' :: r') l' z.1 <;> rfl
    · rw [if_neg hm, if_neg hm]; exact ih s

end

theorem regAll_alike {P P' : PriceBook} (hP : P.getPrice = P'.getPrice) (base : Str) (mat : Str → Bool) (split : Bool) {ts ts' : List Txn}
    (h : List.Forall₂ (List.Forall₂ Alike) ts ts') : ∀ s, bareRows (regAll P base mat split ts s) = bareRows (regAll P' base mat split ts' s) := by
  induction h with
  | nil => intro s; rfl
  | @cons t t' ts ts' ht _ ih =>
    intro s
    have k := bareRows_bind (regTxn_alike ht hP base mat split ht s) ih
    simp only [regAll]
    convert k using 1
    · cases regTxn P base mat split t t s with
      | none => rfl
      | some z =>
        simp only [Option.bind_some]
        cases regAll P base mat split ts z.1 <;> rfl
    · cases regTxn P' base mat split t' t' s with
      | none => rfl
      | some z =>
        simp only [Option.bind_some]
        cases regAll P' base mat split ts' z.1 <;> rfl

theorem bare_dates {l m : List RegEntry} (h : l.map noNotes = m.map noNotes) : l.map (·.date) = m.map (·.date) := by
  have := congrArg (List.map fun r : RegEntry => r.date) h
  simpa [List.map_map, Function.comp_def, noNotes] using this

theorem fbdLoop_dates (mn mx : Int) : ∀ (l m : List RegEntry), l.map (·.date) = m.map (·.date) → ∀ (i : Nat) (st : Option Nat) (sp : Nat),
    fbdLoop mn mx l i st sp = fbdLoop mn mx m i st sp := by
  intro l
  induction l with
  | nil => intro m h; cases m with
    | nil => intros; rfl
    | cons => cases h
  | cons x l ih =>
    intro m h i st sp
    cases m with
    | nil => cases h
    | cons y m =>
      simp only [List.map_cons, List.cons.injEq] at h
      simp only [fbdLoop, h.1]
      split
      · rfl
      · exact ih m h.2 _ _ _

theorem filterByDate_bare {mn mx : Int} {l m : List RegEntry} (h : l.map noNotes = m.map noNotes) :
    (filterByDate mn mx l).map (·.map noNotes) = (filterByDate mn mx m).map (·.map noNotes) := by
  have hl : l.length = m.length := by simpa using congrArg List.length h
  unfold filterByDate
  rw [fbdLoop_dates mn mx l m (bare_dates h), hl]
  split
  · exact congrArg some h
  · split
    · rfl
    · split
      · simp only [Option.map_some, List.map_take, List.map_drop, h]
      · rfl

theorem showRows_bare {n : Int} {asc : Bool} {l m : List RegEntry} (h : l.map noNotes = m.map noNotes) :
    (showRows n asc l).map (·.map noNotes) = (showRows n asc m).map (·.map noNotes) := by
  have hc : (countRows n l).map noNotes = (countRows n m).map noNotes := by
    have hl : l.length = m.length := by simpa using congrArg List.length h
    unfold countRows
    simp only [hl]
    split
    · rw [show (l.take n.toNat).length = (m.take n.toNat).length by simp [hl]]
      split <;> simp only [List.map_take, List.map_drop, h]
    · rw [hl]
      split <;> simp only [List.map_drop, h]
  unfold showRows
  generalize countRows n l = l' at hc
  generalize countRows n m = m' at hc
  have hl : l'.length = m'.length := by simpa using congrArg List.length hc
  unfold orderRows
  split
  · simp only [List.map_map, Function.comp_def, Option.map_some]
    have := congrArg (List.map some) hc
    simpa [List.map_map, Function.comp_def] using this
  · rw [hl, List.map_map, List.map_map]
    refine List.map_congr_left fun j _ => ?_
    simp only [Function.comp_apply]
    split
    · rw [← List.getElem?_map, hc, List.getElem?_map]
    · rfl

/-- The rows of two registers. -/
theorem registerRows_like {e e' : OpEnv} (ht : e'.today = e.today) {a a' : AppConf} (ha : a'.baseCCY = a.baseCCY) (r : RegisterConf) (mat : Str → Bool) {b b' : Book}
    (htx : List.Forall₂ (List.Forall₂ Alike) (b.transactions e.srt) (b'.transactions e'.srt)) (hP : b.prices.getPrice = b'.prices.getPrice) :
    EndsLike (fun x y => x.map (·.map noNotes) = y.map (·.map noNotes)) (registerRows e a r mat b) (registerRows e' a' r mat b') := by
  have hx : (b.extractRegister e.srt a.baseCCY mat r.split).map (·.map noNotes) = (b'.extractRegister e'.srt a.baseCCY mat r.split).map (·.map noNotes) := by
    have := congrArg (Option.map Prod.snd) (regAll_alike hP a.baseCCY mat r.split htx ⟨[], 0⟩)
    unfold Book.extractRegister
    unfold bareRows at this
    simpa [Option.map_map, Function.comp_def] using this
  unfold registerRows filterByDateStr
  rw [ht, ha]
  generalize b.extractRegister e.srt a.baseCCY mat r.split = x at hx
  generalize b'.extractRegister e'.srt a.baseCCY mat r.split = y at hx
  cases x with
  | none => cases y with
    | none => trivial
    | some y => cases hx
  | some x =>
    cases y with
    | none => cases hx
    | some y =>
      have := filterByDate_bare (mn := dateFromString e.today r.beginDate) (mx := dateFromString e.today r.endDate) (Option.some.inj hx)
      simp only [Option.bind_some]
      generalize filterByDate (dateFromString e.today r.beginDate) (dateFromString e.today r.endDate) x = x' at this
      generalize filterByDate (dateFromString e.today r.beginDate) (dateFromString e.today r.endDate) y = y' at this
      cases x' with
      | none => cases y' with
        | none => trivial
        | some y => cases this
      | some x' =>
        cases y' with
        | none => cases this
        | some y' => exact showRows_bare (Option.some.inj this)

theorem accounts_alike {l m : List Posting} (h : List.Forall₂ Alike l m) (mat : Str → Bool) :
    ((l.filter fun p => mat p.acct).map (·.acct)) = ((m.filter fun p => mat p.acct).map (·.acct)) ∧ ∀ a, lastBal mat l a = lastBal mat m a := by
  constructor
  · induction h with
    | nil => rfl
    | cons hx _ ih =>
      rw [List.filter_cons, List.filter_cons, hx.fields.2.2.1]
      split
      · rw [List.map_cons, List.map_cons, ih, hx.fields.2.2.1]
      · exact ih
  · intro a
    unfold lastBal
    rw [← List.getLast?_map, ← List.getLast?_map]
    congr 1
    induction h with
    | nil => rfl
    | cons hx _ ih =>
      rw [List.filter_cons, List.filter_cons, hx.fields.2.2.1]
      split
      · rw [List.map_cons, List.map_cons, ih, hx.fields.2.2.2.2.2]
      · exact ih

theorem accounts_like {b b' : Book} (h : List.Forall₂ Alike b.post b'.post) (mat : Str → Bool) (o : Bool) : b.accounts mat o = b'.accounts mat o := by
  obtain ⟨h1, h2⟩ := accounts_alike h mat
  unfold Book.accounts
  simp only [h1, h2]

theorem registerSections_like {e e' : OpEnv} (ht : e'.today = e.today) (hv : e'.valid = e.valid) (hm : e'.mat = e.mat) {a a' : AppConf} (ha : a'.baseCCY = a.baseCCY) (hall : a'.all = a.all) (r : RegisterConf) {b b' : Book}
    (htx : List.Forall₂ (List.Forall₂ Alike) (b.transactions e.srt) (b'.transactions e'.srt)) (hP : b.prices.getPrice = b'.prices.getPrice) :
    ∀ accts, EndsLike SameSections (registerSections e a r b accts) (registerSections e' a' r b' accts) := by
  intro accts
  induction accts with
  | nil => exact rfl
  | cons x accts ih =>
    simp only [registerSections]
    rw [hv, hm]
    split
    · refine EndsLike.bind (registerRows_like ht ha r _ htx hP) fun rows rows' hr => EndsLike.bind ih fun s s' hs => ?_
      show SameSections _ _
      unfold SameSections at hs ⊢
      rw [List.map_cons, List.map_cons, hs, hr]
    · trivial

/-- `register` after the operations. -/
def registerShow (e : OpEnv) (a : AppConf) (r : RegisterConf) (arg : Str) (b : Book) : CmdEnd (List (Str × List (Option RegEntry))) :=
  if r.combined then
    if e.valid arg then (registerRows e a r (e.mat arg) b).bind fun rows => .ok [([], rows)] else .err
  else if e.valid arg then registerSections e a r b (b.accounts (e.mat arg) (!a.all))
  else .crash

theorem registerShow_like {e e' : OpEnv} (ht : e'.today = e.today) (hv : e'.valid = e.valid) (hm : e'.mat = e.mat) {a a' : AppConf} (ha : a'.baseCCY = a.baseCCY) (hall : a'.all = a.all) (r : RegisterConf) (arg : Str)
    {b b' : Book} (hp : List.Forall₂ Alike b.post b'.post)
    (htx : List.Forall₂ (List.Forall₂ Alike) (b.transactions e.srt) (b'.transactions e'.srt)) (hP : b.prices.getPrice = b'.prices.getPrice) :
    EndsLike SameSections (registerShow e a r arg b) (registerShow e' a' r arg b') := by
  unfold registerShow
  rw [hv, hm, hall, accounts_like hp]
  split
  · split
    · refine EndsLike.bind (registerRows_like ht ha r _ htx hP) fun rows rows' hr => ?_
      show SameSections _ _
      unfold SameSections
      simp only [List.map_cons, List.map_nil, hr]
    · trivial
  · split
    · exact registerSections_like ht hv hm ha hall r htx hP _
    · trivial

/-- **C117** (c): the register too does not depend on the order of transactions and postings, the sorting algorithm and the order in which maps are walked. -/
theorem c117_register {le le' : Env} (he : le.Ok) (he' : le'.Ok) (hl : PlainLetters le) (hl' : PlainLetters le') {fs fs' : Str → Option (List FileLine)}
    (hdisk : OnDisk le fs) (hdisk' : OnDisk le' fs') (a : AppConf) (f' : Str) {ls ls' : List FileLine} (hf : fs a.ledger = some ls) (hf' : fs' f' = some ls')
    {cs cs' : List Call} (hsay : FileSays fs le.join a.ledger [] [] ls cs) (hsay' : FileSays fs' le'.join f' [] [] ls' cs') (h : SameLedger cs cs')
    (hbal : ∀ s ∈ segments [] cs, SegBalanced s) (e : OpEnv) (hs : IsSort e.srt) (srt' : List Posting → List Posting) (hs' : IsSort srt')
    (fuel : Nat) (r : RegisterConf) (args : List Str) (arg : Str) :
    ∃ n, ∀ depth depth', n ≤ depth → n ≤ depth' →
      EndsLike SameSections (registerCmd le depth e fuel a r args arg) (registerCmd le' depth' (e.sorting srt') fuel (a.reading f') r args arg) := by
  obtain ⟨n, hn⟩ := c96_balanced_loads he hl hdisk hf hsay hbal e.srt
  obtain ⟨n', hn'⟩ := c96_balanced_loads he' hl' hdisk' hf' hsay' ((c117_balance h).1 hbal) srt'
  refine ⟨max n n', fun depth depth' hd1 hd2 => ?_⟩
  obtain ⟨bk, hbk⟩ := hn depth (le_trans (le_max_left _ _) hd1)
  obtain ⟨bk', hbk'⟩ := hn' depth' (le_trans (le_max_right _ _) hd2)
  obtain ⟨ds, s1, b1, _⟩ := c96_loaded_book he hl hdisk hf hbk
  obtain ⟨ds', s1', b1', _⟩ := c96_loaded_book he' hl' hdisk' hf' hbk'
  have hsame := built_same hs hs' (sameLedger_shuffled h (readings_shuffled hsay [] ds (.refl _) s1) (readings_shuffled hsay' [] ds' (.refl _) s1')) b1 b1'
  have l1 : loadCmd le depth e.srt a = .ok bk := by unfold loadCmd; rw [hbk]
  have l2 : loadCmd le' depth' srt' (a.reading f') = .ok bk' := by
    unfold loadCmd; rw [show (a.reading f').ledger = f' from rfl, hbk']
  have hp : GoodPair bk bk' := ⟨b1.wf hs, b1'.wf hs', hsame⟩
  unfold registerCmd
  rw [l1, show (e.sorting srt').srt = srt' from rfl, l2]
  refine EndsLike.bind (R := GoodPair) (EndsLike.bind (R := GoodPair) (convert_like (a := a) (cv := r.convert) hp) fun b b' hb => ?_) fun b b' hb =>
    registerShow_like (e := e) (e' := e.sorting srt') (a := a) (a' := a.reading f') rfl rfl rfl rfl rfl r arg hb.2.2.post (transactions_same hs hs' hb.1 hb.2.1 hb.2.2) (by rw [hb.2.2.prices])
  by_cases ha : args = []
  · rw [if_pos ha, if_pos ha]; exact hb
  · rw [if_neg ha, if_neg ha]; exact ops_like hs hs' fuel a args hb

theorem convertCmd_prices {a : AppConf} {cv : Bool} {b c : Book} (h : convertCmd a cv b = .ok c) : c.prices = b.prices := by
  unfold convertCmd at h
  cases cv with
  | false => cases h; rfl
  | true =>
    simp only [if_true] at h
    split at h
    · cases h
    · unfold convertBook at h
      split at h
      · cases h; rfl
      · cases h

/-- **C125** for the register (partial in the same way). -/
theorem c125_register_partial (le : Env) (he : le.Ok) (hl : PlainLetters le) (ord' : Builder → List (Str × Rat)) (he' : (le.again ord').Ok)
    (fs : Str → Option (List FileLine)) (hdisk : OnDisk le fs) (a : AppConf) (ls : List FileLine) (hf : fs a.ledger = some ls)
    (e : OpEnv) (hok : e.Ok) (srt' : List Posting → List Posting) (walk' : (Str → Bool) → (Str → Str) → PriceBook → PriceBook) (hok' : (e.again srt' walk').Ok)
    (r : RegisterConf) (args flat : List Str) (hx : Expansion a.macros args flat) (arg : Str) (depth : Nat) (b0 : Book) (h0 : loadCmd le depth e.srt a = .ok b0)
    (hc : ClearOps e flat b0.prices) :
    ∃ n, ∀ depth' fuel fuel', n ≤ depth' → n ≤ fuel → n ≤ fuel' →
      EndsLike SameSections (registerCmd le depth e fuel a r args arg) (registerCmd (le.again ord') depth' (e.again srt' walk') fuel' a r args arg) := by
  have h0' := loadCmd_book h0
  obtain ⟨ds, s1, b1, hbal⟩ := c96_loaded_book he hl hdisk hf h0'
  have hl' : PlainLetters (le.again ord') := ⟨hl.letter, hl.space⟩
  have hdisk' : OnDisk (le.again ord') fs := hdisk
  obtain ⟨n1, hn1⟩ := c96_balanced_loads he' hl' hdisk' hf s1 hbal srt'
  obtain ⟨n2, hn2⟩ := again_ops hok hok' hx
  refine ⟨max n1 n2, fun depth' fuel fuel' i1 i2 i3 => ?_⟩
  obtain ⟨bk, hbk⟩ := hn1 depth' (le_trans (le_max_left _ _) i1)
  obtain ⟨ds', s1', b1', _⟩ := c96_loaded_book he' hl' hdisk' hf hbk
  have hsame := built_shuffled hok.1 hok'.1 (readings_shuffled s1 [] ds' (.refl _) s1') b1 b1'
  have l2 : loadCmd (le.again ord') depth' srt' a = .ok bk := by unfold loadCmd; rw [hbk]
  have hp : GoodPair b0 bk := ⟨b1.wf hok.1, b1'.wf hok'.1, hsame⟩
  unfold registerCmd
  rw [h0, show (e.again srt' walk').srt = srt' from rfl, l2]
  refine EndsLike.bind (R := AgainBook) (EndsLike.bind (R := fun b b' => GoodPair b b' ∧ b.prices = b0.prices) ?_ fun b b' hb => ?_) fun b b' hb => ?_
  · have := convert_like (a := a) (cv := r.convert) hp
    show EndsLike _ (convertCmd a r.convert b0) (convertCmd a r.convert bk)
    cases hx : convertCmd a r.convert b0 with
    | ok b =>
      rw [hx] at this
      cases hy : convertCmd a r.convert bk with
      | ok c => rw [hy] at this; exact ⟨this, convertCmd_prices hx⟩
      | _ => rw [hy] at this; exact this.elim
    | _ =>
      rw [hx] at this
      cases hy : convertCmd a r.convert bk <;> rw [hy] at this <;> first | trivial | exact this.elim
  · have hab : AgainBook b b' := ⟨b', hb.1, ⟨rfl, rfl, fun _ => rfl⟩⟩
    by_cases ha : args = []
    · rw [if_pos ha, if_pos ha]; exact hab
    · rw [if_neg ha, if_neg ha]
      exact hn2 fuel fuel' (le_trans (le_max_right _ _) i2) (le_trans (le_max_right _ _) i3) b b' hab (by rw [hb.2]; exact hc)
  · obtain ⟨m, g, hm⟩ := hb
    refine registerShow_like (e := e) (e' := e.again srt' walk') (b := b) (b' := b') rfl rfl rfl rfl rfl r arg (by rw [← hm.post]; exact g.2.2.post) ?_ (by rw [g.2.2.prices, hm.getPrice])
    have := transactions_same hok.1 hok'.1 g.1 g.2.1 g.2.2
    rw [hm.transactions] at this
    exact this

/-! ## Examples -/

/-- The hypotheses of C117 hold of the two files. -/
example (r : RegisterConf) (args : List Str) (arg : Str) (fuel : Nat) : ∃ n, ∀ depth depth', n ≤ depth → n ≤ depth' →
    EndsLike SameSections (registerCmd demoDiskEnv depth plainOps fuel (demoApp.reading b!"main") r args arg)
      (registerCmd turnedEnv depth' (plainOps.sorting insSort) fuel ((demoApp.reading b!"main").reading b!"main") r args arg) :=
  c117_register (demoEnv_ok _) (demoEnv_ok _) (demo_letters _) (demo_letters _) demo_disk turned_disk (demoApp.reading b!"main") b!"main" rfl rfl demo_says turned_says
    turned_same demo_balanced plainOps insSort_isSort insSort insSort_isSort fuel r args arg

/-- What a register of the turned file shows: account, counter-account, balance, row by row. -/
def turnedRegister (le : Env) : List (Str × Str × Rat) :=
  match registerCmd le 9 dotOps 9 ({ demoApp with all := true }.reading b!"main") demoRegister [] b!"." with
  | .ok ss => ss.flatMap fun s => s.2.filterMap fun x => x.map fun x => (s.1, x.counterAccount, x.balance)
  | _ => []

example : turnedRegister turnedEnv = [(b!"Assets:Cash", b!"Equity", 25 / 2), (b!"Assets:Cash", b!"Bank", -1000), (b!"Bank", b!"Assets:Cash", 1000),
    (b!"Equity", b!"Assets:Cash", -25 / 2)] := by
  decide +kernel

example : turnedRegister demoDiskEnv = turnedRegister turnedEnv := by decide +kernel

/-- The hypotheses of C125 for the register hold: one currency renamed. -/
example (srt' : List Posting → List Posting) (walk' : (Str → Bool) → (Str → Str) → PriceBook → PriceBook) (hok' : (againOps.again srt' walk').Ok) (r : RegisterConf)
    (arg : Str) (ord' : Builder → List (Str × Rat)) (he' : (againEnv.again ord').Ok) :
    ∃ n, ∀ depth' fuel fuel', n ≤ depth' → n ≤ fuel → n ≤ fuel' → EndsLike SameSections
      (registerCmd againEnv 5 againOps fuel (partApp b!"main") r [b!"mapccy=/X/Z/"] arg)
      (registerCmd (againEnv.again ord') depth' (againOps.again srt' walk') fuel' (partApp b!"main") r [b!"mapccy=/X/Z/"] arg) := by
  obtain ⟨b0, hb0, hc⟩ := again_clear
  exact c125_register_partial againEnv (demoEnv_ok _) (demo_letters _) ord' he' againDisk again_disk (partApp b!"main") againLines rfl againOps againOps_ok srt' walk' hok'
    r _ [b!"mapccy=/X/Z/"] (.prim rfl .nil) arg 5 b0 hb0 hc

end Verif
