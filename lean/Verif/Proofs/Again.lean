import Verif.Spec.Again
import Verif.Proofs.Laws
import Verif.Props.PriceMap
import Verif.Props.ExportCmd
import Verif.Props.Laws

/-! # Runs that walk the maps in different orders -/

namespace Verif

open Spec

/-- The same postings, and tables of prices with the same entries. -/
structure NearBook (b b' : Book) : Prop where
  post : b.post = b'.post
  trans : b.trans = b'.trans
  prices : ∀ k, b.prices.find k = b'.prices.find k

theorem NearBook.compact {srt : List Posting → List Posting} {b b' : Book} (h : NearBook b b') : NearBook (b.compact srt) (b'.compact srt) := by
  unfold Book.compact
  rw [← h.post]
  split
  · exact h
  · exact ⟨rfl, rfl, h.prices⟩

theorem NearBook.transactions {srt : List Posting → List Posting} {b b' : Book} (h : NearBook b b') : b.transactions srt = b'.transactions srt := h.compact.trans

theorem NearBook.getPrice {b b' : Book} (h : NearBook b b') : b.prices.getPrice = b'.prices.getPrice := by
  funext d u c
  unfold PriceBook.getPrice
  simp only [h.prices]

theorem NearBook.filter {f : Int → Str → Txn → Bool} {b b' : Book} (h : NearBook b b') : NearBook (b.filterTransaction f) (b'.filterTransaction f) := by
  unfold Book.filterTransaction
  rw [h.trans]
  exact ⟨rfl, rfl, h.prices⟩

theorem NearBook.mapAmount {g : Int → Str → Rat × Str} {b b' : Book} (h : NearBook b b') : NearBook (b.mapAmount g) (b'.mapAmount g) := by
  unfold Book.mapAmount
  rw [h.trans, h.post]
  exact ⟨rfl, rfl, h.prices⟩

theorem NearBook.setPost {srt : List Posting → List Posting} {l : List Posting} {b b' : Book} (h : NearBook b b') :
    NearBook (Book.compact srt { b with post := l }) (Book.compact srt { b' with post := l }) :=
  NearBook.compact ⟨rfl, h.trans, h.prices⟩

theorem NearBook.splitBy {srt : List Posting → List Posting} {today : Int} {t : Str} {b b' : Book} (h : NearBook b b') :
    NearBook (b.splitBy srt today t) (b'.splitBy srt today t) := by
  unfold Book.splitBy Book.mapTransaction
  rw [h.post]; exact h.setPost

theorem clear_prices {mat : Str → Bool} {rep : Str → Str} {m m1 m2 n : PriceBook} (hc : ClearRename (newName mat rep) m) (hm : ∀ k, m.find k = n.find k)
    (h1 : RegexCCYPrices mat rep m m1) (h2 : RegexCCYPrices mat rep n m2) (k : Str × Str) : m1.find k = m2.find k := by
  obtain ⟨u, c⟩ := k
  have hc' : ClearRename (newName mat rep) n := ⟨by simpa only [← hm] using hc.inj, by simpa only [← hm] using hc.once⟩
  apply Option.ext
  intro pl
  have e1 := c33_rename_partial mat rep m m1 hc.inj hc.once h1 u c pl
  have e2 := c33_rename_partial mat rep n m2 hc'.inj hc'.once h2 u c pl
  rw [e1, e2]
  simp only [hm]

/-- An operation that is clear. -/
theorem near_prim {e : OpEnv} (he : e.Ok) {walk' : (Str → Bool) → (Str → Str) → PriceBook → PriceBook} (he' : (e.again e.srt walk').Ok) (p : Prim) {b b' : Book}
    (h : NearBook b b') (hc : ∀ s r, p = .mapccy s r → ClearRename (newName (e.mat s) (e.rep s r)) b.prices) :
    (p.apply e b = none ∧ p.apply (e.again e.srt walk') b' = none) ∨
      ∃ c c', p.apply e b = some c ∧ p.apply (e.again e.srt walk') b' = some c' ∧ NearBook c c' := by
  cases p with
  | mapccy s r =>
    simp only [Prim.apply]
    show ((if e.valid s = true then _ else none) = none ∧ (if e.valid s = true then _ else none) = none) ∨
      ∃ c c', (if e.valid s = true then _ else none) = some c ∧ (if e.valid s = true then _ else none) = some c' ∧ NearBook c c'
    by_cases hv : e.valid s = true
    · rw [if_pos hv, if_pos hv]
      refine .inr ⟨_, _, rfl, rfl, ?_, ?_, ?_⟩
      · exact h.mapAmount.post
      · exact h.mapAmount.trans
      · intro k
        exact clear_prices (hc s r rfl) h.prices (he.2 (e.mat s) (e.rep s r) b.prices) (he'.2 (e.mat s) (e.rep s r) b'.prices) k
    · rw [if_neg hv, if_neg hv]; exact .inl ⟨rfl, rfl⟩
  | map s r alt =>
    simp only [Prim.apply]
    show ((if e.valid s = true then _ else none) = none ∧ (if e.valid s = true then _ else none) = none) ∨
      ∃ c c', (if e.valid s = true then _ else none) = some c ∧ (if e.valid s = true then _ else none) = some c' ∧ NearBook c c'
    by_cases hv : e.valid s = true
    · rw [if_pos hv, if_pos hv]
      refine .inr ⟨_, _, rfl, rfl, ?_⟩
      unfold Book.regexAccounts Book.mapAccount
      rw [h.post]; exact h.setPost
    · rw [if_neg hv, if_neg hv]; exact .inl ⟨rfl, rfl⟩
  | move s a f =>
    simp only [Prim.apply]
    show ((if e.valid s = true then _ else none) = none ∧ (if e.valid s = true then _ else none) = none) ∨
      ∃ c c', (if e.valid s = true then _ else none) = some c ∧ (if e.valid s = true then _ else none) = some c' ∧ NearBook c c'
    by_cases hv : e.valid s = true
    · rw [if_pos hv, if_pos hv]
      refine .inr ⟨_, _, rfl, rfl, ?_⟩
      unfold Book.adjustPost
      rw [h.post]; exact h.setPost
    · rw [if_neg hv, if_neg hv]; exact .inl ⟨rfl, rfl⟩
  | asof d =>
    refine .inr ⟨_, _, rfl, rfl, ?_⟩
    unfold Book.filterByDateAsof
    split
    · exact h
    · exact h.filter
  | since d =>
    refine .inr ⟨_, _, rfl, rfl, ?_⟩
    unfold Book.filterByDateSince
    split
    · exact h
    · exact h.filter
  | combine t => exact .inr ⟨_, _, rfl, rfl, h.splitBy⟩
  | depreciate s a n =>
    simp only [Prim.apply]
    show ((if e.valid s = true then _ else none) = none ∧ (if e.valid s = true then _ else none) = none) ∨
      ∃ c c', (if e.valid s = true then _ else none) = some c ∧ (if e.valid s = true then _ else none) = some c' ∧ NearBook c c'
    by_cases hv : e.valid s = true
    · rw [if_pos hv, if_pos hv]
      refine .inr ⟨_, _, rfl, rfl, ?_⟩
      unfold Book.depreciate
      rw [h.post]; exact h.setPost
    · rw [if_neg hv, if_neg hv]; exact .inl ⟨rfl, rfl⟩

/-- What a command makes of what is seen of the operations. -/
def Seen.end : Seen → CmdEnd Book
  | .ok b => .ok b
  | .failed _ => .err
  | .panic => .crash
  | .diverge => .diverge

theorem opsCmd_seen (e : OpEnv) (fuel : Nat) (a : AppConf) (args : List Str) (b : Book) :
    opsCmd e fuel a args b = (bookOps e a.macros fuel args b).seen.end := by
  unfold opsCmd
  cases bookOps e a.macros fuel args b <;> rfl

/-- A list of operations that are clear, one after the other. -/
theorem near_flat {e : OpEnv} (he : e.Ok) {walk' : (Str → Bool) → (Str → Str) → PriceBook → PriceBook} (he' : (e.again e.srt walk').Ok) :
    ∀ (flat : List Str) (b b' : Book), NearBook b b' → ClearOps e flat b.prices →
      EndsLike NearBook (runFlat e flat b).end (runFlat (e.again e.srt walk') flat b').end := by
  intro flat
  induction flat with
  | nil => intro b b' h _; exact h
  | cons op flat ih =>
    intro b b' h hc
    have hp : parsePrim (e.again e.srt walk') op = parsePrim e op := rfl
    simp only [runFlat, hp]
    unfold ClearOps at hc
    cases hq : parsePrim e op with
    | none => trivial
    | some p =>
      rw [hq] at hc
      simp only at hc ⊢
      have hcl : ∀ s r, p = .mapccy s r → ClearRename (newName (e.mat s) (e.rep s r)) b.prices := by
        rintro s r rfl
        exact hc.1
      rcases near_prim he he' p h hcl with ⟨h1, h2⟩ | ⟨c, c', h1, h2, h3⟩
      · rw [h1, h2]; trivial
      · rw [h1, h2]
        simp only
        refine ih c c' h3 ?_
        have hpr := prim_prices h1
        rw [hpr]
        cases p <;> first | exact hc.2 | exact hc

/-- Operations and macros that are clear. -/
theorem near_ops {e : OpEnv} (he : e.Ok) {walk' : (Str → Bool) → (Str → Str) → PriceBook → PriceBook} (he' : (e.again e.srt walk').Ok) {a : AppConf}
    {args flat : List Str} (hx : Expansion a.macros args flat) : ∃ n, ∀ fuel fuel', n ≤ fuel → n ≤ fuel' → ∀ b b', NearBook b b' → ClearOps e flat b.prices →
      EndsLike NearBook (opsCmd e fuel a args b) (opsCmd (e.again e.srt walk') fuel' a args b') := by
  obtain ⟨n, hn⟩ := c61_macro_is_expansion e a.macros args flat hx
  obtain ⟨n', hn'⟩ := c61_macro_is_expansion (e.again e.srt walk') a.macros args flat hx
  refine ⟨max n n', fun fuel fuel' h1 h2 b b' hb hc => ?_⟩
  rw [opsCmd_seen, opsCmd_seen, hn fuel (le_trans (le_max_left _ _) h1), hn' fuel' (le_trans (le_max_right _ _) h2)]
  exact near_flat he he' flat b b' hb hc

theorem near_convert {a : AppConf} {cv : Bool} {b b' : Book} (h : NearBook b b') : EndsLike NearBook (convertCmd a cv b) (convertCmd a cv b') := by
  unfold convertCmd
  cases cv with
  | false => exact h
  | true =>
    simp only [if_true]
    split
    · trivial
    · unfold convertBook
      rw [h.getPrice, h.post]
      split
      · exact h.mapAmount
      · trivial

/-- A report shows nothing of the order of the prices. -/
theorem near_report {e : OpEnv} {walk' : (Str → Bool) → (Str → Str) → PriceBook → PriceBook} (a : AppConf) (r : ReportConf)
    (o : Int → Str → List Str → List Str) {b b' : Book} (h : NearBook b b') : reportTxns e a r o b = reportTxns (e.again e.srt walk') a r o b' := by
  unfold reportTxns
  show (if r.typ = _ then CmdEnd.ok (b.transactions e.srt) else _) = (if r.typ = _ then CmdEnd.ok (b'.transactions e.srt) else _)
  rw [h.transactions]
  by_cases ht : r.typ = b!"Beancount"
  · rw [if_pos ht, if_pos ht]
  rw [if_neg ht, if_neg ht]
  have hsum : ∀ c c' : Book, NearBook c c' → sumCmd e a r o c = sumCmd (e.again e.srt walk') a r o c' := by
    intro c c' hcc
    unfold sumCmd
    have hacc : c.accumulate e.srt a.baseCCY a.divider (if r.credit = [] then none else some (e.mat r.credit)) r.hidden o =
        c'.accumulate e.srt a.baseCCY a.divider (if r.credit = [] then none else some (e.mat r.credit)) r.hidden o := by
      unfold Book.accumulate
      have hk := hcc.compact (srt := e.srt)
      have hrows : blockRows c.prices = blockRows c'.prices := by
        have hcp : convertPost c.prices = convertPost c'.prices := by
          funext t p
          unfold convertPost
          rw [hcc.getPrice]
        funext t d S o g
        unfold blockRows
        rw [hcp]
      simp only [hk.post, hrows, hk.transactions]
    show (if r.credit ≠ [] ∧ e.valid r.credit = false then _ else if r.sum = true then if a.baseCCY = [] then _ else CmdEnd.orCrash (c.accumulate e.srt a.baseCCY a.divider (if r.credit = [] then none else some (e.mat r.credit)) r.hidden o) else CmdEnd.ok (c.transactions e.srt)) = 
      (if r.credit ≠ [] ∧ e.valid r.credit = false then _ else if r.sum = true then if a.baseCCY = [] then _ else CmdEnd.orCrash (c'.accumulate e.srt a.baseCCY a.divider (if r.credit = [] then none else some (e.mat r.credit)) r.hidden o) else CmdEnd.ok (c'.transactions e.srt))
    rw [hacc, hcc.transactions]
  have hsp : NearBook (if r.combineby ≠ b!"skip" then b.splitBy e.srt e.today r.combineby else b)
      (if r.combineby ≠ b!"skip" then b'.splitBy e.srt e.today r.combineby else b') := by
    split
    · exact h.splitBy
    · exact h
  have hcv := near_convert (a := a) (cv := r.convert) hsp
  show CmdEnd.bind (convertCmd a r.convert _) _ = CmdEnd.bind (convertCmd a r.convert (if r.combineby ≠ b!"skip" then b'.splitBy e.srt e.today r.combineby else b')) _
  generalize convertCmd a r.convert (if r.combineby ≠ b!"skip" then b.splitBy e.srt e.today r.combineby else b) = x at hcv
  generalize convertCmd a r.convert (if r.combineby ≠ b!"skip" then b'.splitBy e.srt e.today r.combineby else b') = y at hcv
  cases x <;> cases y <;> simp only [EndsLike] at hcv <;> simp only [CmdEnd.bind]
  exact hsum _ _ hcv

end Verif
