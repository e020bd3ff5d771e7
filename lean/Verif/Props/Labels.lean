import Verif.Spec.Labels
import Verif.Proofs.Labels
import Verif.Props.Text
import Verif.Props.SumCmd

/-! # C118: in a summary every indented row stands under the account it is named after -/

namespace Verif
open Spec

/-- What is used of the rows of one column. -/
structure ColRows (base : Str) (d : Nat) (S : List Str) (val : Str → Option Rat) (g : Txn) : Prop where
  distinct : S.Nodup
  named : ∀ r ∈ g, r.acct ≠ []
  same : ∀ r ∈ g, ∀ r' ∈ g, r.date = r'.date ∧ r.payee = r'.payee
  srt : ∀ r ∈ g, r.acctsort = getSortOrderString val r.acct [d]
  valued : ∀ r ∈ g, (val r.acct).isSome
  cls : ∀ r ∈ g, ∃ n : Nat, r.acctlevel = n ∧
    ((r.acct ∈ S ∧ r.ccy = base ∧ LevelTerm S [d] r.acct false n r.acctterm) ∨ LevelTerm S [d] r.acct true n r.acctterm)
  sums : ∀ k ∈ S, ∃ q ∈ g, q.acct = k ∧ q.ccy = base ∧ q.acctlevel = (levelOf S [d] k : Int)
  heads : ∀ a v, val a = some v → ∃ x, HeadRow base g x ∧ x.acct = a ∧ x.val = v
  keys : (g.map lineKey).Nodup
  order : g.Pairwise (fun a b => b.isLess a = false)

theorem levelOf_deepest {S : List Str} (hS : S.Nodup) {d : Nat} {k a : Str} (hk : k ∈ S) (ha : Above [d] k a)
    (hmax : ∀ k' ∈ S, Above [d] k' a → k'.length ≤ k.length) : levelOf S [d] a = levelOf S [d] k + 1 := by
  unfold levelOf
  rw [← countP_step hS (fun x => Above [d] x k) k (fun h => by have := above_length h; omega) hk]
  apply List.countP_congr
  intro x hx
  simp only [decide_eq_true_eq]
  constructor
  · intro h
    by_cases e : x.length = k.length
    · exact Or.inr (eq_of_same_length (Or.inr h) (Or.inr ha) e)
    · have := hmax x hx h
      exact Or.inl (above_of_shorter (Or.inr h) (Or.inr ha) (by omega))
  · rintro (h | h)
    · exact above_trans h (Or.inr ha)
    · rw [h]; exact ha

theorem levelOf_below {S : List Str} (hS : S.Nodup) {d : Nat} {k a : Str} (hk : k ∈ S) (ha : Above [d] k a) :
    levelOf S [d] k + 1 ≤ levelOf S [d] a := by
  unfold levelOf
  rw [← countP_step hS (fun x => Above [d] x k) k (fun h => by have := above_length h; omega) hk]
  apply List.countP_mono_left
  intro x _
  simp only [decide_eq_true_eq]
  rintro (h | h)
  · exact above_trans h (Or.inr ha)
  · rw [h]; exact ha

theorem isLess_sort {p q : Posting} (h : p.date = q.date ∧ p.payee = q.payee) (hl : p.isLess q = false) :
    ¬ p.acctsort < q.acctsort ∧ (p.acctsort = q.acctsort → ¬ p.acct < q.acct ∧ (p.acct = q.acct → ¬ p.acctlevel < q.acctlevel)) := by
  unfold Posting.isLess at hl
  rw [h.1, h.2, if_neg (lt_irrefl _), if_neg (lt_irrefl _), if_neg (lt_irrefl _), if_neg (lt_irrefl _)] at hl
  split at hl
  · cases hl
  · rename_i h1
    refine ⟨h1, fun e => ?_⟩
    rw [e, if_neg (lt_irrefl _)] at hl
    split at hl
    · cases hl
    · rename_i h2
      refine ⟨h2, fun e => ?_⟩
      rw [e, if_neg (lt_irrefl _)] at hl
      split at hl
      · cases hl
      · rename_i h3; exact h3

variable {base : Str} {d : Nat} {S : List Str} {val : Str → Option Rat} {g : Txn}

/-- The chain of an account with a row ends in it. -/
theorem ColRows.chain_ne (h : ColRows base d S val g) {r : Posting} (hr : r ∈ g) : r.acct ∈ chain val d r.acct :=
  mem_chain.2 ⟨h.named r hr, Or.inl rfl, h.valued r hr⟩

/-- The row an indented row belongs under. -/
theorem ColRows.parent (h : ColRows base d S val g) {p : Posting} (hp : p ∈ g) (hl : ¬ (p.acctlevel = 0 ∧ p.acctterm = p.acct)) :
    ∃ q ∈ g, q.acct ∈ S ∧ q.acctlevel = (levelOf S [d] q.acct : Int) ∧ q.acctlevel + 1 = p.acctlevel ∧ q.ccy = base ∧
      ((Above [d] q.acct p.acct ∧ p.acct = q.acct ++ [d] ++ p.acctterm) ∨ (p.acct = q.acct ∧ p.acctterm = [])) := by
  obtain ⟨n, hn, hc⟩ := h.cls p hp
  have deep : ∀ incl, (incl && decide (p.acct ∈ S)) = false → LevelTerm S [d] p.acct incl n p.acctterm →
      ∃ q ∈ g, q.acct ∈ S ∧ q.acctlevel = (levelOf S [d] q.acct : Int) ∧ q.acctlevel + 1 = p.acctlevel ∧ q.ccy = base ∧
      ((Above [d] q.acct p.acct ∧ p.acct = q.acct ++ [d] ++ p.acctterm) ∨ (p.acct = q.acct ∧ p.acctterm = [])) := by
    intro incl hi lt
    have hlev := lt.level
    rw [hi] at hlev
    simp only [Bool.false_eq_true, if_false] at hlev
    by_cases hab : ∃ k ∈ S, Above [d] k p.acct
    · obtain ⟨k, hk, ha, hmax⟩ := exists_deepest hab
      obtain ⟨q, hq, e1, e2, e3⟩ := h.sums k hk
      have hld := levelOf_deepest h.distinct hk ha hmax
      refine ⟨q, hq, e1 ▸ hk, by rw [e1]; exact e3, by rw [e3, hn, hlev, hld]; push_cast; rfl, e2, Or.inl ⟨by rw [e1]; exact ha, ?_⟩⟩
      rw [e1]
      exact lt.under hi k hk ha hmax
    · exfalso
      apply hl
      have hno : ∀ k ∈ S, ¬ Above [d] k p.acct := fun k hk ha => hab ⟨k, hk, ha⟩
      refine ⟨?_, lt.top hi hno⟩
      rw [hn, hlev]
      unfold levelOf
      rw [List.countP_eq_zero.2 (fun k hk => by simpa using hno k hk)]
      rfl
  rcases hc with ⟨_, _, lt⟩ | lt
  · exact deep false rfl lt
  · by_cases hi : p.acct ∈ S
    · have hb : (true && decide (p.acct ∈ S)) = true := by simp [hi]
      have hlev := lt.level
      rw [hb] at hlev
      simp only [if_true] at hlev
      obtain ⟨q, hq, e1, e2, e3⟩ := h.sums p.acct hi
      exact ⟨q, hq, e1 ▸ hi, by rw [e1]; exact e3, by rw [e3, hn, hlev]; push_cast; rfl, e2, Or.inr ⟨e1.symm, lt.own hb⟩⟩
    · exact deep true (by simp [hi]) lt

/-- Rows of accounts at or below a subtotal account are indented under its row. -/
theorem ColRows.inside (h : ColRows base d S val g) {q z : Posting} (hz : z ∈ g) (hqS : q.acct ∈ S)
    (hql : q.acctlevel = (levelOf S [d] q.acct : Int)) (hqc : q.ccy = base) (hk : lineKey z ≠ lineKey q)
    (ha : AtOrAbove [d] q.acct z.acct) : q.acctlevel + 1 ≤ z.acctlevel := by
  obtain ⟨n, hn, hc⟩ := h.cls z hz
  rcases ha with e | ha
  · rcases hc with ⟨_, hcz, lt⟩ | lt
    · exfalso
      apply hk
      have hlev := lt.level
      simp only [Bool.false_and, Bool.false_eq_true, if_false] at hlev
      unfold lineKey
      rw [e, hcz, hqc, hn, hlev, hql, e]
    · have hlev := lt.level
      rw [show (true && decide (z.acct ∈ S)) = true by simp [e, hqS]] at hlev
      simp only [if_true] at hlev
      rw [hn, hlev, hql, e]; push_cast; exact le_refl _
  · have hb := levelOf_below h.distinct hqS ha
    have hge : levelOf S [d] z.acct ≤ n := by
      rcases hc with ⟨_, _, lt⟩ | lt
      · have := lt.level; simp at this; omega
      · have := lt.level
        split at this <;> omega
    rw [hn, hql]
    have : levelOf S [d] q.acct + 1 ≤ n := by omega
    exact_mod_cast this

/-- The row an indented row belongs under comes before it, and its sort key begins that of the indented row. -/
theorem ColRows.after (h : ColRows base d S val g) {above below : Txn} {p q : Posting} (eg : g = above ++ p :: below) (hq : q ∈ g)
    (hlev : q.acctlevel + 1 = p.acctlevel) (hatq : AtOrAbove [d] q.acct p.acct) : q.acctsort <+: p.acctsort ∧ q ∈ above := by
  have hp : p ∈ g := by rw [eg]; simp
  have hord := h.order
  rw [eg, List.pairwise_append, List.pairwise_cons] at hord
  obtain ⟨_, ⟨hpb, _⟩, hab⟩ := hord
  -- the key of q begins the key of p
  have hsq := h.srt q hq
  have hsp := h.srt p hp
  rw [sortString_chain] at hsq hsp
  have hKne : (chain val d q.acct).map (keyOf val) ≠ [] := by
    intro e
    have := h.chain_ne hq
    rw [List.map_eq_nil_iff] at e
    rw [e] at this; cases this
  have hpre : q.acctsort <+: p.acctsort ∧ (q.acctsort = p.acctsort → p.acct = q.acct) := by
    rcases hatq with e | ha
    · rw [hsq, hsp, e]; exact ⟨List.prefix_refl _, fun _ => rfl⟩
    · obtain ⟨r, hr, hrm⟩ := chain_append (val := val) ha
      have hpr : p.acct ∈ r := (hrm _).2 ⟨h.chain_ne hp, above_length ha⟩
      obtain ⟨x, r', er⟩ := List.exists_cons_of_ne_nil (List.ne_nil_of_mem hpr)
      rw [hr, er, List.map_append, List.map_cons] at hsp
      have := join_append_lt (d := d) _ hKne (keyOf val x) (r'.map (keyOf val))
      rw [← hsq, ← hsp] at this
      exact ⟨this.1, fun e => by rw [e] at this; omega⟩
  -- q comes before p
  refine ⟨hpre.1, ?_⟩
  have hqa : q ∈ above := by
    rw [eg] at hq
    rcases List.mem_append.1 hq with h1 | h1
    · exact h1
    · exfalso
      rcases List.mem_cons.1 h1 with e | h1
      · rw [e] at hlev; omega
      · have hless := hpb q h1
        have hq' : q ∈ g := by rw [eg]; exact hq
        obtain ⟨k1, k2⟩ := isLess_sort (h.same q hq' p hp) hless
        by_cases e : q.acctsort = p.acctsort
        · obtain ⟨_, k4⟩ := k2 e
          exact k4 (hpre.2 e).symm (by omega)
        · refine k1 (prefix_lt hpre.1 ?_)
          have := hpre.1.length_le
          by_contra hc
          exact e (hpre.1.eq_of_length (by omega))
  exact hqa

/-- Without ties the rows of a column read right. -/
theorem ColRows.nested (h : ColRows base d S val g) (hfit : ∀ x, HeadRow base g x → |x.val| ≤ 10000000000) (ht : NoTies base [d] g) :
    Nested [d] g := by
  intro above p below eg
  have hp : p ∈ g := by rw [eg]; simp
  by_cases hl : p.acctlevel = 0 ∧ p.acctterm = p.acct
  · exact Or.inl hl
  right
  obtain ⟨q, hq, hqS, hql, hlev, hqc, hname⟩ := h.parent hp hl
  have hord := h.order
  rw [eg, List.pairwise_append, List.pairwise_cons] at hord
  obtain ⟨_, ⟨hpb, _⟩, hab⟩ := hord
  have hatq : AtOrAbove [d] q.acct p.acct := by
    rcases hname with ⟨h1, _⟩ | ⟨h1, _⟩
    · exact Or.inr h1
    · exact Or.inl h1
  have hsq := h.srt q hq
  have hsp := h.srt p hp
  rw [sortString_chain] at hsq hsp
  obtain ⟨hpre, hqa⟩ := h.after eg hq hlev hatq
  obtain ⟨before, between, eab⟩ := List.append_of_mem hqa
  refine ⟨before, q, between, eab, hlev, ?_, ?_⟩
  · intro z hz
    have hzg : z ∈ g := by rw [eg, eab]; simp [hz]
    have hzk : lineKey z ≠ lineKey q := by
      have := h.keys
      rw [eg, eab] at this
      simp only [List.map_append, List.map_cons, List.append_assoc, List.cons_append] at this
      have := (List.nodup_append.1 this).2.1
      have := (List.nodup_cons.1 this).1
      intro e
      apply this
      rw [← e]
      exact List.mem_append_left _ (List.mem_map.2 ⟨z, hz, rfl⟩)
    rw [← hlev]
    refine h.inside hzg hqS hql hqc hzk ?_
    -- z is between q and p
    have hqz : z.isLess q = false := by
      have := h.order
      rw [eg, eab, List.append_assoc, List.pairwise_append] at this
      have := this.2.1
      rw [List.cons_append, List.pairwise_cons] at this
      exact this.1 z (by simp [hz])
    have hzp : p.isLess z = false := hab z (by rw [eab]; simp [hz]) p (by simp)
    have hpz : q.acctsort <+: z.acctsort :=
      between_prefix _ _ _ (isLess_sort (h.same z hzg q hq) hqz).1 (isLess_sort (h.same p hp z hzg) hzp).1 hpre
    have hsz := h.srt z hzg
    rw [sortString_chain] at hsz
    have fits : ∀ x, (val x).isSome → Fits ((val x).getD 0) := by
      intro x hx
      obtain ⟨v, hv⟩ := Option.isSome_iff_exists.1 hx
      obtain ⟨y, hy, _, e⟩ := h.heads x v hv
      rw [hv, Option.getD_some, ← e]
      exact fits_of_bound (hfit y hy)
    have hlen : ∀ a, ∀ s ∈ (chain val d a).map (keyOf val), s.length = 15 := by
      intro a s hs
      obtain ⟨x, hx, rfl⟩ := List.mem_map.1 hs
      exact hexPad_length _ (fits x (mem_chain.1 hx).2.2)
    have hlist := join_prefix (d := d) (by norm_num : 0 < 15) _ _ (hlen q.acct) (hlen z.acct) (by rw [← hsq, ← hsz]; exact hpz)
    have hchain := chain_eq (val := val) (d := d) (k := q.acct) (z := z.acct) ?_ _ _ [] rfl rfl hlist
    · exact (mem_chain.1 (hchain.subset (h.chain_ne hq))).2.1
    · intro c e hc he hne hsib hkey
      have hc' := mem_chain.1 hc
      have he' := mem_chain.1 he
      obtain ⟨v, hv⟩ := Option.isSome_iff_exists.1 hc'.2.2
      obtain ⟨w, hw⟩ := Option.isSome_iff_exists.1 he'.2.2
      obtain ⟨x, hx, ex1, ex2⟩ := h.heads c v hv
      obtain ⟨y, hy, ey1, ey2⟩ := h.heads e w hw
      have hkk := sortOrder_inj (fits c hc'.2.2) (fits e he'.2.2) hkey
      rw [hv, hw, Option.getD_some, Option.getD_some, ← ex2, ← ey2] at hkk
      have hxq : x.acctlevel ≤ q.acctlevel := by
        obtain ⟨n, hn, hcl⟩ := h.cls x hx.1
        rcases hc'.2.1 with e' | hcq
        · have := hx.2.2 q hq (by rw [ex1]; exact e')
          exact this
        · by_cases hxS : c ∈ S
          · obtain ⟨m, hm, em1, em2, em3⟩ := h.sums c hxS
            have h1 := hx.2.2 m hm (by rw [em1, ex1])
            have h2 := levelOf_below h.distinct hxS hcq
            rw [hql]
            rw [em3] at h1
            have : (levelOf S [d] c : Int) ≤ levelOf S [d] q.acct := by exact_mod_cast (by omega)
            omega
          · have hlv : n = levelOf S [d] c := by
              rcases hcl with ⟨h1, _, _⟩ | lt
              · exact absurd (ex1 ▸ h1) hxS
              · have := lt.level
                rw [ex1] at this
                simpa [hxS] using this
            rw [hn, hlv, hql]
            have hmono : levelOf S [d] c ≤ levelOf S [d] q.acct := by
              unfold levelOf
              apply List.countP_mono_left
              intro y _
              simp only [decide_eq_true_eq]
              exact fun h => above_trans h (Or.inr hcq)
            exact_mod_cast hmono
      refine ht x y p hx hy hp ?_ (by omega) ⟨by rw [ex1, ey1]; exact hne, ?_⟩ hkk
      · rw [ex1]; exact atOrAbove_trans hc'.2.1 hatq
      · intro w hw
        rw [ex1, ey1]
        exact hsib w.acct (h.valued w hw) (h.named w hw)
  · rcases hname with ⟨_, h1⟩ | h1
    · exact Or.inl h1
    · exact Or.inr h1


/-! ## The rows of a summary -/

theorem colRows {srt : List Posting → List Posting} {b : Book} {d : Nat} {u g : Txn} (hu : u ∈ b.transactions srt) (hg : IsGroup u)
    (hsub : (u.map pairOf).Sublist (acctsOf srt b))
    (hR : ReportOf b.prices base [d] (summaries srt b base [d]) (acctsOf srt b) u g) (hne : ∀ r ∈ g, r.acct ≠ []) :
    ColRows base d (summaries srt b base [d]) (valOf b.prices base [d] (summaries srt b base [d]) (acctsOf srt b) u) g := by
  have hSn : (summaries srt b base [d]).Nodup := accumSet_nodup _ _ _
  have hAn := (c48_accounts srt b).1
  have hkeys := lines_nodup hSn hAn (by simp) hg hR
  obtain ⟨p0, hp0⟩ := List.exists_mem_of_ne_nil u hg.1
  obtain ⟨B, hbl, hpm, hord⟩ := hR
  have hsame : ∀ r ∈ g, ∀ p ∈ u, r.date = p.date ∧ r.payee = p.payee := fun r hr p hp => block_keys hg hbl r (hpm.mem_iff.1 hr) p hp
  obtain ⟨l, s, S', rfl, hS', h1, h2⟩ := hbl.ex
  have hd : ([d] : Str) ≠ [] := by simp
  have cls : ∀ r ∈ g, (∃ p ∈ fill (acctsOf srt b) u, LeafOf (summaries srt b base [d]) [d] (valOf b.prices base [d] (summaries srt b base [d]) (acctsOf srt b) u) p r) ∨
      ∃ k ∈ summaries srt b base [d], SumOf b.prices base [d] (summaries srt b base [d]) (valOf b.prices base [d] (summaries srt b base [d]) (acctsOf srt b) u) u k r := by
    intro r hr
    rcases List.mem_append.1 (hpm.mem_iff.1 hr) with h | h
    · obtain ⟨p, hp, hl⟩ := forall₂_mem_right h1 h
      exact Or.inl ⟨p, hp, hl⟩
    · obtain ⟨k, hk, hl⟩ := forall₂_mem_right h2 h
      exact Or.inr ⟨k, hS'.mem_iff.1 hk, hl⟩
  have hvS : ∀ k ∈ summaries srt b base [d], valOf b.prices base [d] (summaries srt b base [d]) (acctsOf srt b) u k =
      some (treeTotal b.prices base [d] k u) := by
    intro k hk
    unfold valOf acctVal
    rw [if_pos hk, sumBelow_fill hAn hg hsub]
  have hforeign : ∀ p ∈ fill (acctsOf srt b) u, p.acct ∉ summaries srt b base [d] → p.ccy = base := by
    intro p hp hno
    by_contra hc
    apply hno
    unfold summaries accumSet
    rw [List.mem_dedup]
    apply List.mem_append_left
    exact List.mem_map.2 ⟨p, List.mem_filter.2 ⟨List.mem_flatten.2 ⟨_, List.mem_map.2 ⟨u, hu, rfl⟩, hp⟩, by simpa using hc⟩, rfl⟩
  have lev : ∀ r ∈ g, ∃ n : Nat, r.acctlevel = n ∧
      ((r.acct ∈ summaries srt b base [d] ∧ r.ccy = base ∧ LevelTerm (summaries srt b base [d]) [d] r.acct false n r.acctterm) ∨
        LevelTerm (summaries srt b base [d]) [d] r.acct true n r.acctterm) := by
    intro r hr
    rcases cls r hr with ⟨p, hp, lt, key, hsp, rfl, _⟩ | ⟨k, hk, lt, hsp, e1, e2, e3, e4, e5, _⟩
    · exact ⟨lt.1, rfl, Or.inr (c51_level_and_term _ hSn _ _ hd _ _ _ hsp)⟩
    · refine ⟨lt.1, e4, Or.inl ⟨e1 ▸ hk, e2, ?_⟩⟩
      rw [e1, e5]
      exact c51_level_and_term _ hSn _ _ hd _ _ _ hsp
  have low : ∀ r ∈ g, (levelOf (summaries srt b base [d]) [d] r.acct : Int) ≤ r.acctlevel := by
    intro r hr
    obtain ⟨n, hn, h⟩ := lev r hr
    rw [hn]
    rcases h with ⟨_, _, lt⟩ | lt
    · have := lt.level; simp at this; omega
    · have := lt.level; split at this <;> omega
  have sums : ∀ k ∈ summaries srt b base [d], ∃ q ∈ g, q.acct = k ∧ q.ccy = base ∧ q.acctlevel = (levelOf (summaries srt b base [d]) [d] k : Int) ∧
      q.val = treeTotal b.prices base [d] k u := by
    intro k hk
    obtain ⟨q, hq, lt, hsp, e1, e2, e3, e4, e5, _⟩ := forall₂_mem_left h2 (hS'.mem_iff.2 hk)
    have hlev := split_level hSn hd hsp
    simp only [Bool.false_and, Bool.false_eq_true, if_false] at hlev
    exact ⟨q, hpm.mem_iff.2 (by simp [hq]), e1, e2, by rw [e4, hlev], e3⟩
  refine ⟨hSn, hne, ?_, ?_, ?_, lev, ?_, ?_, hkeys, hord⟩
  · intro r hr r' hr'
    have a1 := hsame r hr p0 hp0
    have a2 := hsame r' hr' p0 hp0
    exact ⟨a1.1.trans a2.1.symm, a1.2.trans a2.2.symm⟩
  · intro r hr
    rcases cls r hr with ⟨p, hp, lt, key, hsp, rfl, e⟩ | ⟨k, hk, lt, hsp, e1, e2, e3, e4, e5, _, e6⟩
    · exact e
    · rw [e6, e1]
  · intro r hr
    rcases cls r hr with ⟨p, hp, hl⟩ | ⟨k, hk, lt, hsp, e1, _⟩
    · have ea := (leafOf_key hl).2.2.1
      rw [ea]
      by_cases hS : p.acct ∈ summaries srt b base [d]
      · rw [hvS _ hS]; rfl
      · unfold valOf acctVal
        rw [if_neg hS, Option.isSome_map, List.getLast?_isSome]
        apply List.ne_nil_of_mem (a := (p.acct, worth b.prices base p))
        rw [List.mem_filter]
        exact ⟨List.mem_map.2 ⟨p, hp, rfl⟩, by simp⟩
    · rw [e1, hvS k hk]; rfl
  · intro k hk
    obtain ⟨q, hq, e1, e2, e3, _⟩ := sums k hk
    exact ⟨q, hq, e1, e2, e3⟩
  · intro a v hv
    by_cases hS : a ∈ summaries srt b base [d]
    · obtain ⟨q, hq, e1, e2, e3, e4⟩ := sums a hS
      rw [hvS a hS] at hv
      cases hv
      refine ⟨q, ⟨hq, e2, fun y hy e => ?_⟩, e1, e4⟩
      have := low y hy
      rw [e, e1] at this
      rw [e3]; exact this
    · unfold valOf acctVal at hv
      rw [if_neg hS] at hv
      obtain ⟨c, hc, rfl⟩ := Option.map_eq_some_iff.1 hv
      have hm := List.mem_filter.1 (List.mem_of_getLast? hc)
      obtain ⟨p, hp, rfl⟩ := List.mem_map.1 hm.1
      have ea : p.acct = a := by simpa using hm.2
      obtain ⟨r, hr, hl⟩ := forall₂_mem_left h1 hp
      obtain ⟨_, _, k3, k4, k5⟩ := leafOf_key hl
      have hpc := hforeign p hp (ea ▸ hS)
      refine ⟨r, ⟨hpm.mem_iff.2 (by simp [hr]), by rw [k4, hpc], fun y hy e => ?_⟩, by rw [k3, ea], ?_⟩
      · have hlow := low y hy
        obtain ⟨lt, key, hsp, rfl, _⟩ := hl
        have := split_level hSn hd hsp
        rw [ea] at this
        simp only [hS, decide_false, Bool.and_false, Bool.false_eq_true, if_false] at this
        rw [e, show ({ p with acctlevel := (lt.1 : Int), acctterm := lt.2, acctsort := key } : Posting).acct = a from ea] at hlow
        show (lt.1 : Int) ≤ _
        rw [this]; exact hlow
      · rw [k5]
        unfold worth
        rw [hpc]
        simp [PriceBook.getPrice]


/-! ## The command -/

theorem readsRight_congr {div : Str} {above above' : List Posting} {p p' : Posting} (hp : p'.acct = p.acct ∧ p'.acctterm = p.acctterm ∧ p'.acctlevel = p.acctlevel)
    {f : Posting → Posting} (hf : ∀ x, (f x).acct = x.acct ∧ (f x).acctlevel = x.acctlevel) {keep : Posting → Bool}
    (ea : above' = (above.filter keep).map f) (hk : ∀ q ∈ above, AtOrAbove div q.acct p.acct → q.acctlevel < p.acctlevel → keep q = true)
    (h : ReadsRight div above p) : ReadsRight div above' p' := by
  unfold ReadsRight at h ⊢
  rw [hp.1, hp.2.1, hp.2.2]
  rcases h with h | ⟨before, q, between, e, h1, h2, h3⟩
  · exact Or.inl h
  · have hq : keep q = true := by
      refine hk q (by rw [e]; simp) ?_ (by omega)
      rcases h3 with h3 | h3
      · right; rw [h3]; exact ⟨p.acctterm, rfl⟩
      · left; exact h3.1
    refine Or.inr ⟨(before.filter keep).map f, f q, (between.filter keep).map f, ?_, by rw [(hf q).2]; exact h1, ?_, by rw [(hf q).1]; exact h3⟩
    · rw [ea, e, List.filter_append, List.filter_cons, if_pos hq, List.map_append, List.map_cons]
    · intro z hz
      obtain ⟨y, hy, rfl⟩ := List.mem_map.1 hz
      rw [(hf y).2]
      exact h2 y (List.mem_filter.1 hy).1

/-- Negating rows and leaving out rows nothing stands under does not change how the others read. -/
theorem nested_shown {div : Str} {g : Txn} (credit : Option (Str → Bool)) (hidden : Str) (h : Nested div g)
    (hh : hidden = [] ∨ ∀ q ∈ g, ∀ z ∈ g, q.acct = hidden → AtOrAbove div hidden z.acct → z.acctlevel ≤ q.acctlevel) :
    Nested div (shown credit hidden g) := by
  intro above p below e
  unfold shown at e
  obtain ⟨l1, l2, e1, e2, e3⟩ := List.map_eq_append_iff.1 e
  obtain ⟨p0, l3, e4, e5, e6⟩ := List.map_eq_cons_iff.1 e3
  rw [e4] at e1
  obtain ⟨m1, m2, f1, f2, f3⟩ := List.filter_eq_append_iff.1 e1
  obtain ⟨n1, n2, f4, f5, f6, f7⟩ := List.filter_eq_cons_iff.1 f3
  have eg : g = (m1 ++ n1) ++ p0 :: n2 := by rw [f1, f4, List.append_assoc]
  have hn1 : n1.filter (fun p => decide (hidden = [] ∨ p.acct ≠ hidden)) = [] := by
    rw [List.filter_eq_nil_iff]; intro x hx; exact f5 x hx
  have hfld : ∀ x : Posting, (if ∃ m ∈ credit, m x.acct = true then { x with val := -x.val } else x).acct = x.acct ∧
      (if ∃ m ∈ credit, m x.acct = true then { x with val := -x.val } else x).acctterm = x.acctterm ∧
      (if ∃ m ∈ credit, m x.acct = true then { x with val := -x.val } else x).acctlevel = x.acctlevel := by
    intro x; split <;> exact ⟨rfl, rfl, rfl⟩
  refine readsRight_congr (p := p0) (f := fun x => if ∃ m ∈ credit, m x.acct = true then { x with val := -x.val } else x)
    (keep := fun p => decide (hidden = [] ∨ p.acct ≠ hidden)) (above := m1 ++ n1) ?_ ?_ ?_ ?_ (h _ _ _ eg)
  · rw [← e5]; exact hfld p0
  · exact fun x => ⟨(hfld x).1, (hfld x).2.2⟩
  · rw [← e2, List.filter_append, hn1, List.append_nil, f2]
  · intro q hq ha hl
    simp only [decide_eq_true_eq]
    by_contra hc
    rw [not_or, not_not] at hc
    rcases hh with hh | hh
    · exact hc.1 hh
    · have := hh q (by rw [eg]; exact List.mem_append_left _ hq) p0 (by rw [eg]; simp) hc.2 (hc.2 ▸ ha)
      omega

/-- The columns of a summary. -/
theorem summary_columns {e : OpEnv} (hs : IsSort e.srt) {le : Env} {depth fuel : Nat} {a : AppConf} {d : Nat} (hd : a.divider = [d]) {r : ReportConf}
    (hr : r.sum = true) (ht : r.typ ≠ b!"Beancount") {o : Int → Str → List Str → List Str} (ho : ∀ d py l, (o d py l).Perm l) {args : List Str}
    {ts : List Txn} (h : reportCmd le depth e fuel a r o args = .ok ts) :
    ∃ gs : List Txn, ts = gs.map (shown (if r.credit = [] then none else some (e.mat r.credit)) r.hidden) ∧
      ∀ g ∈ gs, (∀ x ∈ g, x.acct ≠ []) → ∃ S val, ColRows a.baseCCY d S val g := by
  unfold reportCmd at h
  obtain ⟨b, h1, h2⟩ := bind_ok h
  obtain ⟨b0, h0, h1⟩ := bind_ok h1
  have hg := good_ops hs (good_load hs h0) h1
  obtain ⟨fb, hfb, hacc⟩ := sumTxns_ok h2 hr ht
  have hf := (shown_wsum hs hg hfb (fun _ _ _ _ => 0)).1
  obtain ⟨gs, e1, e2, e3⟩ := accumulate_good hs hf.1 hf.2 ho hacc
  refine ⟨gs, ?_, ?_⟩
  · rw [e1]
    apply List.map_congr_left
    intro g _
    unfold hideFlip shown
    have e1 : (fun p : Posting => !(decide (r.hidden ≠ []) && decide (p.acct = r.hidden))) = fun p => decide (r.hidden = [] ∨ p.acct ≠ r.hidden) := by
      funext p
      by_cases h1 : r.hidden = [] <;> by_cases h2 : p.acct = r.hidden <;> simp [h1, h2]
    rw [e1]
    apply List.map_congr_left
    intro p _
    by_cases hc : r.credit = []
    · simp [hc]
    · by_cases hm : e.mat r.credit p.acct = true <;> simp [hc, hm]
  · intro g hgm hne
    obtain ⟨u, hu, u1, u2, u3⟩ := forall₂_mem_right e2 hgm
    rw [hd] at u3
    exact ⟨_, _, colRows hu u1 u2 u3 hne⟩

/-- **C118** (in part): a summary (`report --sum`) with a divider of one character consists of columns `gs` (of which `--credit` negates and `--hidden`
leaves out rows) such that every column without ties, with account names and with amounts up to ten billion, reads right. -/
theorem c118_nested_partial (le : Env) (depth : Nat) (e : OpEnv) (hs : IsSort e.srt) (fuel : Nat) (a : AppConf) (d : Nat) (hd : a.divider = [d])
    (r : ReportConf) (hr : r.sum = true) (ht : r.typ ≠ b!"Beancount") (o : Int → Str → List Str → List Str) (ho : ∀ d py l, (o d py l).Perm l)
    (args : List Str) (ts : List Txn) (h : reportCmd le depth e fuel a r o args = .ok ts) :
    ∃ gs : List Txn, ts = gs.map (shown (if r.credit = [] then none else some (e.mat r.credit)) r.hidden) ∧
      ∀ g ∈ gs, (∀ x ∈ g, x.acct ≠ [] ∧ |x.val| ≤ 10000000000) → NoTies a.baseCCY a.divider g →
        (r.hidden = [] ∨ ∀ q ∈ g, ∀ z ∈ g, q.acct = r.hidden → AtOrAbove a.divider r.hidden z.acct → z.acctlevel ≤ q.acctlevel) →
        Nested a.divider (shown (if r.credit = [] then none else some (e.mat r.credit)) r.hidden g) := by
  obtain ⟨gs, h1, h2⟩ := summary_columns hs hd hr ht ho h
  refine ⟨gs, h1, fun g hg hx hties hhid => ?_⟩
  obtain ⟨S, val, hc⟩ := h2 g hg (fun x hx' => (hx x hx').1)
  apply nested_shown _ _ _ hhid
  rw [hd] at hties ⊢
  exact hc.nested (fun x hx' => (hx x hx'.1).2) hties

/-- **C118**: even with ties, a row of a summary that is not indented is labelled with its account, and an indented row comes after the row, one
step less indented, of the account it is named after. -/
theorem c118_after (le : Env) (depth : Nat) (e : OpEnv) (hs : IsSort e.srt) (fuel : Nat) (a : AppConf) (d : Nat) (hd : a.divider = [d])
    (r : ReportConf) (hr : r.sum = true) (ht : r.typ ≠ b!"Beancount") (hhid : r.hidden = []) (hcr : r.credit = [])
    (o : Int → Str → List Str → List Str) (ho : ∀ d py l, (o d py l).Perm l)
    (args : List Str) (ts : List Txn) (h : reportCmd le depth e fuel a r o args = .ok ts) (t : Txn) (htm : t ∈ ts) (hne : ∀ x ∈ t, x.acct ≠ [])
    (above : Txn) (p : Posting) (below : Txn) (et : t = above ++ p :: below) :
    (p.acctlevel = 0 ∧ p.acctterm = p.acct) ∨
    ∃ q ∈ above, q.acctlevel + 1 = p.acctlevel ∧ (p.acct = q.acct ++ a.divider ++ p.acctterm ∨ (p.acct = q.acct ∧ p.acctterm = [])) := by
  obtain ⟨gs, h1, h2⟩ := summary_columns hs hd hr ht ho h
  have hid : ∀ g : Txn, shown (if r.credit = [] then none else some (e.mat r.credit)) r.hidden g = g := by
    intro g; unfold shown; simp [hhid, hcr]
  rw [List.map_congr_left (fun g _ => hid g), List.map_id'] at h1
  subst h1
  obtain ⟨S, val, hc⟩ := h2 t htm hne
  by_cases hl : p.acctlevel = 0 ∧ p.acctterm = p.acct
  · exact Or.inl hl
  · right
    obtain ⟨q, hq, hqS, hql, hlev, hqc, hname⟩ := hc.parent (p := p) (by rw [et]; simp) hl
    have hatq : AtOrAbove [d] q.acct p.acct := by
      rcases hname with ⟨h1, _⟩ | ⟨h1, _⟩
      · exact Or.inr h1
      · exact Or.inl h1
    refine ⟨q, (hc.after et hq hlev hatq).2, hlev, ?_⟩
    rw [hd]
    rcases hname with ⟨_, h1⟩ | h1
    · exact Or.inl h1
    · exact Or.inr h1

/-! ## Examples and the counterexample -/

theorem readsRight_iff (div : Str) (above : List Posting) (p : Posting) : ReadsRight div above p ↔
    (p.acctlevel = 0 ∧ p.acctterm = p.acct) ∨ ∃ i : Fin above.length, above[i].acctlevel + 1 = p.acctlevel ∧
      (∀ z ∈ above.drop (i + 1), p.acctlevel ≤ z.acctlevel) ∧
      (p.acct = above[i].acct ++ div ++ p.acctterm ∨ (p.acct = above[i].acct ∧ p.acctterm = [])) := by
  unfold ReadsRight
  refine or_congr Iff.rfl ⟨?_, ?_⟩
  · rintro ⟨before, q, between, rfl, h⟩
    refine ⟨⟨before.length, by simp⟩, ?_⟩
    simpa using h
  · rintro ⟨i, h⟩
    refine ⟨above.take i, above[i], above.drop (i + 1), ?_, h⟩
    simp

instance (div above p) : Decidable (ReadsRight div above p) := decidable_of_iff _ (readsRight_iff div above p).symm

theorem nested_iff (div : Str) (t : Txn) : Nested div t ↔ ∀ i : Fin t.length, ReadsRight div (t.take i) t[i] := by
  constructor
  · intro h i
    exact h (t.take i) t[i] (t.drop (i + 1)) (by simp)
  · intro h above p below e
    subst e
    have := h ⟨above.length, by simp⟩
    simpa using this

instance (div t) : Decidable (Nested div t) := decidable_of_iff _ (nested_iff div t).symm
instance (base t x) : Decidable (HeadRow base t x) := by unfold HeadRow; infer_instance
instance (div t a c) : Decidable (Siblings div t a c) := by unfold Siblings; infer_instance

theorem noTies_iff (base div : Str) (t : Txn) : NoTies base div t ↔ ∀ x ∈ t, ∀ y ∈ t, ∀ z ∈ t, HeadRow base t x → HeadRow base t y →
    AtOrAbove div x.acct z.acct → x.acctlevel < z.acctlevel → Siblings div t x.acct y.acct → ratTrunc (x.val * 1000000) ≠ ratTrunc (y.val * 1000000) :=
  ⟨fun h x _ y _ z hz hx hy => h x y z hx hy hz, fun h x y z hx hy hz => h x hx.1 y hy.1 z hz hx hy⟩

instance (base div t) : Decidable (NoTies base div t) := decidable_of_iff _ (noTies_iff base div t).symm

/-- A report of a command. -/
def CmdEnd.rows (x : CmdEnd (List Txn)) : Option (List Txn) :=
  match x with
  | .ok ts => some ts
  | _ => none

/-- Two groups of expenses with equal totals. -/
def tieFile : Str := b!"2020/02/01 Buy\n  Exp:Car:Fuel 5 E\n  Exp:Car:Tax 5 E\n  Exp:Food:Bread 5 E\n  Exp:Food:Milk 5 E\n  Cash -20 E\n"
/-- Two groups of expenses with different totals. -/
def noTieFile : Str := b!"2020/02/01 Buy\n  Exp:Car:Fuel 5 E\n  Exp:Car:Tax 6 E\n  Exp:Food:Bread 5 E\n  Exp:Food:Milk 5 E\n  Cash -21 E\n"

/-- The summary of a file. -/
def sumOfFile (f : Str) : CmdEnd (List Txn) :=
  reportCmd (demoEnv [(b!"a", f)]) 1 plainOps 1 demoApp { yearReport false b!"skip" with sum := true } (fun _ _ l => l) []

/-- What is seen of the rows of a report: level and label. -/
def CmdEnd.labels (x : CmdEnd (List Txn)) : Option (List (List (Int × Str))) := x.rows.map (·.map (·.map fun p => (p.acctlevel, p.acctterm)))

/-- With different totals the hypotheses are met. -/
example : (sumOfFile noTieFile).rows.map (fun ts => decide (∀ t ∈ ts, NoTies b!"E" b!":" t ∧ (∀ x ∈ t, x.acct ≠ [] ∧ |x.val| ≤ 10000000000))) = some true := by
  decide +kernel
example : (sumOfFile noTieFile).labels =
    some [[(0, b!"Exp"), (1, b!"Car"), (2, b!"Tax"), (2, b!"Fuel"), (1, b!"Food"), (2, b!"Bread"), (2, b!"Milk"), (0, b!"Cash")]] := by
  decide +kernel

/-- With equal totals the expenses on the car are listed under the food. -/
example : (sumOfFile tieFile).rows.map (fun ts => decide (∀ t ∈ ts, NoTies b!"E" b!":" t)) = some false := by decide +kernel
example : (sumOfFile tieFile).labels =
    some [[(0, b!"Exp"), (1, b!"Car"), (1, b!"Food"), (2, b!"Fuel"), (2, b!"Tax"), (2, b!"Bread"), (2, b!"Milk"), (0, b!"Cash")]] := by
  decide +kernel

/-- **C118** fails: there is a ledger file whose summary lists accounts under another account than the one they are named after. -/
theorem c118_nested_fails : ¬ ∀ (le : Env) (depth : Nat) (e : OpEnv), IsSort e.srt → ∀ (fuel : Nat) (a : AppConf) (d : Nat), a.divider = [d] →
    ∀ (r : ReportConf), r.sum = true → r.typ ≠ b!"Beancount" → r.hidden = [] → r.credit = [] → ∀ (o : Int → Str → List Str → List Str),
    (∀ d py l, (o d py l).Perm l) → ∀ (args : List Str) (ts : List Txn), reportCmd le depth e fuel a r o args = .ok ts →
    ∀ t ∈ ts, (∀ x ∈ t, x.acct ≠ []) → Nested a.divider t := by
  intro hall
  have hk : ((sumOfFile tieFile).rows.map fun ts => decide (∀ t ∈ ts, (∀ x ∈ t, x.acct ≠ []) → Nested b!":" t)) = some false := by decide +kernel
  cases hc : sumOfFile tieFile with
  | ok ts =>
    rw [hc] at hk
    simp only [CmdEnd.rows, Option.map_some, Option.some.injEq, decide_eq_false_iff_not] at hk
    exact hk (hall _ _ plainOps insSort_isSort _ demoApp 58 rfl _ rfl (by decide) rfl rfl _ (fun _ _ _ => List.Perm.refl _) _ ts hc)
  | err => rw [hc] at hk; cases hk
  | crash => rw [hc] at hk; cases hk
  | diverge => rw [hc] at hk; cases hk
  | fatal => rw [hc] at hk; cases hk

/-! # C119: reports name the account of each amount -/

/-- **C119** (in part): in a summary every row that is not indented is labelled with its account (and for the others see C118). -/
theorem c119_summed_partial (le : Env) (depth : Nat) (e : OpEnv) (hs : IsSort e.srt) (fuel : Nat) (a : AppConf) (hd : a.divider ≠ [])
    (r : ReportConf) (hr : r.sum = true) (ht : r.typ ≠ b!"Beancount") (o : Int → Str → List Str → List Str) (ho : ∀ d py l, (o d py l).Perm l)
    (args : List Str) (ts : List Txn) (h : reportCmd le depth e fuel a r o args = .ok ts) : ∀ t ∈ ts, Labelled t := by
  unfold reportCmd at h
  obtain ⟨b, h1, h2⟩ := bind_ok h
  obtain ⟨b0, h0, h1⟩ := bind_ok h1
  have hg := good_ops hs (good_load hs h0) h1
  obtain ⟨fb, hfb, hacc⟩ := sumTxns_ok h2 hr ht
  have hf := (shown_wsum hs hg hfb (fun _ _ _ _ => 0)).1
  obtain ⟨gs, e1, e2, e3⟩ := accumulate_good hs hf.1 hf.2 ho hacc
  intro t htm
  rw [e1] at htm
  obtain ⟨g, hgm, rfl⟩ := List.mem_map.1 htm
  obtain ⟨u, hu, u1, u2, B, hbl, hpm, _⟩ := forall₂_mem_right e2 hgm
  obtain ⟨l, s, S', rfl, hS', f1, f2⟩ := hbl.ex
  have hSn : (summaries e.srt fb a.baseCCY a.divider).Nodup := accumSet_nodup _ _ _
  have key : ∀ (acct : Str) (incl : Bool) (lt : Nat × Str), splitByStrings (summaries e.srt fb a.baseCCY a.divider) acct incl a.divider = some lt →
      lt.1 = 0 → lt.2 = acct := by
    intro acct incl lt hsp hz
    have c := c51_level_and_term _ hSn _ _ hd _ _ _ hsp
    have hl := c.level
    rw [hz] at hl
    cases hi : (incl && decide (acct ∈ summaries e.srt fb a.baseCCY a.divider)) with
    | true => rw [hi] at hl; simp at hl
    | false =>
      rw [hi] at hl
      simp only [Bool.false_eq_true, if_false] at hl
      refine c.top hi fun k hk ha => ?_
      have := List.countP_eq_zero.1 hl.symm k hk
      simp [ha] at this
  have hg : Labelled g := by
    intro p hp hz
    rcases List.mem_append.1 (hpm.mem_iff.1 hp) with hp | hp
    · obtain ⟨x, _, lt, k, hsp, rfl, _⟩ := forall₂_mem_right f1 hp
      exact key _ _ _ hsp (by have hz' : (lt.1 : Int) = 0 := hz; exact_mod_cast hz')
    · obtain ⟨k, _, lt, hsp, e1, _, _, e4, e5, _⟩ := forall₂_mem_right f2 hp
      rw [e5, e1]
      exact key _ _ _ hsp (by rw [e4] at hz; exact_mod_cast hz)
  intro p hp
  unfold hideFlip at hp
  obtain ⟨q, hq, rfl⟩ := List.mem_map.1 hp
  have := hg q (List.mem_filter.1 hq).1
  split
  · split <;> exact this
  · exact this

theorem compact_terms {srt} (hs : IsSort srt) {b : Book} (h : ∀ p ∈ b.post, p.acctterm = []) : ∀ p ∈ (b.compact srt).post, p.acctterm = [] := by
  rw [compact_post _ (srt_nil hs)]
  exact compactPost_all hs (Q := fun p => p.acctterm = []) (fun _ _ h => h) (fun _ _ h => h) h

theorem builder_terms : ∀ (cs : List Call) (b b' : Builder), (∀ p ∈ b.post, p.acctterm = []) → b.calls cs = some b' → ∀ p ∈ b'.post, p.acctterm = [] := by
  intro cs
  induction cs with
  | nil => intro b b' h hc; cases hc; exact h
  | cons c cs ih =>
    intro b b' h hc
    unfold Builder.calls at hc
    split at hc
    · cases hc
    · rename_i b1 hb1
      refine ih b1 b' ?_ hc
      cases c with
      | newTransaction d py n =>
        have : b1.post = b.post := by
          simp only [Builder.call, Builder.newTransaction] at hb1
          unfold Builder.checkAndClear at hb1
          split at hb1
          · cases hb1
          · rename_i hcc
            split at hcc
            · cases hcc
              split at hb1
              · cases hb1
              · cases hb1; rfl
            · cases hcc
        rw [this]; exact h
      | addPosting ac c v n =>
        cases hb1
        intro p hp
        rcases List.mem_append.1 hp with hp | hp
        · exact h p hp
        · rw [List.mem_singleton] at hp; rw [hp]
      | addPrice d u c v => cases hb1; exact h

/-- **C119**: without `--sum` and without operations no row of a report is labelled at all. -/
theorem c119_unsummed_blank (le : Env) (depth : Nat) (e : OpEnv) (hs : IsSort e.srt) (fuel : Nat) (a : AppConf)
    (r : ReportConf) (hr : r.sum = false) (o : Int → Str → List Str → List Str)
    (ts : List Txn) (h : reportCmd le depth e fuel a r o [] = .ok ts) : ∀ t ∈ ts, ∀ p ∈ t, p.acctlevel = 0 ∧ p.acctterm = [] := by
  unfold reportCmd at h
  obtain ⟨b, h1, h2⟩ := bind_ok h
  obtain ⟨b0, h0, h1⟩ := bind_ok h1
  have hg := good_ops hs (good_load hs h0) h1
  have hb : b = b0 := by
    unfold opsCmd at h1
    cases fuel with
    | zero => simp [bookOps, runAll] at h1; exact h1.symm
    | succ n => simp [bookOps, runAll] at h1; exact h1.symm
  subst hb
  obtain ⟨fb, hfb, rfl⟩ := reportTxns_ok h2 (Or.inl hr)
  have hf := (shown_wsum hs hg hfb (fun _ _ _ _ => 0)).1
  have hb0 : ∀ p ∈ b.post, p.acctterm = [] := by
    unfold loadCmd at h0
    split at h0 <;> cases h0
    rename_i hb
    obtain ⟨⟨cs, bb, h1, h2, _⟩, h3⟩ := c59_loaded_book_balanced_partial e.srt hs le depth a.ledger b hb
    have hpost := builder_terms cs _ _ (by simp [Builder.new]) h1
    unfold Builder.build at h2
    cases hcc : bb.checkAndClear with
    | none => rw [hcc] at h2; cases h2
    | some b2 =>
      rw [hcc] at h2
      simp only [Option.some.injEq] at h2
      have hp2 : b2.post = bb.post := by
        unfold Builder.checkAndClear at hcc
        split at hcc
        · cases hcc; rfl
        · cases hcc
      subst h2
      apply compact_terms hs
      rw [hp2]; exact hpost
  have hfb0 : ∀ p ∈ fb.post, p.acctterm = [] := by
    unfold shownBook at hfb
    split at hfb
    · cases hfb; exact hb0
    · have h1 : ∀ p ∈ (if r.combineby ≠ b!"skip" then b.splitBy e.srt e.today r.combineby else b).post, p.acctterm = [] := by
        split
        · unfold Book.splitBy Book.mapTransaction
          apply compact_terms hs
          intro p hp
          obtain ⟨q, hq, rfl⟩ := List.mem_map.1 hp
          exact hb0 q hq
        · exact hb0
      have hcv := convertCmd_ok hfb
      split at hcv
      · rw [(convertBook_some hcv.2).1]
        intro p hp
        obtain ⟨q, hq, rfl⟩ := List.mem_map.1 hp
        exact h1 q hq
      · rw [hcv]; exact h1
  intro t ht p hp
  have hpm : p ∈ (fb.compact e.srt).post := by
    rw [← transactions_flatten hs hf.1]; exact List.mem_flatten.2 ⟨t, ht, hp⟩
  exact ⟨((compact_wf hs hf.1.plain hf.1.nil_trans).plain p hpm).1, compact_terms hs hfb0 p hpm⟩

/-- **C119** fails: the report of a ledger file, not summarised, does not say which accounts the amounts are on. -/
theorem c119_names_fails : ¬ ∀ (le : Env) (depth : Nat) (e : OpEnv), IsSort e.srt → ∀ (fuel : Nat) (a : AppConf) (r : ReportConf),
    r.typ = b!"Text" → ∀ (o : Int → Str → List Str → List Str), (∀ d py l, (o d py l).Perm l) → ∀ (args : List Str) (ts : List Txn),
    reportCmd le depth e fuel a r o args = .ok ts → ∀ t ∈ ts, Labelled t := by
  intro hall
  have hk : ((reportCmd (demoEnv [(b!"a", tieFile)]) 1 plainOps 1 demoApp (yearReport false b!"skip") (fun _ _ l => l) []).rows.map
      fun ts => ts.map fun t => t.map fun p => (p.acctlevel, p.acct, p.acctterm)) =
      some [[(0, b!"Cash", []), (0, b!"Exp:Car:Fuel", []), (0, b!"Exp:Car:Tax", []), (0, b!"Exp:Food:Bread", []), (0, b!"Exp:Food:Milk", [])]] := by decide +kernel
  cases hc : reportCmd (demoEnv [(b!"a", tieFile)]) 1 plainOps 1 demoApp (yearReport false b!"skip") (fun _ _ l => l) [] with
  | ok ts =>
    rw [hc] at hk
    have h := hall _ _ plainOps insSort_isSort _ demoApp _ rfl _ (fun _ _ _ => List.Perm.refl _) _ ts hc
    simp only [CmdEnd.rows, Option.map_some, Option.some.injEq] at hk
    cases ts with
    | nil => cases hk
    | cons t ts =>
      cases t with
      | nil => simp at hk
      | cons p t =>
        simp only [List.map_cons, List.cons.injEq, Prod.mk.injEq] at hk
        have := h (p :: t) List.mem_cons_self p List.mem_cons_self hk.1.1.1
        rw [hk.1.1.2.2, hk.1.1.2.1] at this
        cases this
  | err => rw [hc] at hk; cases hk
  | crash => rw [hc] at hk; cases hk
  | diverge => rw [hc] at hk; cases hk
  | fatal => rw [hc] at hk; cases hk

end Verif
