import Verif.Proofs.Order2
import Verif.Props.File
import Verif.Props.SumCmd

/-! # C117: the order of the transactions in the ledger file -/

namespace Verif
open Spec

/-! ## From the ledger to the book -/

theorem filedAs_headers : ∀ (cs : List Call) (taken : List (Int × Str)), (headers cs).Nodup → (∀ n ∈ headers cs, n ∉ taken) → FiledAs taken cs (headers cs) := by
  intro cs
  induction cs with
  | nil => intro taken _ _; exact .nil _
  | cons c cs ih =>
    intro taken hn ht
    cases c with
    | addPosting a c v n => exact .addPosting _ _ _ _ _ _ _ (ih taken hn ht)
    | addPrice d u c v => exact .addPrice _ _ _ _ _ _ _ (ih taken hn ht)
    | newTransaction d p n =>
      obtain ⟨h1, h2⟩ := List.nodup_cons.1 hn
      refine .fresh _ _ _ _ _ _ (ht _ (List.mem_cons_self ..)) (ih _ h2 ?_)
      intro m hm hmem
      rcases List.mem_cons.1 hmem with rfl | hmem
      · exact h1 hm
      · exact ht m (List.mem_cons_of_mem _ hm) hmem

/-- The price book after some price lines. -/
def pricesAfter (q : PriceBook) (l : List (Int × Str × Str × Rat)) : PriceBook := l.foldl (fun q x => q.addPrice x.1 x.2.1 x.2.2.1 x.2.2.2) q

theorem prices_lines : ∀ (cs : List Call) (b b' : Builder), b.calls cs = some b' → b'.prices = pricesAfter b.prices (priceLines cs) := by
  intro cs
  induction cs with
  | nil => intro b b' h; simp only [Builder.calls, Option.some.injEq] at h; rw [← h]; rfl
  | cons c cs ih =>
    intro b b' h
    simp only [Builder.calls] at h
    cases hc : b.call c with
    | none => rw [hc] at h; cases h
    | some b1 =>
      rw [hc] at h
      rw [ih b1 b' h]
      cases c with
      | addPosting a c v n => simp only [Builder.call, Option.some.injEq] at hc; subst hc; rfl
      | addPrice d u c v => simp only [Builder.call, Option.some.injEq] at hc; subst hc; rfl
      | newTransaction d p n =>
        simp only [Builder.call, Builder.newTransaction] at hc
        split at hc
        · cases hc
        rename_i b2 hb2
        split at hc
        · cases hc
        cases hc
        unfold Builder.checkAndClear at hb2
        split at hb2
        · cases hb2; rfl
        · cases hb2

theorem checkAndClear_fields {b b' : Builder} (h : b.checkAndClear = some b') : b'.post = b.post ∧ b'.prices = b.prices := by
  unfold Builder.checkAndClear at h
  split at h
  · cases h; exact ⟨rfl, rfl⟩
  · cases h

theorem total_entries (k : Key) (l : List Posting) : total (fun p => decide (key p = k)) l =
    (((l.map fun p => (⟨p.date, p.payee, p.acct, p.ccy, p.val⟩ : Entry)).filter
      fun e => decide (key e.asPosting = k)).map (·.amt)).sum := by
  unfold total
  rw [List.filter_map, List.map_map]
  rfl

/-- Call sequences that file the same entries make books with postings that are alike. -/
theorem built_posts {srt srt' : List Posting → List Posting} (hs : IsSort srt) (hs' : IsSort srt') {cs cs' : List Call} {bb bb' : Builder}
    (h1 : Builder.new.calls cs = some bb) (h1' : Builder.new.calls cs' = some bb') {ns ns' : List (Int × Str)} (n1 : issued Builder.new cs = ns)
    (n1' : issued Builder.new cs' = ns') (hperm : (entries (-1, []) ns cs).Perm (entries (-1, []) ns' cs'))
    {b b' : Book} (h2 : bb.build srt = some b) (h2' : bb'.build srt' = some b') :
    List.Forall₂ Alike b.post b'.post ∧ List.Forall₂ (List.Forall₂ Alike) b.trans b'.trans ∧ b.prices = bb.prices.build ∧ b'.prices = bb'.prices.build := by
  obtain ⟨e1, p1⟩ := builder_post cs bb h1
  obtain ⟨e1', p1'⟩ := builder_post cs' bb' h1'
  rw [n1] at e1
  rw [n1'] at e1'
  have ht : ∀ k, total (fun p => decide (key p = k)) bb.post = total (fun p => decide (key p = k)) bb'.post := by
    intro k
    rw [total_entries, total_entries, e1, e1']
    exact ((hperm.filter _).map _).sum_eq
  have hnil : bb.post = [] ↔ bb'.post = [] := by
    have a1 : bb.post = [] ↔ entries (-1, []) (ns) cs = [] := by rw [← e1, List.map_eq_nil_iff]
    have a2 : bb'.post = [] ↔ entries (-1, []) (ns') cs' = [] := by rw [← e1', List.map_eq_nil_iff]
    rw [a1, a2]
    exact ⟨fun e => by have := hperm; rw [e] at this; exact this.symm.eq_nil, fun e => by have := hperm; rw [e] at this; exact this.eq_nil⟩
  unfold Builder.build at h2 h2'
  cases hc : bb.checkAndClear with
  | none => rw [hc] at h2; cases h2
  | some c =>
    cases hc' : bb'.checkAndClear with
    | none => rw [hc'] at h2'; cases h2'
    | some c' =>
      rw [hc] at h2
      rw [hc'] at h2'
      simp only [Option.some.injEq] at h2 h2'
      obtain ⟨f1, f2⟩ := checkAndClear_fields hc
      obtain ⟨f1', f2'⟩ := checkAndClear_fields hc'
      subst h2 h2'
      rw [f1, f2, f1', f2']
      unfold Book.compact
      by_cases h0 : bb.post = []
      · rw [if_pos h0, if_pos (hnil.1 h0), h0, hnil.1 h0]
        exact ⟨.nil, .nil, rfl, rfl⟩
      · rw [if_neg h0, if_neg (fun h1 => h0 (hnil.2 h1))]
        have hp : List.Forall₂ Alike (compactPost srt bb.post) (compactPost srt' bb'.post) :=
          forall₂_alike.2 (compactPost_unique hs hs' p1 p1' ht)
        exact ⟨hp, groupTxns_alike hp, rfl, rfl⟩

/-- Call sequences that file the same entries and record the same prices make books that are alike. -/
theorem built_entries {srt srt' : List Posting → List Posting} (hs : IsSort srt) (hs' : IsSort srt') {cs cs' : List Call} {bb bb' : Builder}
    (h1 : Builder.new.calls cs = some bb) (h1' : Builder.new.calls cs' = some bb') {ns ns' : List (Int × Str)} (n1 : issued Builder.new cs = ns)
    (n1' : issued Builder.new cs' = ns') (hperm : (entries (-1, []) ns cs).Perm (entries (-1, []) ns' cs')) (hprices : priceLines cs = priceLines cs')
    {b b' : Book} (h2 : bb.build srt = some b) (h2' : bb'.build srt' = some b') : SameBook b b' := by
  obtain ⟨k1, k2, k3, k4⟩ := built_posts hs hs' h1 h1' n1 n1' hperm h2 h2'
  refine ⟨k1, k2, ?_⟩
  rw [k3, k4, prices_lines cs _ _ h1, prices_lines cs' _ _ h1', hprices]

/-- Ledgers with the same content make books that are alike. -/
theorem built_same {srt srt' : List Posting → List Posting} (hs : IsSort srt) (hs' : IsSort srt') {cs cs' : List Call} (h : SameLedger cs cs') {b b' : Book}
    (hb : Built srt cs b) (hb' : Built srt' cs' b') : SameBook b b' := by
  obtain ⟨bb, h1, h2⟩ := hb
  obtain ⟨bb', h1', h2'⟩ := hb'
  have n1 : issued Builder.new cs = headers cs :=
    c02_one_filing (filedAs_aux cs _ bb [] seenInv_new h1) (filedAs_headers cs [] h.distinct (by simp))
  have n1' : issued Builder.new cs' = headers cs' :=
    c02_one_filing (filedAs_aux cs' _ bb' [] seenInv_new h1') (filedAs_headers cs' [] (h.headers.nodup_iff.1 h.distinct) (by simp))
  exact built_entries hs hs' h1 h1' n1 n1' h.booked h.prices h2 h2'

/-! ## Balance -/

/-- The entries of one transaction in one currency. -/
def underName (n : Int × Str) (c : Str) (l : List Entry) : Rat :=
  ((l.filter fun e => decide ((e.date, e.payee) = n ∧ e.ccy = c)).map (·.amt)).sum

theorem underName_cons (n : Int × Str) (c : Str) (e : Entry) (l : List Entry) :
    underName n c (e :: l) = (if (e.date, e.payee) = n ∧ e.ccy = c then e.amt else 0) + underName n c l := by
  unfold underName
  rw [List.filter_cons]
  by_cases h : (e.date, e.payee) = n ∧ e.ccy = c
  · rw [if_pos (decide_eq_true h), if_pos h, List.map_cons, List.sum_cons]
  · rw [if_neg (by simpa using h), if_neg h, zero_add]

theorem underName_other {n : Int × Str} : ∀ (cs : List Call) (cur : Int × Str) (c : Str), n ≠ cur → n ∉ headers cs →
    underName n c (entries cur (headers cs) cs) = 0 := by
  intro cs
  induction cs with
  | nil => intro cur c _ _; rfl
  | cons x cs ih =>
    intro cur c h1 h2
    cases x with
    | addPosting a cc v m =>
      show underName n c (⟨cur.1, cur.2, a, cc, v⟩ :: entries cur (headers cs) cs) = 0
      rw [underName_cons, ih cur c h1 h2, if_neg (by rintro ⟨h, _⟩; exact h1 h.symm), add_zero]
    | addPrice d u cc v => exact ih cur c h1 h2
    | newTransaction d p m =>
      show underName n c (entries (d, p) (headers cs) cs) = 0
      have h3 : n ≠ (d, p) := fun e => h2 (by rw [e]; exact List.mem_cons_self ..)
      exact ih (d, p) c h3 fun e => h2 (List.mem_cons_of_mem _ e)

theorem segments_balance : ∀ (cs : List Call) (cur : Int × Str) (acc : List (Str × Rat)), (headers cs).Nodup → cur ∉ headers cs →
    ((∀ s ∈ segments acc cs, SegBalanced s) ↔
      ∀ n c, (if n = cur then net c acc else 0) + underName n c (entries cur (headers cs) cs) = 0) := by
  intro cs
  induction cs with
  | nil =>
    intro cur acc _ _
    simp only [segments, List.mem_singleton, forall_eq, entries, underName, List.filter_nil, List.map_nil, List.sum_nil, add_zero]
    constructor
    · intro h n c; split
      · exact h c
      · rfl
    · intro h c; have := h cur c; rwa [if_pos rfl] at this
  | cons x cs ih =>
    intro cur acc hn hc
    cases x with
    | addPosting a cc v m =>
      show (∀ s ∈ segments (acc ++ [(cc, v)]) cs, SegBalanced s) ↔ ∀ n c, (if n = cur then net c acc else 0) + underName n c (⟨cur.1, cur.2, a, cc, v⟩ :: entries cur (headers cs) cs) = 0
      rw [ih cur (acc ++ [(cc, v)]) hn hc]
      have key : ∀ n c, (if n = cur then net c (acc ++ [(cc, v)]) else 0) + underName n c (entries cur (headers cs) cs) =
          (if n = cur then net c acc else 0) + underName n c (⟨cur.1, cur.2, a, cc, v⟩ :: entries cur (headers cs) cs) := by
        intro n c
        rw [underName_cons]
        have hnet : net c (acc ++ [(cc, v)]) = net c acc + if cc = c then v else 0 := by
          unfold net
          rw [List.filter_append, List.map_append, List.sum_append]
          by_cases h : cc = c <;> simp [h]
        rw [hnet]
        by_cases h : n = cur
        · subst h
          by_cases h' : cc = c
          · rw [if_pos rfl, if_pos h', if_pos rfl, if_pos ⟨rfl, h'⟩]; ring
          · rw [if_pos rfl, if_neg h', if_pos rfl, if_neg (fun e => h' e.2)]; ring
        · rw [if_neg h, if_neg h, if_neg (fun e => h e.1.symm)]; ring
      simp only [key]
    | addPrice d u cc v => exact ih cur acc hn hc
    | newTransaction d p m =>
      obtain ⟨h1, h2⟩ := List.nodup_cons.1 hn
      have h3 : cur ≠ (d, p) := fun e => hc (by rw [e]; exact List.mem_cons_self ..)
      have h4 : cur ∉ headers cs := fun e => hc (List.mem_cons_of_mem _ e)
      show (∀ s ∈ acc :: segments [] cs, SegBalanced s) ↔ ∀ n c, (if n = cur then net c acc else 0) + underName n c (entries (d, p) (headers cs) cs) = 0
      simp only [List.mem_cons, forall_eq_or_imp]
      rw [ih (d, p) [] h2 h1]
      have h0 : ∀ n c, (if n = (d, p) then net c [] else 0) + underName n c (entries (d, p) (headers cs) cs) = underName n c (entries (d, p) (headers cs) cs) := by
        intro n c; have : net c [] = 0 := rfl
        rw [this]; simp
      simp only [h0]
      constructor
      · rintro ⟨ha, hr⟩ n c
        rw [hr n c, add_zero]
        split
        · exact ha c
        · rfl
      · intro hall
        have hcur : SegBalanced acc := by
          intro c
          have := hall cur c
          rwa [if_pos rfl, underName_other cs (d, p) c h3 h4, add_zero] at this
        refine ⟨hcur, fun n c => ?_⟩
        have := hall n c
        by_cases e : n = cur
        · rwa [if_pos e, hcur c, zero_add] at this
        · rwa [if_neg e, zero_add] at this

/-- **C117** (a): whether the transactions balance does not depend on their order. -/
theorem c117_balance {cs cs' : List Call} (h : SameLedger cs cs') : (∀ s ∈ segments [] cs, SegBalanced s) ↔ ∀ s ∈ segments [] cs', SegBalanced s := by
  rw [segments_balance cs (-1, []) [] h.distinct h.dated,
    segments_balance cs' (-1, []) [] (h.headers.nodup_iff.1 h.distinct) (fun e => h.dated (h.headers.mem_iff.2 e))]
  have : ∀ n c, underName n c (entries (-1, []) (headers cs) cs) = underName n c (entries (-1, []) (headers cs') cs') := by
    intro n c
    exact ((h.booked.filter _).map _).sum_eq
  simp only [this]

/-! ## Two readings of a file -/

/-- The same calls, up to the order of the postings of a transaction. -/
inductive Shuffled : List Call → List Call → Prop
  | nil : Shuffled [] []
  | cons (c cs cs') : Shuffled cs cs' → Shuffled (c :: cs) (c :: cs')
  | posts (ps ps' cs cs' : List Call) : ps.Perm ps' → (∀ x ∈ ps, ∃ a c v n, x = .addPosting a c v n) → Shuffled cs cs' → Shuffled (ps ++ cs) (ps' ++ cs')

theorem Shuffled.append {a a' b b' : List Call} (h : Shuffled a a') (h' : Shuffled b b') : Shuffled (a ++ b) (a' ++ b') := by
  induction h with
  | nil => exact h'
  | cons c cs cs' _ ih => exact .cons _ _ _ ih
  | posts ps ps' cs cs' hp hx _ ih => rw [List.append_assoc, List.append_assoc]; exact .posts _ _ _ _ hp hx ih

theorem posts_headers {ps : List Call} (h : ∀ x ∈ ps, ∃ a c v n, x = Call.addPosting a c v n) (cs : List Call) :
    headers (ps ++ cs) = headers cs ∧ priceLines (ps ++ cs) = priceLines cs ∧
    ∀ cur names, entries cur names (ps ++ cs) = entries cur [] ps ++ entries cur names cs := by
  induction ps with
  | nil => exact ⟨rfl, rfl, fun _ _ => rfl⟩
  | cons x ps ih =>
    obtain ⟨a, c, v, n, rfl⟩ := h x (by simp)
    obtain ⟨i1, i2, i3⟩ := ih fun y hy => h y (by simp [hy])
    refine ⟨i1, i2, fun cur names => ?_⟩
    show Entry.mk cur.1 cur.2 a c v :: entries cur names (ps ++ cs) = _ :: (entries cur [] ps ++ _)
    rw [i3 cur names]

theorem posts_entries (cur : Int × Str) {ps ps' : List Call} (h : ∀ x ∈ ps, ∃ a c v n, x = Call.addPosting a c v n) (hp : ps.Perm ps') :
    (entries cur [] ps).Perm (entries cur [] ps') := by
  have e : ∀ {l : List Call}, (∀ x ∈ l, ∃ a c v n, x = Call.addPosting a c v n) → entries cur [] l =
      l.flatMap fun x => entries cur [] [x] := by
    intro l
    induction l with
    | nil => intro _; rfl
    | cons x l ih =>
      intro h
      obtain ⟨a, c, v, n, rfl⟩ := h x (by simp)
      rw [List.flatMap_cons, ← ih fun y hy => h y (by simp [hy])]
      rfl
  rw [e h, e fun x hx => h x (hp.mem_iff.2 hx)]
  exact hp.flatMap_right _

theorem Shuffled.facts {cs cs' : List Call} (h : Shuffled cs cs') :
    headers cs = headers cs' ∧ priceLines cs = priceLines cs' ∧ ∀ cur names, (entries cur names cs).Perm (entries cur names cs') := by
  induction h with
  | nil => exact ⟨rfl, rfl, fun _ _ => .refl _⟩
  | cons c cs cs' _ ih =>
    obtain ⟨i1, i2, i3⟩ := ih
    cases c with
    | addPosting a c v n => exact ⟨i1, i2, fun cur names => (i3 cur names).cons _⟩
    | addPrice d u c v =>
      refine ⟨i1, ?_, fun cur names => i3 cur names⟩
      show (d, u, c, v) :: priceLines cs = (d, u, c, v) :: priceLines cs'
      rw [i2]
    | newTransaction d p n =>
      refine ⟨?_, i2, fun cur names => ?_⟩
      · show (d, p) :: headers cs = (d, p) :: headers cs'
        rw [i1]
      · cases names with
        | nil => exact .refl _
        | cons m names => exact i3 m names
  | posts ps ps' cs cs' hp hx _ ih =>
    obtain ⟨i1, i2, i3⟩ := ih
    obtain ⟨a1, a2, a3⟩ := posts_headers hx cs
    obtain ⟨b1, b2, b3⟩ := posts_headers (fun x h => hx x (hp.mem_iff.2 h)) cs'
    refine ⟨by rw [a1, b1, i1], by rw [a2, b2, i2], fun cur names => ?_⟩
    rw [a3, b3]
    exact (posts_entries cur hx hp).append (i3 cur names)

/-- Two readings of the lines of a file differ only in the order of the postings that a posting without an amount stands for. -/
theorem readings_shuffled {fs : Str → Option (List FileLine)} {join : Str → Str → Str} {fn : Str} {als : List (Str × Str)} {pre : List Call}
    {ls : List FileLine} {cs : List Call} (h : FileSays fs join fn als pre ls cs) : ∀ pre' cs', (openAmounts pre).Perm (openAmounts pre') →
    FileSays fs join fn als pre' ls cs' → Shuffled cs cs' := by
  have ho : ∀ pre cs, openAmounts (pre ++ cs) = opens (openAmounts pre) cs := fun pre cs => opens_append [] pre cs
  induction h with
  | nil => intro pre' cs' hp h'; cases h'; exact .nil
  | blank fn als pre sp ls cs _ ih => intro pre' cs' hp h'; cases h' with | blank _ _ _ _ _ _ h' => exact ih _ _ hp h'
  | comment fn als pre sp s ls cs _ ih => intro pre' cs' hp h'; cases h' with | comment _ _ _ _ _ _ _ h' => exact ih _ _ hp h'
  | unused fn als pre c s ls cs _ ih => intro pre' cs' hp h'; cases h' with | unused _ _ _ _ _ _ _ h' => exact ih _ _ hp h'
  | txn fn als pre t ls cs _ ih =>
    intro pre' cs' hp h'
    cases h' with
    | txn _ _ _ _ _ cs' h' =>
      have hn : ∀ p : List Call, openAmounts (p ++ [.newTransaction t.date.code t.payee (t.note.note.getD [])]) = [] := by
        intro p; rw [ho, opens_cons_txn]; rfl
      exact .cons _ _ _ (ih _ _ (by rw [hn, hn]) h')
  | posting fn als pre l ls cs _ ih =>
    intro pre' cs' hp h'
    cases h' with
    | posting _ _ _ _ _ cs' h' =>
      have hn : ∀ p : List Call, openAmounts (p ++ [.addPosting (standsFor als l.acct) l.ccy l.amount (l.note.getD [])]) =
          openAmounts p ++ [(l.ccy, l.amount)] := by
        intro p; rw [ho]; rfl
      exact .cons _ _ _ (ih _ _ (by rw [hn, hn]; exact hp.append_right _) h')
  | rest fn als pre r adds ls cs hnd hm _ ih =>
    intro pre' cs' hp h'
    cases h' with
    | rest _ _ _ _ adds' _ cs' hnd' hm' h' =>
      have hn : ∀ (p : List Call) (adds : List (Str × Rat)),
          openAmounts (p ++ adds.map fun cv => .addPosting (standsFor als r.acct) cv.1 cv.2 (r.note.note.getD [])) = openAmounts p ++ adds := by
        intro p adds
        rw [ho]
        have := segments_adds (openAmounts p) (standsFor als r.acct) (r.note.note.getD []) adds []
        rw [List.append_nil] at this
        unfold opens
        rw [this]
        rfl
      have ha : adds.Perm adds' := by
        rw [List.perm_ext_iff_of_nodup (List.Nodup.of_map _ hnd) (List.Nodup.of_map _ hnd')]
        rintro ⟨c, v⟩
        rw [hm, hm', net_perm hp]
      refine .posts _ _ _ _ (ha.map _) ?_ (ih _ _ (by rw [hn, hn]; exact hp.append ha) h')
      intro x hx
      obtain ⟨cv, _, rfl⟩ := List.mem_map.1 hx
      exact ⟨_, _, _, _, rfl⟩
  | price fn als pre p ls cs _ ih =>
    intro pre' cs' hp h'
    cases h' with
    | price _ _ _ _ _ cs' h' =>
      have hn : ∀ q : List Call, openAmounts (q ++ [.addPrice p.date.code p.unit p.ccy p.num.value]) = openAmounts q := by
        intro q; rw [ho]; rfl
      exact .cons _ _ _ (ih _ _ (by rw [hn, hn]; exact hp) h')
  | short fn als pre sp1 s sp2 sp3 l sp4 ls cs _ ih =>
    intro pre' cs' hp h'; cases h' with | short _ _ _ _ _ _ _ _ _ _ _ h' => exact ih _ _ hp h'
  | incl fn als pre sp q f ls' cs1 ls cs hf hsay _ ih1 ih2 =>
    intro pre' cs' hp h'
    cases h' with
    | incl _ _ _ _ _ _ ls'' cs1' _ cs' hf' h1' h2' =>
      rw [hf] at hf'
      cases hf'
      have h2 := (readings_agree hsay pre' cs1' hp h1').2
      exact (ih1 _ _ hp h1').append (ih2 _ _ (by rw [ho, ho]; exact opens_forall₂ h2) h2')

theorem sameLedger_shuffled {cs cs' ds ds' : List Call} (h : SameLedger cs cs') (h1 : Shuffled cs ds) (h2 : Shuffled cs' ds') : SameLedger ds ds' := by
  obtain ⟨a1, a2, a3⟩ := h1.facts
  obtain ⟨b1, b2, b3⟩ := h2.facts
  refine ⟨by rw [← a1]; exact h.distinct, by rw [← a1]; exact h.dated, by rw [← a1, ← b1]; exact h.headers, ?_, by rw [← a2, ← b2]; exact h.prices⟩
  rw [← a1, ← b1]
  exact ((a3 _ _).symm.trans h.booked).trans (b3 _ _)

/-! ## Reports -/

theorem EndsLike.refl {α : Type} {R : α → α → Prop} (hR : ∀ x, R x x) (x : CmdEnd α) : EndsLike R x x := by
  cases x <;> first | exact hR _ | trivial

theorem EndsLike.bind {α β : Type} {R : α → α → Prop} {Q : β → β → Prop} {x y : CmdEnd α} {f g : α → CmdEnd β} (h : EndsLike R x y)
    (hf : ∀ a b, R a b → EndsLike Q (f a) (g b)) : EndsLike Q (x.bind f) (y.bind g) := by
  cases x <;> cases y <;> simp only [EndsLike] at h <;> simp only [CmdEnd.bind] <;> first | exact hf _ _ h | trivial

theorem EndsLike.orCrash {α : Type} {R : α → α → Prop} {x y : Option α} (h1 : ∀ a, x = some a → ∃ b, y = some b ∧ R a b) (h2 : x = none → y = none) :
    EndsLike R (CmdEnd.orCrash x) (CmdEnd.orCrash y) := by
  cases x with
  | none => rw [h2 rfl]; trivial
  | some a => obtain ⟨b, rfl, h⟩ := h1 a rfl; exact h

/-- Books that are alike, both in order. -/
def GoodPair (b b' : Book) : Prop := b.Good ∧ b'.Good ∧ SameBook b b'

theorem convert_like {a : AppConf} {cv : Bool} {b b' : Book} (h : GoodPair b b') : EndsLike GoodPair (convertCmd a cv b) (convertCmd a cv b') := by
  obtain ⟨h1, h2, h3⟩ := h
  unfold convertCmd
  cases cv with
  | false => exact ⟨h1, h2, h3⟩
  | true =>
    simp only [if_true]
    split
    · trivial
    · have hall : (b.post.all fun p => (b.prices.getPrice p.date p.ccy a.baseCCY).isSome) = b'.post.all fun p => (b'.prices.getPrice p.date p.ccy a.baseCCY).isSome := by
        rw [h3.prices]
        have := h3.post
        generalize b.post = l at this
        generalize b'.post = m at this
        induction this with
        | nil => rfl
        | cons h _ ih => rw [List.all_cons, List.all_cons, ih, h.fields.1, h.fields.2.2.2.1]
      unfold convertBook
      rw [hall]
      by_cases hc : (b'.post.all fun p => (b'.prices.getPrice p.date p.ccy a.baseCCY).isSome) = true
      · rw [if_pos hc, if_pos hc]
        refine ⟨⟨good_op insSort_isSort h1 (o := .mapAmount _) (today := 0) rfl |>.1, (good_op insSort_isSort h1 (o := .mapAmount _) (today := 0) rfl).2⟩,
          ⟨(good_op insSort_isSort h2 (o := .mapAmount _) (today := 0) rfl).1, (good_op insSort_isSort h2 (o := .mapAmount _) (today := 0) rfl).2⟩, ?_⟩
        rw [h3.prices]
        exact mapAmount_same _ h3
      · rw [if_neg hc, if_neg hc]; trivial

theorem good_splitBy {srt} (hs : IsSort srt) (today : Int) (t : Str) {b : Book} (h : b.Good) : (b.splitBy srt today t).Good :=
  good_op hs h (o := .splitBy t) (today := today) rfl

theorem sumCmd_like {e : OpEnv} {srt' : List Posting → List Posting} (hs : IsSort e.srt) (hs' : IsSort srt') {a : AppConf} (hd : a.divider ≠ []) (r : ReportConf)
    (ht : r.typ ≠ b!"Beancount") {o o' : Int → Str → List Str → List Str} (ho : ∀ d py l, (o d py l).Perm l) (ho' : ∀ d py l, (o' d py l).Perm l) {c c' : Book}
    (hcc : GoodPair c c') : EndsLike (SameReport r) (sumCmd e a r o c) (sumCmd (e.sorting srt') a r o' c') := by
  unfold sumCmd
  show EndsLike _ (if r.credit ≠ [] ∧ e.valid r.credit = false then _ else _) (if r.credit ≠ [] ∧ e.valid r.credit = false then _ else _)
  by_cases hcr : r.credit ≠ [] ∧ e.valid r.credit = false
  · rw [if_pos hcr, if_pos hcr]; trivial
  rw [if_neg hcr, if_neg hcr]
  by_cases hsum : r.sum = true
  · rw [if_pos hsum, if_pos hsum]
    by_cases hb : a.baseCCY = []
    · rw [if_pos hb, if_pos hb]; trivial
    rw [if_neg hb, if_neg hb]
    have hR : ∀ ts ts', SameReport r ts ts' ↔ SameRows ts ts' := by
      intro ts ts'; unfold SameReport; rw [if_pos ⟨hsum, ht⟩]
    refine EndsLike.orCrash ?_ ?_
    · intro ts hx
      obtain ⟨ts', h1, h2⟩ := accumulate_same hs hs' hcc.1 hcc.2.1 hcc.2.2 hd _ _ ho ho' hx
      exact ⟨ts', h1, (hR _ _).2 h2⟩
    · intro hx
      cases hy : c'.accumulate srt' a.baseCCY a.divider (if r.credit = [] then none else some (e.mat r.credit)) r.hidden o' with
      | none => exact hy
      | some ts' =>
        obtain ⟨ts, h1, _⟩ := accumulate_same hs' hs hcc.2.1 hcc.1 hcc.2.2.symm hd _ _ ho' ho hy
        rw [hx] at h1; cases h1
  · rw [if_neg hsum, if_neg hsum]
    show SameReport r _ _
    unfold SameReport
    rw [if_neg (fun e => hsum e.1)]
    exact forall₂_alikes.1 (transactions_same hs hs' hcc.1 hcc.2.1 hcc.2.2)

theorem reportTxns_like {e : OpEnv} {srt' : List Posting → List Posting} (hs : IsSort e.srt) (hs' : IsSort srt') {a : AppConf} (hd : a.divider ≠ []) (r : ReportConf)
    {o o' : Int → Str → List Str → List Str} (ho : ∀ d py l, (o d py l).Perm l) (ho' : ∀ d py l, (o' d py l).Perm l) {b b' : Book} (h : GoodPair b b') :
    EndsLike (SameReport r) (reportTxns e a r o b) (reportTxns (e.sorting srt') a r o' b') := by
  have htx : ∀ {b b' : Book}, GoodPair b b' → SameTxns (b.transactions e.srt) (b'.transactions srt') := by
    intro b b' h
    exact forall₂_alikes.1 (transactions_same hs hs' h.1 h.2.1 h.2.2)
  unfold reportTxns
  by_cases ht : r.typ = b!"Beancount"
  · rw [if_pos ht, if_pos ht]
    show SameReport r _ _
    unfold SameReport
    rw [if_neg (fun e => e.2 ht)]
    exact htx h
  · rw [if_neg ht, if_neg ht]
    have hsplit : GoodPair (if r.combineby ≠ b!"skip" then b.splitBy e.srt e.today r.combineby else b)
        (if r.combineby ≠ b!"skip" then b'.splitBy srt' e.today r.combineby else b') := by
      by_cases hc : r.combineby ≠ b!"skip"
      · rw [if_pos hc, if_pos hc]
        exact ⟨good_splitBy hs _ _ h.1, good_splitBy hs' _ _ h.2.1, splitBy_same hs hs' _ _ h.1 h.2.1 h.2.2⟩
      · rw [if_neg hc, if_neg hc]; exact h
    exact EndsLike.bind (convert_like hsplit) fun c c' hcc => sumCmd_like hs hs' hd r ht ho ho' hcc

theorem ops_like {e : OpEnv} {srt' : List Posting → List Posting} (hs : IsSort e.srt) (hs' : IsSort srt') (fuel : Nat) (a : AppConf) (args : List Str)
    {b b' : Book} (h : GoodPair b b') : EndsLike GoodPair (opsCmd e fuel a args b) (opsCmd (e.sorting srt') fuel a args b') := by
  have := bookOps_like hs hs' a.macros fuel args h.1 h.2.1 h.2.2
  unfold opsCmd
  generalize bookOps e a.macros fuel args b = x at this
  generalize bookOps (e.sorting srt') a.macros fuel args b' = y at this
  cases this with
  | ok h1 h2 h3 => exact ⟨h1, h2, h3⟩
  | err => trivial
  | panic => trivial
  | diverge => trivial

/-- **C117** (b): a report (of any kind, after any operations) does not depend on the order in which the transactions are written in the ledger and in the files it includes, nor
on the order of the postings of a transaction, the sorting algorithm, or the order in which the maps are walked. -/
theorem c117_order {le le' : Env} (he : le.Ok) (he' : le'.Ok) (hl : PlainLetters le) (hl' : PlainLetters le') {fs fs' : Str → Option (List FileLine)}
    (hdisk : OnDisk le fs) (hdisk' : OnDisk le' fs') (a : AppConf) (f' : Str) {ls ls' : List FileLine} (hf : fs a.ledger = some ls) (hf' : fs' f' = some ls')
    {cs cs' : List Call} (hsay : FileSays fs le.join a.ledger [] [] ls cs) (hsay' : FileSays fs' le'.join f' [] [] ls' cs') (h : SameLedger cs cs')
    (hbal : ∀ s ∈ segments [] cs, SegBalanced s) (e : OpEnv) (hs : IsSort e.srt) (srt' : List Posting → List Posting) (hs' : IsSort srt')
    (hd : a.divider ≠ []) (fuel : Nat) (r : ReportConf) (o o' : Int → Str → List Str → List Str) (ho : ∀ d py l, (o d py l).Perm l)
    (ho' : ∀ d py l, (o' d py l).Perm l) (args : List Str) :
    ∃ n, ∀ depth depth', n ≤ depth → n ≤ depth' →
      EndsLike (SameReport r) (reportCmd le depth e fuel a r o args) (reportCmd le' depth' (e.sorting srt') fuel (a.reading f') r o' args) := by
  obtain ⟨n, hn⟩ := c96_balanced_loads he hl hdisk hf hsay hbal e.srt
  obtain ⟨n', hn'⟩ := c96_balanced_loads he' hl' hdisk' hf' hsay' ((c117_balance h).1 hbal) srt'
  refine ⟨max n n', fun depth depth' hd1 hd2 => ?_⟩
  obtain ⟨bk, hbk⟩ := hn depth (le_trans (le_max_left _ _) hd1)
  obtain ⟨bk', hbk'⟩ := hn' depth' (le_trans (le_max_right _ _) hd2)
  obtain ⟨ds, s1, b1, _⟩ := c96_loaded_book he hl hdisk hf hbk
  obtain ⟨ds', s1', b1', _⟩ := c96_loaded_book he' hl' hdisk' hf' hbk'
  have hsame := built_same hs hs' (sameLedger_shuffled h (readings_shuffled hsay [] ds (.refl _) s1) (readings_shuffled hsay' [] ds' (.refl _) s1')) b1 b1'
  have l1 : loadCmd le depth e.srt a = .ok bk := by unfold loadCmd; rw [hbk]
  have l2 : loadCmd le' depth' srt' (a.reading f') = .ok bk' := by
    unfold loadCmd; rw [show (a.reading f').ledger = f' from rfl, hbk']
  have hp : GoodPair bk bk' := ⟨b1.wf hs, b1'.wf hs', hsame⟩
  unfold reportCmd
  rw [l1, show (e.sorting srt').srt = srt' from rfl, l2]
  exact EndsLike.bind (ops_like hs hs' fuel a args hp) fun b b' hb => reportTxns_like hs hs' (a := a) hd r ho ho' hb

/-! Non-vacuity: the demonstration files with the included file first. -/

def turnedMain : List FileLine := (demoMain.take 3) ++ demoMain.drop 7 ++ (demoMain.drop 3).take 4

def turnedDisk (f : Str) : Option (List FileLine) :=
  if f = b!"main" then some turnedMain else if f = b!"more" then some demoMore else none

def turnedEnv : Env := demoEnv [(b!"main", fileText turnedMain), (b!"more", fileText demoMore)]

example : fileText turnedMain =
    b!"; my ledger\n \nalias c = Assets:Cash\ninclude \"more\"\nP 2020/01/02 00:00:00 X 1.5 Y\n2020/1/2 * shop ; note\n  c $12.50\n  Equity\n" := by
  decide +kernel

theorem turned_disk : OnDisk turnedEnv turnedDisk := by
  intro f ls hf
  unfold turnedDisk at hf
  split at hf
  · rename_i h
    cases h; cases hf
    refine ⟨by decide +kernel, fun l hl => ?_⟩
    have hm : l ∈ demoMain := by
      unfold turnedMain at hl
      rcases List.mem_append.1 hl with hl | hl
      · rcases List.mem_append.1 hl with hl | hl
        · exact List.mem_of_mem_take hl
        · exact List.mem_of_mem_drop hl
      · exact List.mem_of_mem_drop (List.mem_of_mem_take hl)
    obtain ⟨h1, h2⟩ := (demo_disk b!"main" demoMain rfl).2 l hm
    refine ⟨h1, fun sp q g hg => ?_⟩
    have := h2 sp q g hg
    subst hg
    simp only [demoMain, List.mem_cons, List.not_mem_nil, or_false, reduceCtorEq, false_or, FileLine.incl.injEq] at hm
    obtain ⟨_, _, rfl⟩ := hm
    decide
  · split at hf
    · rename_i h
      cases h; cases hf
      refine ⟨by decide +kernel, fun l hl => ?_⟩
      obtain ⟨h1, h2⟩ := (demo_disk b!"more" demoMore rfl).2 l hl
      refine ⟨h1, ?_⟩
      rintro sp q g rfl
      simp [demoMore] at hl
    · cases hf

/-- What the turned file says. -/
def turnedSays : List Call := [
  .newTransaction 20200103 b!"bank" b!"note",
  .addPosting b!"Assets:Cash" b!"a b" (-1000) b!"n",
  .addPosting b!"Bank" b!"a b" 1000 [],
  .addPrice 20200102 b!"X" b!"Y" (3 / 2),
  .newTransaction 20200102 b!"shop" b!"note",
  .addPosting b!"Assets:Cash" b!"$" (25 / 2) [],
  .addPosting b!"Equity" b!"$" (-25 / 2) []]

theorem turned_says : FileSays turnedDisk turnedEnv.join b!"main" [] [] turnedMain turnedSays := by
  have h1 : (3 / 2 : Rat) = (⟨false, b!"1", some b!"5"⟩ : Numeral).value := by decide +kernel
  have h2 : (25 / 2 : Rat) = 1 * (⟨false, b!"12", some b!"50"⟩ : Numeral).value := by decide +kernel
  have h3 : (-1000 : Rat) = -1 * (⟨false, b!"1,000", none⟩ : Numeral).value := by decide +kernel
  have hn : ∀ (c v : _) (c' : Str), net c' [(c, v)] = if c = c' then v else 0 := by
    intro c v c'; unfold net; by_cases h : c = c' <;> simp [h]
  have ho : ∀ x y, openAmounts (x ++ y) = opens (openAmounts x) y := fun x y => opens_append [] x y
  unfold turnedSays
  rw [h1, h2, h3]
  refine .comment _ _ _ _ _ _ _ (.blank _ _ _ _ _ _ (.short _ _ _ _ _ _ _ _ _ _ _ ?_))
  refine .incl _ _ _ _ _ _ demoMore [.newTransaction 20200103 b!"bank" b!"note",
    .addPosting b!"Assets:Cash" b!"a b" (-1 * (⟨false, b!"1,000", none⟩ : Numeral).value) b!"n", .addPosting b!"Bank" b!"a b" 1000 []] _ _ rfl ?_ ?_
  · refine .txn _ _ _ _ _ _ (.posting _ _ _ _ _ _ ?_)
    refine .rest _ _ _ _ [(b!"a b", 1000)] _ _ (by simp) ?_ (.nil _ _ _)
    intro c v
    have : ∀ (p : List Call), openAmounts (p ++ [.newTransaction 20200103 b!"bank" b!"note"] ++
        [.addPosting b!"Assets:Cash" b!"a b" (-1 * (⟨false, b!"1,000", none⟩ : Numeral).value) b!"n"]) = [(b!"a b", -1000)] := by
      intro p
      rw [h3, ho, ho, opens_cons_txn]
      rfl
    erw [this]
    rw [hn]
    by_cases h : b!"a b" = c
    · subst h; simp
    · simp [h, Ne.symm h]
  refine .price _ _ _ _ _ _ (.txn _ _ _ _ _ _ (.posting _ _ _ _ _ _ ?_))
  refine .rest _ _ _ _ [(b!"$", -25 / 2)] _ _ (by simp) ?_ (.nil _ _ _)
  intro c v
  have : ∀ (p : List Call), openAmounts (p ++ [.newTransaction 20200102 b!"shop" b!"note"] ++
      [.addPosting b!"Assets:Cash" b!"$" (1 * (⟨false, b!"12", some b!"50"⟩ : Numeral).value) []]) = [(b!"$", 25 / 2)] := by
    intro p
    rw [← h2, ho, ho, opens_cons_txn]
    rfl
  erw [this]
  rw [hn]
  by_cases h : b!"$" = c
  · subst h; simp; constructor <;> rintro rfl <;> norm_num
  · simp [h, Ne.symm h]

theorem turned_same : SameLedger demoSays turnedSays where
  distinct := by decide
  dated := by decide
  headers := by decide
  booked := List.perm_append_comm (l₁ := [_, _]) (l₂ := [_, _])
  prices := rfl

/-- The hypotheses of C117 hold of the two files. -/
example (r : ReportConf) (args : List Str) (fuel : Nat) : ∃ n, ∀ depth depth', n ≤ depth → n ≤ depth' →
    EndsLike (SameReport r) (reportCmd demoDiskEnv depth plainOps fuel (demoApp.reading b!"main") r (fun _ _ l => l) args)
      (reportCmd turnedEnv depth' (plainOps.sorting insSort) fuel ((demoApp.reading b!"main").reading b!"main") r (fun _ _ l => l.reverse) args) :=
  c117_order (demoEnv_ok _) (demoEnv_ok _) (demo_letters _) (demo_letters _) demo_disk turned_disk (demoApp.reading b!"main") b!"main" rfl rfl demo_says turned_says
    turned_same demo_balanced plainOps insSort_isSort insSort insSort_isSort (by decide) fuel r _ _ (fun _ _ _ => .refl _) (fun _ _ l => l.reverse_perm) args

/-- Two transactions of one date and payee are outside: the second one is renamed, so their order shows. -/
example : ¬ (headers [.newTransaction 20200103 b!"bank" [], .newTransaction 20200103 b!"bank" []]).Nodup := by decide

end Verif
