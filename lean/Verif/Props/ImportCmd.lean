import Verif.Proofs.Append
import Verif.Props.ExportCmd
import Verif.Spec.ImportCmd

/-! # C107, C108: the import command, and what it printed appended to the ledger -/

namespace Verif
open Spec

/-! ## Scripts build books -/

theorem addCall_issues {b b' : Builder} {a : AddArgs} (h : addCall b a = .ok b') : ∃ cs, b.calls cs = some b' := by
  unfold addCall at h
  split at h
  · cases h
  · cases ha : a.amt with
    | bad => rw [ha] at h; cases h
    | none => rw [ha] at h; cases h
    | num r =>
      rw [ha] at h
      simp only at h
      cases hn : newRat 1 a.denom with
      | none => rw [hn] at h; cases h
      | some f =>
        rw [hn] at h
        simp only at h
        cases ht : b.newTransaction a.date a.desc a.note with
        | none => rw [ht] at h; cases h
        | some b1 =>
          rw [ht] at h
          simp only at h
          unfold addSecond at h
          cases ha2 : a.amt2 with
          | bad => rw [ha2] at h; cases h
          | none =>
            rw [ha2] at h
            simp only at h
            split at h
            · cases h
              refine ⟨[.newTransaction a.date a.desc a.note, .addPosting a.account a.ccy (r * f) a.lnote, .addPosting a.caccount a.ccy (-(r * f)) []], ?_⟩
              simp [Builder.calls, Builder.call, ht]
            · cases h
          | num r2 =>
            rw [ha2] at h
            simp only at h
            cases hn2 : newRat 1 a.denom2 with
            | none => rw [hn2] at h; cases h
            | some f2 =>
              rw [hn2] at h
              cases h
              refine ⟨[.newTransaction a.date a.desc a.note, .addPosting a.account a.ccy (r * f) a.lnote, .addPosting a.caccount a.ccy (-(r * f)) [],
                .addPosting a.account2 a.ccy2 (r2 * f2) [], .addPosting a.caccount a.ccy2 (-(r2 * f2)) []], ?_⟩
              simp [Builder.calls, Builder.call, ht]

theorem runAdds_issues : ∀ (as : List AddArgs) (b b' : Builder), runAdds b as = .ok b' → ∃ cs, b.calls cs = some b' := by
  intro as
  induction as with
  | nil => intro b b' h; cases h; exact ⟨[], rfl⟩
  | cons a as ih =>
    intro b b' h
    unfold runAdds at h
    cases ha : addCall b a with
    | ok b1 =>
      rw [ha] at h
      obtain ⟨cs, hc⟩ := addCall_issues ha
      obtain ⟨cs', hc'⟩ := ih b1 b' h
      exact ⟨cs ++ cs', by rw [calls_append, hc]; exact hc'⟩
    | err b1 => rw [ha] at h; cases h
    | panic => rw [ha] at h; cases h

theorem processData_iff {srt : List Posting → List Posting} {s : Source} {b : Book} : processData srt s = .ok b ↔
    s.ok = true ∧ ∃ bb, runAdds Builder.new s.adds = .ok bb ∧ bb.build srt = some b := by
  unfold processData
  cases hr : runAdds Builder.new s.adds with
  | ok b1 =>
    simp only
    split
    · rename_i ho
      cases hb : b1.build srt with
      | none => simp [CmdEnd.orCrash, hb, ho]
      | some b2 => simp [CmdEnd.orCrash, hb, ho]
    · rename_i ho; simp [ho]
  | err b1 => simp
  | panic => simp

theorem processData_built {srt : List Posting → List Posting} {s : Source} {b : Book} (h : ∃ bb, runAdds Builder.new s.adds = .ok bb ∧ bb.build srt = some b) :
    ∃ cs, Built srt cs b := by
  obtain ⟨bb, h1, h2⟩ := h
  obtain ⟨cs, hc⟩ := runAdds_issues _ _ _ h1
  exact ⟨cs, bb, hc, h2⟩

theorem scriptsGive_built {srt : List Posting → List Posting} {ss : List Source} {bs : List Book} (h : ScriptsGive srt ss bs) :
    ∀ b ∈ bs, ∃ cs, Built srt cs b := by
  unfold ScriptsGive at h
  induction h with
  | nil => intro b hb; cases hb
  | cons h1 _ ih =>
    intro b hb
    rcases List.mem_cons.1 hb with e | e
    · rw [e]; exact processData_built h1.2.2
    · exact ih b e

/-! ## Reading messages -/

theorem read_msgs (e : Env) (he : e.letter 10 = false) (depth : Nat) (fn : Str) : ∀ (ms : List Str), (∀ m ∈ ms, OneLineMsg m) →
    0 ∉ printMsgs ms ∧ Lines (printMsgs ms) ∧ ∀ b als, readText e depth fn b als (printMsgs ms) = .ok b als := by
  intro ms
  induction ms with
  | nil => intro _; exact ⟨by simp [printMsgs], Or.inl rfl, fun _ _ => rfl⟩
  | cons m ms ih =>
    intro h
    obtain ⟨k1, k2, k3⟩ := ih fun x hx => h x (List.mem_cons_of_mem _ hx)
    obtain ⟨m0, m10⟩ := h m List.mem_cons_self
    have e1 : printMsgs (m :: ms) = (b!"; " ++ m ++ [10]) ++ printMsgs ms := by simp [printMsgs]
    have n0 : 0 ∉ b!"; " ++ m ++ [10] := by simp [m0]
    refine ⟨by rw [e1]; simp [m0, k1], ?_, ?_⟩
    · rw [e1]
      rcases k2 with e | ⟨x, e⟩
      · rw [e, List.append_nil]; exact Or.inr ⟨_, rfl⟩
      · exact Or.inr ⟨b!"; " ++ m ++ [10] ++ x, by rw [e]; simp⟩
    · intro b als
      rw [e1, c60_reads_on_partial e he depth fn b als _ _ n0 (Or.inr ⟨_, rfl⟩)]
      have hin : ∀ c ∈ m, inLine c = true := by
        intro c hc
        have h1 : c ≠ 0 := fun e => m0 (e ▸ hc)
        have h2 : c ≠ 10 := fun e => m10 (e ▸ hc)
        simp [inLine, h1, h2]
      have hstep : parseStep e b als (b!"; " ++ m ++ [10]) = .go b als [] := by
        have hws : consumeWS (b!"; " ++ m ++ [10]) = b!"; " ++ m ++ [10] := rfl
        have hch : Reader.ch (b!"; " ++ m ++ [10]) = 59 := rfl
        have hsk : skipLine (b!"; " ++ m ++ [10]) = [] := by
          unfold skipLine
          have : (b!"; " ++ m ++ [10] : Str).dropWhile inLine = [10] := by
            have : ∀ c ∈ b!"; " ++ m, inLine c = true := by
              intro c hc
              rcases List.mem_append.1 hc with hc | hc
              · simp at hc; rcases hc with rfl | rfl <;> rfl
              · exact hin c hc
            rw [List.dropWhile_append_of_pos this]
            rfl
          rw [this]; rfl
        unfold parseStep
        simp only [hws, hch, hsk]
        rw [if_pos (Or.inl trivial)]
      rw [readText_go (by simp [Reader.ch]) hstep]
      exact k3 b als

/-! ## What the command prints -/

theorem import_text {srt : List Posting → List Posting} {dedup : Bool} {rc : Option Reclass} {f : Fmt} (hf : SoundFmt f) {main : Book} :
    ∀ (ss : List Source) (bs : List Book) (prev : List Book), ScriptsGive srt ss bs → (∀ s ∈ ss, ∀ m ∈ s.msgs, OneLineMsg m) →
      (∀ out ∈ importRun srt dedup rc main prev bs, ∀ t ∈ out, PrintableTxn f t) →
      (importLoop srt dedup rc f main prev ss).fin = .ok () ∧ 0 ∉ (importLoop srt dedup rc f main prev ss).text ∧
      Lines (importLoop srt dedup rc f main prev ss).text ∧
      ∀ (e : Env), e.letter 10 = false → ∀ (depth : Nat) (fn : Str) (b : Builder) (als : Aliases),
        (∀ out ∈ importRun srt dedup rc main prev bs, ∀ t ∈ out, ∀ p ∈ t, als.resolve p.acct = p.acct) →
        readText e depth fn b als (importLoop srt dedup rc f main prev ss).text =
          Outcome.ofCallsIn als (b.calls (appendCalls (importRun srt dedup rc main prev bs))) := by
  intro ss bs prev h
  unfold ScriptsGive at h
  induction h generalizing prev with
  | nil => intro _ _; exact ⟨rfl, by simp [importLoop], Or.inl rfl, fun _ _ _ _ _ _ _ => rfl⟩
  | @cons s b0 ss bs h1 _ ih =>
    intro hm hp
    unfold importRun at hp
    simp only at hp
    obtain ⟨k1, k2, k3, k4⟩ := ih (prev ++ [importOne srt dedup rc main prev b0]) (fun x hx => hm x (List.mem_cons_of_mem _ hx))
      (fun out ho => hp out (List.mem_cons_of_mem _ ho))
    have hp0 := hp _ List.mem_cons_self
    obtain ⟨text, t1, t2, t3, t4⟩ := read_txns_in (f := f) (·.val) ((importOne srt dedup rc main prev b0).transactions srt)
      fun t ht => ⟨⟨(hp0 t ht).nonempty, (hp0 t ht).date, (hp0 t ht).payee, (hp0 t ht).tnote⟩,
        fun p hp => ⟨⟨((hp0 t ht).posts p hp).acct, ((hp0 t ht).posts p hp).ccy, ((hp0 t ht).posts p hp).note⟩, numReads_exact hf ((hp0 t ht).posts p hp)⟩⟩
    have hid : ∀ ts : List Txn, (ts.map fun t => t.map fun p : Posting => { p with val := p.val }) = ts := by intro ts; simp
    rw [hid] at t4
    have e1 : importLoop srt dedup rc f main prev (s :: ss) =
        ⟨printMsgs s.msgs ++ text ++ (importLoop srt dedup rc f main (prev ++ [importOne srt dedup rc main prev b0]) ss).text,
          (importLoop srt dedup rc f main (prev ++ [importOne srt dedup rc main prev b0]) ss).fin⟩ := by
      rw [importLoop, if_pos h1.1, processData_iff.2 h1.2]
      simp only [t1]
    generalize importLoop srt dedup rc f main (prev ++ [importOne srt dedup rc main prev b0]) ss = R at *
    rw [e1]
    obtain ⟨m1, m2, _⟩ := read_msgs { files := fun _ => none, join := fun _ x => x, letter := fun _ => false, upper := fun c => c, ord := fun _ => [] } rfl 0 []
      s.msgs (hm s List.mem_cons_self)
    refine ⟨k1, by simp [m1, t2, k2], ?_, ?_⟩
    · rcases k3 with e | ⟨x, e⟩
      · rw [e]
        simp only [List.append_nil]
        rcases t3 with e | ⟨x, e⟩
        · rw [e, List.append_nil]; exact m2
        · exact Or.inr ⟨printMsgs s.msgs ++ x, by rw [e]; simp⟩
      · exact Or.inr ⟨printMsgs s.msgs ++ text ++ x, by simp only [e]; simp⟩
    · intro e he depth fn b als hals
      unfold importRun at hals
      simp only at hals
      obtain ⟨m1, m2, m3⟩ := read_msgs e he depth fn s.msgs (hm s List.mem_cons_self)
      simp only [List.append_assoc]
      rw [c60_reads_on_partial e he depth fn b als _ _ m1 m2, m3]
      simp only [Outcome.andThen]
      rw [c60_reads_on_partial e he depth fn b als _ _ t2 t3, t4 e he depth fn b als (hals _ List.mem_cons_self)]
      unfold importRun appendCalls
      simp only [List.flatten_cons, List.flatMap_append]
      rw [calls_append]
      generalize b.calls (((importOne srt dedup rc main prev b0).transactions srt).flatMap txnCalls) = o
      cases o with
      | none => rfl
      | some b1 =>
        simp only [Outcome.ofCallsIn, Outcome.andThen, Option.bind_some]
        exact k4 e he depth fn b1 als fun out ho => hals out (List.mem_cons_of_mem _ ho)

/-! ## What is loaded afterwards -/

theorem calls_posts (P : Int → Str → Prop) : ∀ (cs : List Call) (b b' : Builder), b.calls cs = some b' → (∀ p ∈ b.post, P p.date p.payee) →
    P b.currDate b.currPayee → (∀ x ∈ issued b cs, P x.1 x.2) → ∀ p ∈ b'.post, P p.date p.payee := by
  intro cs
  induction cs with
  | nil => intro b b' h hp _ _; cases h; exact hp
  | cons c cs ih =>
    intro b b' h hp hc hi
    unfold Builder.calls at h
    unfold issued at hi
    cases hb : b.call c with
    | none => rw [hb] at h; cases h
    | some b1 =>
      rw [hb] at h hi
      simp only at h hi
      cases c with
      | newTransaction d py n =>
        refine ih b1 b' h ?_ (hi _ List.mem_cons_self) fun x hx => hi x (List.mem_cons_of_mem _ hx)
        rw [(newTransaction_post hb).1]; exact hp
      | addPosting a c v n =>
        cases hb
        refine ih _ b' h ?_ hc hi
        intro p hpm
        rcases List.mem_append.1 hpm with e | e
        · exact hp p e
        · rw [List.mem_singleton.1 e]; exact hc
      | addPrice d u c v => cases hb; exact ih _ b' h hp hc hi

/-- Adding transactions of names not used before files them under these names. -/
theorem append_distinct (ts : List Txn) : ∀ (b : Builder) (names : List (Int × Str)), SeenInv b names → OpenInv b [] →
    (∀ t ∈ ts, t ≠ [] ∧ (∀ p ∈ t, ∀ q ∈ t, p.date = q.date ∧ p.payee = q.payee) ∧ Balanced t) →
    ts.Pairwise (fun t u => ∀ p ∈ t, ∀ q ∈ u, ¬ (p.date = q.date ∧ p.payee = q.payee)) →
    (∀ t ∈ ts, ∀ p ∈ t, (p.date, p.payee) ∉ names) →
    ∃ b', b.calls (ts.flatMap txnCalls) = some b' ∧ OpenInv b' [] ∧ b'.prices = b.prices ∧
      ∀ d py a c, entryTotal d py a c b'.post = entryTotal d py a c b.post + entryTotal d py a c ts.flatten := by
  induction ts with
  | nil => intro b names _ ho _ _ _; exact ⟨b, rfl, ho, rfl, by intros; simp [entryTotal, total]⟩
  | cons t ts ih =>
    intro b names hs ho hg hd hn
    obtain ⟨g1, g2, g3⟩ := hg t (by simp)
    obtain ⟨b1, n, k1, k2, k3, k4, k5, k6⟩ := append_named hs ho g1 g2 g3 (hn t (by simp))
    obtain ⟨p, hp⟩ := List.exists_mem_of_ne_nil _ g1
    obtain ⟨b', m1, m2, m3, m4⟩ := ih b1 (n :: names) k2 k3 (fun u hu => hg u (by simp [hu])) (List.pairwise_cons.1 hd).2
      (by
        intro u hu q hq hm
        rcases List.mem_cons.1 hm with e | e
        · rw [k4 p hp] at e
          have : q.date = p.date ∧ q.payee = p.payee := by simpa using e
          exact (List.pairwise_cons.1 hd).1 u hu p hp q hq ⟨this.1.symm, this.2.symm⟩
        · exact hn u (by simp [hu]) q hq e)
    refine ⟨b', by rw [List.flatMap_cons, calls_append, k1]; exact m1, m2, by rw [m3, k6], ?_⟩
    intro d py a c
    rw [m4, k5]
    unfold entryTotal
    rw [List.flatten_cons, total_append, total_append, add_assoc]
    congr 2
    obtain ⟨p0, ps, rfl⟩ := List.exists_cons_of_ne_nil g1
    unfold asLoaded
    simp only [List.map_map]
    generalize p0 :: ps = l
    induction l with
    | nil => rfl
    | cons q l ihl => rw [List.map_cons, total_cons, total_cons, ihl]; rfl

theorem mem_lines {ts : List Txn} (h1 : ∀ t ∈ ts, ∀ p ∈ t, ∀ q ∈ t, p.date = q.date ∧ p.payee = q.payee) (h2 : ∀ t ∈ ts, DistinctLines t)
    (h3 : ∀ t ∈ ts, ∀ p ∈ t, p.val ≠ 0) (h4 : ts.Pairwise (fun t u => ∀ p ∈ t, ∀ q ∈ u, ¬ (p.date = q.date ∧ p.payee = q.payee))) (l : Line) :
    l ∈ ts.flatten.map line ↔ l.val ≠ 0 ∧ entryTotal l.date l.payee l.acct l.ccy ts.flatten = l.val := by
  have key : ∀ t ∈ ts, ∀ p ∈ t, entryTotal p.date p.payee p.acct p.ccy ts.flatten = p.val := by
    intro t ht p hp
    rw [← entry_in_txn (h2 t ht) (h1 t ht) hp]
    obtain ⟨pre, post, e⟩ := List.append_of_mem ht
    subst e
    rw [List.pairwise_append, List.pairwise_cons] at h4
    unfold entryTotal
    rw [List.flatten_append, List.flatten_cons, total_append, total_append, total_zero (l := pre.flatten), total_zero (l := post.flatten)]
    · simp
    · intro q hq
      obtain ⟨u, hu, hqu⟩ := List.mem_flatten.1 hq
      have := h4.2.1.1 u hu p hp q hqu
      simp only [decide_eq_false_iff_not]
      rintro ⟨h3, h4, _⟩; exact this ⟨h3.symm, h4.symm⟩
    · intro q hq
      obtain ⟨u, hu, hqu⟩ := List.mem_flatten.1 hq
      have := h4.2.2 u hu t (by simp) q hqu p hp
      simp only [decide_eq_false_iff_not]
      rintro ⟨h3, h4, _⟩; exact this ⟨h3, h4⟩
  constructor
  · intro h
    obtain ⟨p, hp, rfl⟩ := List.mem_map.1 h
    obtain ⟨t, ht, hpt⟩ := List.mem_flatten.1 hp
    exact ⟨h3 t ht p hpt, key t ht p hpt⟩
  · rintro ⟨hv, he⟩
    by_contra hno
    have : ∃ p ∈ ts.flatten, p.date = l.date ∧ p.payee = l.payee ∧ p.acct = l.acct ∧ p.ccy = l.ccy := by
      by_contra hn
      apply hv
      rw [← he]
      apply total_zero
      intro p hp
      simp only [decide_eq_false_iff_not]
      intro hx; exact hn ⟨p, hp, hx⟩
    obtain ⟨p, hp, e1, e2, e3, e4⟩ := this
    obtain ⟨t, ht, hpt⟩ := List.mem_flatten.1 hp
    have := key t ht p hpt
    rw [e1, e2, e3, e4, he] at this
    apply hno
    refine List.mem_map.2 ⟨p, hp, ?_⟩
    cases l
    simp only at e1 e2 e3 e4 this
    simp [line, e1, e2, e3, e4, this]

theorem canonical_names {ts : List Txn} (h : Canonical ts) : ts.Pairwise (fun t u => ∀ p ∈ t, ∀ q ∈ u, ¬ (p.date = q.date ∧ p.payee = q.payee)) :=
  h.txnOrder.imp fun h p hp q hq e => txnBefore_irrefl (h p hp q hq) ⟨e.1.symm, e.2.symm⟩

theorem book_lines {srt : List Posting → List Posting} (hs : IsSort srt) {b : Book} (w : b.WF) (l : Line) :
    l ∈ (reported srt b).map line ↔ l.val ≠ 0 ∧ entryTotal l.date l.payee l.acct l.ccy b.post = l.val := by
  have hcan : Canonical (b.transactions srt) := compact_canonical hs w
  have h2 : entryTotal l.date l.payee l.acct l.ccy (reported srt b) = entryTotal l.date l.payee l.acct l.ccy b.post :=
    total_reported hs (keyFun_of fun d' py' a' c' => decide (d' = l.date ∧ py' = l.payee ∧ a' = l.acct ∧ c' = l.ccy)) w
  rw [← h2]
  exact mem_lines hcan.oneTxn (fun t ht => canonical_distinct hcan ht) hcan.nonzero (canonical_names hcan) l

theorem appended_file {le : Env} {fn text more : Str} (h : le.files fn = some text) :
    appendTo le fn more = { le with files := fun g => if g = fn then some (text ++ more) else le.files g } := by
  unfold appendTo; rw [h]; rfl

theorem build_prices {srt : List Posting → List Posting} {bb : Builder} {b : Book} (h : bb.build srt = some b) : b.prices = bb.prices.build := by
  unfold Builder.build at h
  cases hc : bb.checkAndClear with
  | none => rw [hc] at h; cases h
  | some b1 =>
    rw [hc] at h
    simp only [Option.some.injEq] at h
    unfold Builder.checkAndClear at hc
    split at hc
    · cases hc
      rw [← h]
      unfold Book.compact
      split <;> rfl
    · cases hc

theorem load_built {le : Env} {depth : Nat} {srt : List Posting → List Posting} {a : AppConf} {bb : Builder} {als : Aliases} {main : Book}
    (h1 : parseFile le depth Builder.new a.ledger = .ok bb als) (h2 : bb.build srt = some main) :
    loadBook srt le depth a.ledger = .ok main ∧ loadCmd le depth srt a = .ok main := by
  have : loadBook srt le depth a.ledger = .ok main := by unfold loadBook; rw [h1]; simp only [h2]
  exact ⟨this, by unfold loadCmd; rw [this]⟩

/-- C107, the part that holds. -/
theorem c107_appended_partial (srt : List Posting → List Posting) (hs : IsSort srt) (le : Env) (he : le.letter 10 = false) (depth : Nat) (a : AppConf)
    (text : Str) (hfile : le.files a.ledger = some text) (h0 : 0 ∉ text) (hl : Lines text)
    (cs : List Call) (bb : Builder) (als : Aliases) (main : Book) (hload : parseFile le (depth + 1) Builder.new a.ledger = .ok bb als)
    (hcs : Builder.new.calls cs = some bb) (hmain : bb.build srt = some main)
    (hlive : ∀ n ∈ issued Builder.new cs, hasTxn (main.transactions srt) n.1 n.2 = true)
    (x : PrintEnv) (hx : SoundPrint x) (rc : Option Reclass) (ss : List Source) (bs : List Book) (hss : ScriptsGive srt ss bs)
    (hmsg : ∀ s ∈ ss, ∀ m ∈ s.msgs, OneLineMsg m)
    (hout : ∀ out ∈ importRun srt true rc main [] bs, ∀ t ∈ out, PrintableTxn (bookFmt .english x main) t ∧ ∀ p ∈ t, als.resolve p.acct = p.acct) :
    (importCmd le (depth + 1) srt a .english x true rc ss).fin = .ok () ∧
    ∃ bk, loadBook srt (appendTo le a.ledger (importCmd le (depth + 1) srt a .english x true rc ss).text) (depth + 1) a.ledger = .ok bk ∧
      bk.prices = main.prices ∧
      (∀ l, l ∈ (reported srt bk).map line ↔
        l ∈ (reported srt main).map line ∨ l ∈ (importRun srt true rc main [] bs).flatten.flatten.map line) ∧
      (∀ d py, ¬ (hasTxn (main.transactions srt) d py = true ∧ hasTxn (importRun srt true rc main [] bs).flatten d py = true)) := by
  have hb := scriptsGive_built hss
  obtain ⟨wm, bm⟩ := built_balanced hs hcs hmain
  have hgood := importRun_good hs true rc wm hb
  obtain ⟨c1, c2, c3⟩ := c41_no_duplicates srt hs 0 true rc main bs (Built.reachable ⟨bb, hcs, hmain⟩ 0)
    fun b hbm => by obtain ⟨cs, hc⟩ := hb b hbm; exact Built.reachable hc 0
  have hdist : (importRun srt true rc main [] bs).flatten.Pairwise (fun t u => ∀ p ∈ t, ∀ q ∈ u, ¬ (p.date = q.date ∧ p.payee = q.payee)) := by
    rw [List.pairwise_flatten]
    refine ⟨c3, c2.imp ?_⟩
    intro o1 o2 h t ht u hu p hp q hq e
    have := h u hu q hq
    rw [show hasTxn o1 q.date q.payee = true from hasTxn_iff.2 ⟨t, ht, p, hp, e.1, e.2⟩] at this
    cases this
  have hdis : ∀ d py, ¬ (hasTxn (main.transactions srt) d py = true ∧ hasTxn (importRun srt true rc main [] bs).flatten d py = true) := by
    rintro d py ⟨h1, h2⟩
    obtain ⟨t, ht, p, hp, rfl, rfl⟩ := hasTxn_iff.1 h2
    obtain ⟨out, ho, hto⟩ := List.mem_flatten.1 ht
    have := c1 out ho t hto p hp rfl
    rw [h1] at this; cases this
  -- what is printed
  obtain ⟨t1, _, _, t4⟩ := import_text (srt := srt) (dedup := true) (rc := rc) (bookFmt_sound hx main) (main := main) ss bs [] hss hmsg
    fun out ho t ht => (hout out ho t ht).1
  obtain ⟨_, hlc⟩ := load_built (a := a) hload hmain
  have hcmd : importCmd le (depth + 1) srt a .english x true rc ss = importLoop srt true rc (bookFmt .english x main) main [] ss := by
    unfold importCmd; rw [hlc]
  rw [hcmd]
  refine ⟨t1, ?_⟩
  generalize (importLoop srt true rc (bookFmt .english x main) main [] ss).text = more at *
  -- reading it
  have hseen : SeenInv bb (issued Builder.new cs) := by
    have := (issued_nodup_aux cs Builder.new [] seenInv_new).2.2 bb hcs
    intro key
    have := this key
    simpa using this
  obtain ⟨b', k1, k2, k3, k4⟩ := append_distinct _ bb _ hseen (built_open hcs hmain) (fun t ht => ⟨(hgood t ht).1, (hgood t ht).2.1, (hgood t ht).2.2.1⟩) hdist (by
    intro t ht p hp hn
    exact hdis p.date p.payee ⟨hlive _ hn, hasTxn_iff.2 ⟨t, ht, p, hp, rfl, rfl⟩⟩)
  obtain ⟨b2, hb2⟩ := (checkAndClear_iff k2).2 (by intro c; rfl)
  obtain ⟨bk, hbk⟩ : ∃ m, b'.build srt = some m := by unfold Builder.build; rw [hb2]; exact ⟨_, rfl⟩
  have hcalls : Builder.new.calls (cs ++ appendCalls (importRun srt true rc main [] bs)) = some b' := by
    rw [calls_append, hcs]; exact k1
  have hparse : parseFile (appendTo le a.ledger more) (depth + 1) Builder.new a.ledger = .ok b' als := by
    rw [appended_file hfile]
    unfold parseFile
    rw [read_appended he hfile h0 hl hload more, t4 { le with files := fun g => if g = a.ledger then some (text ++ more) else le.files g } he depth a.ledger bb als fun out ho t ht => (hout out ho t ht).2,
      show appendCalls (importRun srt true rc main [] bs) = (importRun srt true rc main [] bs).flatten.flatMap txnCalls from rfl, k1]
    rfl
  refine ⟨bk, (load_built (a := a) hparse hbk).1, ?_, ?_, hdis⟩
  · rw [build_prices hbk, build_prices hmain, k3]
  · intro l
    obtain ⟨wk, _⟩ := built_balanced hs hcalls hbk
    have hne : ∀ t ∈ (importRun srt true rc main [] bs).flatten, ∀ p ∈ t, entryTotal p.date p.payee l.acct l.ccy bb.post = 0 := by
      intro t ht p hp
      apply total_zero
      intro q hq
      simp only [decide_eq_false_iff_not]
      rintro ⟨e1, e2, _⟩
      have := calls_posts (fun d py => d = -1 ∨ (d, py) ∈ issued Builder.new cs) cs Builder.new bb hcs (by simp [Builder.new]) (Or.inl rfl)
        (fun x hx => Or.inr hx) q hq
      rcases this with e | e
      · obtain ⟨out, ho, hto⟩ := List.mem_flatten.1 ht
        obtain ⟨y, hy, _, hd⟩ := (hout out ho t hto).1.date p hp
        have := code_pos hy
        omega
      · rw [e1, e2] at e
        exact hdis p.date p.payee ⟨hlive _ e, hasTxn_iff.2 ⟨t, ht, p, hp, rfl, rfl⟩⟩
    rw [book_lines hs wk, book_lines hs wm, mem_lines (fun t ht => (hgood t ht).2.1) (fun t ht => (hgood t ht).2.2.2.1) (fun t ht => (hgood t ht).2.2.2.2) hdist,
      build_entry hs hbk, build_entry hs hmain, k4]
    by_cases hex : ∃ p ∈ (importRun srt true rc main [] bs).flatten.flatten, p.date = l.date ∧ p.payee = l.payee
    · obtain ⟨p, hp, e1, e2⟩ := hex
      obtain ⟨t, ht, hpt⟩ := List.mem_flatten.1 hp
      have := hne t ht p hpt
      rw [e1, e2] at this
      rw [this, zero_add]
      constructor
      · intro h; exact Or.inr h
      · rintro (⟨h1, h2⟩ | h)
        · exact absurd h2.symm h1
        · exact h
    · have : entryTotal l.date l.payee l.acct l.ccy (importRun srt true rc main [] bs).flatten.flatten = 0 := by
        apply total_zero
        intro p hp
        simp only [decide_eq_false_iff_not]
        rintro ⟨e1, e2, _⟩; exact hex ⟨p, hp, e1, e2⟩
      rw [this, add_zero]
      constructor
      · intro h; exact Or.inl h
      · rintro (h | ⟨h1, h2⟩)
        · exact h
        · exact absurd h2.symm h1

/-! ## Importing again -/

theorem import_silent {srt : List Posting → List Posting} {dedup : Bool} {rc : Option Reclass} {f : Fmt} {main : Book} :
    ∀ (ss : List Source) (bs : List Book) (prev : List Book), ScriptsGive srt ss bs → (∀ out ∈ importRun srt dedup rc main prev bs, out = []) →
      importLoop srt dedup rc f main prev ss = ⟨printMsgs (ss.flatMap (·.msgs)), .ok ()⟩ := by
  intro ss bs prev h
  unfold ScriptsGive at h
  induction h generalizing prev with
  | nil => intro _; rfl
  | @cons s b0 ss bs h1 _ ih =>
    intro ho
    unfold importRun at ho
    simp only at ho
    have := ih (prev ++ [importOne srt dedup rc main prev b0]) fun out h => ho out (List.mem_cons_of_mem _ h)
    have h0 := ho _ List.mem_cons_self
    rw [importLoop, if_pos h1.1, processData_iff.2 h1.2]
    simp only [h0, this, showTxns, concatOpt]
    simp [printMsgs]

theorem hasTxn_line_iff {ts : List Txn} {d : Int} {py : Str} : hasTxn ts d py = true ↔ ∃ l ∈ ts.flatten.map line, l.date = d ∧ l.payee = py := by
  rw [hasTxn_iff]
  constructor
  · rintro ⟨t, ht, p, hp, e1, e2⟩
    exact ⟨line p, List.mem_map.2 ⟨p, List.mem_flatten.2 ⟨t, ht, hp⟩, rfl⟩, e1, e2⟩
  · rintro ⟨l, hl, e1, e2⟩
    obtain ⟨p, hp, rfl⟩ := List.mem_map.1 hl
    obtain ⟨t, ht, hpt⟩ := List.mem_flatten.1 hp
    exact ⟨t, ht, p, hpt, e1, e2⟩

/-- C108, the part that holds. -/
theorem c108_import_again_partial (srt : List Posting → List Posting) (hs : IsSort srt) (le : Env) (he : le.letter 10 = false) (depth : Nat) (a : AppConf)
    (text : Str) (hfile : le.files a.ledger = some text) (h0 : 0 ∉ text) (hl : Lines text)
    (cs : List Call) (bb : Builder) (als : Aliases) (main : Book) (hload : parseFile le (depth + 1) Builder.new a.ledger = .ok bb als)
    (hcs : Builder.new.calls cs = some bb) (hmain : bb.build srt = some main)
    (hlive : ∀ n ∈ issued Builder.new cs, hasTxn (main.transactions srt) n.1 n.2 = true)
    (x : PrintEnv) (hx : SoundPrint x) (rc : Option Reclass) (hrc : ∀ r, rc = some r → r.Valid) (ss : List Source) (bs : List Book)
    (hss : ScriptsGive srt ss bs) (hmsg : ∀ s ∈ ss, ∀ m ∈ s.msgs, OneLineMsg m)
    (hout : ∀ out ∈ importRun srt true rc main [] bs, ∀ t ∈ out, PrintableTxn (bookFmt .english x main) t ∧ ∀ p ∈ t, als.resolve p.acct = p.acct)
    (lang : Lang) (x' : PrintEnv) (rc' : Option Reclass) :
    importCmd (appendTo le a.ledger (importCmd le (depth + 1) srt a .english x true rc ss).text) (depth + 1) srt a lang x' true rc' ss =
      ⟨printMsgs (ss.flatMap (·.msgs)), .ok ()⟩ := by
  obtain ⟨_, bk, h1, _, h3, _⟩ := c107_appended_partial srt hs le he depth a text hfile h0 hl cs bb als main hload hcs hmain hlive x hx rc ss bs hss hmsg hout
  have hlc : loadCmd (appendTo le a.ledger (importCmd le (depth + 1) srt a .english x true rc ss).text) (depth + 1) srt a = .ok bk := by
    unfold loadCmd; rw [h1]
  have hrk : Reachable srt 0 bk := by
    unfold loadBook at h1
    split at h1 <;> try cases h1
    rename_i bb' als' hp
    obtain ⟨cs', hc'⟩ := parseFileLocal_calls _ _ _ _ _ _ _ hp
    cases hb' : bb'.build srt with
    | none => rw [hb'] at h1; cases h1
    | some bk' => rw [hb'] at h1; cases h1; exact Built.reachable ⟨bb', hc', hb'⟩ 0
  generalize (importCmd le (depth + 1) srt a .english x true rc ss).text = more at *
  unfold importCmd
  rw [hlc]
  apply import_silent ss bs [] hss
  refine c42_reimport_emits_nothing srt hs 0 true rc rc' hrc main bk bs (Built.reachable ⟨bb, hcs, hmain⟩ 0) hrk (scriptsGive_built hss) ?_
  intro d py h
  rw [hasTxn_line_iff]
  rcases h with h | ⟨out, ho, h⟩
  · obtain ⟨l, hl, e⟩ := hasTxn_line_iff.1 h
    exact ⟨l, (h3 l).2 (Or.inl hl), e⟩
  · obtain ⟨l, hl, e⟩ := hasTxn_line_iff.1 h
    refine ⟨l, (h3 l).2 (Or.inr ?_), e⟩
    obtain ⟨p, hp, rfl⟩ := List.mem_map.1 hl
    obtain ⟨t, ht, hpt⟩ := List.mem_flatten.1 hp
    exact List.mem_map.2 ⟨p, List.mem_flatten.2 ⟨t, List.mem_flatten.2 ⟨out, ho, ht⟩, hpt⟩, rfl⟩

/-! ## Where they fail -/

/-- What C107 asks of one import: after appending what it printed the ledger has its own lines and those of the imported
transactions. -/
def AddsExactly (srt : List Posting → List Posting) (le : Env) (depth : Nat) (a : AppConf) (x : PrintEnv) (rc : Option Reclass) (ss : List Source)
    (main : Book) (bs : List Book) : Prop :=
  ∃ bk, loadBook srt (appendTo le a.ledger (importCmd le depth srt a .english x true rc ss).text) depth a.ledger = .ok bk ∧
    ∀ l, l ∈ (reported srt bk).map line ↔ l ∈ (reported srt main).map line ∨ l ∈ (importRun srt true rc main [] bs).flatten.flatten.map line

/-- The claim without conditions on the ledger, the messages and the amounts. -/
def AlwaysAdds : Prop := ∀ (le : Env) (depth : Nat) (a : AppConf) (x : PrintEnv) (ss : List Source) (main : Book) (bs : List Book),
    le.letter 10 = false → SoundPrint x → loadBook insSort le depth a.ledger = .ok main → ScriptsGive insSort ss bs →
    (importCmd le depth insSort a .english x true none ss).fin = .ok () → AddsExactly insSort le depth a x none ss main bs

/-- The book of one import file. -/
def sourceBook (s : Source) : Book :=
  match processData insSort s with
  | .ok b => b
  | _ => ⟨[], [], [], []⟩

/-- Does the ledger show the line once what was imported is appended? -/
def showsLater (file : Str) (s : Source) (l : Line) : Bool :=
  match loadBook insSort (appendTo (demoEnv [(b!"a", file)]) b!"a" (importCmd (demoEnv [(b!"a", file)]) 1 insSort demoApp .english demoPrint true none [s]).text) 1 b!"a" with
  | .ok bk => decide (l ∈ (reported insSort bk).map line)
  | _ => false

/-- Is the line imported? -/
def imported (file : Str) (s : Source) (l : Line) : Bool :=
  match loadBook insSort (demoEnv [(b!"a", file)]) 1 b!"a" with
  | .ok main => decide (l ∈ (importRun insSort true none main [] [sourceBook s]).flatten.flatten.map line)
  | _ => false

/-- The import comes to an end. -/
def importEnds (file : Str) (s : Source) : Bool :=
  match processData insSort s, (importCmd (demoEnv [(b!"a", file)]) 1 insSort demoApp .english demoPrint true none [s]).fin with
  | .ok _, .ok _ => s.readable
  | _, _ => false

theorem not_always {file : Str} {s : Source} {l : Line} (h1 : importEnds file s = true) (h2 : imported file s l = true) (h3 : showsLater file s l = false) :
    ¬ AlwaysAdds := by
  intro h
  unfold imported at h2
  split at h2
  · rename_i main hm
    unfold importEnds at h1
    split at h1
    · rename_i b u hb hf
      have hsb : sourceBook s = b := by unfold sourceBook; rw [hb]
      obtain ⟨bk, k1, k2⟩ := h (demoEnv [(b!"a", file)]) 1 demoApp demoPrint [s] main [sourceBook s] rfl demoPrint_sound hm
        (.cons ⟨h1, by rw [hsb]; exact processData_iff.1 hb⟩ .nil) hf
      unfold showsLater at h3
      have k1' : loadBook insSort (appendTo (demoEnv [(b!"a", file)]) b!"a"
        (importCmd (demoEnv [(b!"a", file)]) 1 insSort demoApp .english demoPrint true none [s]).text) 1 b!"a" = .ok bk := k1
      rw [k1'] at h3
      simp only [decide_eq_false_iff_not] at h3
      exact h3 ((k2 l).2 (Or.inr (by simpa using h2)))
    · cases h1
  · cases h2

/-- A ledger of whole amounts. -/
def wholeFile : Str := b!"2020/01/02 x\n  A  EUR 10\n  B  EUR -10\n"
/-- An import of 12.50. -/
def lunch : AddArgs := ⟨20200103, b!"Lunch", .num (25/2), b!"EUR", 1, b!"Bank", .none, b!"EUR", 1, [], b!"Food", [], []⟩

/-- C107 fails: amounts are printed with the decimals of the main ledger.  If that has whole amounts only, an imported 12.50 is printed, and so
appended, as 12. -/
theorem c107_decimals_fails : ¬ AlwaysAdds :=
  not_always (file := wholeFile) (s := ⟨true, [], [lunch], true⟩) (l := ⟨20200103, b!"Lunch", b!"Bank", b!"EUR", 25/2⟩) (by decide +kernel) (by decide +kernel)
    (by decide +kernel)

example : (importCmd (demoEnv [(b!"a", wholeFile)]) 1 insSort demoApp .english demoPrint true none [⟨true, [], [lunch], true⟩]).text =
    b!"2020/01/03 Lunch\n  Bank  EUR 12\n  Food  EUR -12\n\n" := by decide +kernel

/-- A ledger with cents, with an account short name and a file it includes nothing of. -/
def centsFile : Str := b!"; mine\nalias Cash=Assets:Cash\n2020/01/02 x\n  Cash  EUR 10.25\n  B\n"

/-- C107 fails: a message the script prints goes into the same output behind one "; ".  The second line of a message is read as ledger. -/
theorem c107_message_fails : ¬ AlwaysAdds :=
  not_always (file := centsFile) (s := ⟨true, [b!"rates\nare stale"], [lunch], true⟩) (l := ⟨20200103, b!"Lunch", b!"Bank", b!"EUR", 25/2⟩) (by decide +kernel)
    (by decide +kernel) (by decide +kernel)

/-- C107 fails: an alias of the ledger renames the imported account. -/
theorem c107_alias_fails : ¬ AlwaysAdds :=
  not_always (file := centsFile) (s := ⟨true, [], [{ lunch with account := b!"Cash" }], true⟩) (l := ⟨20200103, b!"Lunch", b!"Cash", b!"EUR", 25/2⟩)
    (by decide +kernel) (by decide +kernel) (by decide +kernel)

/-- C107 fails: the ledger has a transaction of the same date and payee that nets to nothing; it is not reported, so the import is not taken for a
duplicate, and is loaded as "Lunch (2)". -/
theorem c107_vanishing_fails : ¬ AlwaysAdds :=
  not_always (file := b!"2020/01/03 Lunch\n  A  EUR 1.25\n  A  EUR -1.25\n") (s := ⟨true, [], [lunch], true⟩)
    (l := ⟨20200103, b!"Lunch", b!"Bank", b!"EUR", 25/2⟩) (by decide +kernel) (by decide +kernel) (by decide +kernel)

/-- C108 fails there: the same import is printed again, for ever. -/
theorem c108_again_fails : ¬ ∀ (le : Env) (depth : Nat) (a : AppConf) (x : PrintEnv) (ss : List Source) (bs : List Book),
    le.letter 10 = false → SoundPrint x → ScriptsGive insSort ss bs →
    (importCmd le depth insSort a .english x true none ss).fin = .ok () →
    importCmd (appendTo le a.ledger (importCmd le depth insSort a .english x true none ss).text) depth insSort a .english x true none ss =
      ⟨printMsgs (ss.flatMap (·.msgs)), .ok ()⟩ := by
  intro h
  have h1 : importEnds b!"2020/01/03 Lunch\n  A  EUR 1.25\n  A  EUR -1.25\n" ⟨true, [], [lunch], true⟩ = true := by decide +kernel
  unfold importEnds at h1
  split at h1
  · rename_i b u hb hf
    have := h (demoEnv [(b!"a", b!"2020/01/03 Lunch\n  A  EUR 1.25\n  A  EUR -1.25\n")]) 1 demoApp demoPrint [⟨true, [], [lunch], true⟩] [b] rfl demoPrint_sound
      (.cons ⟨h1, processData_iff.1 hb⟩ .nil) hf
    have := congrArg Printed.text this
    revert this
    decide +kernel
  · cases h1

/-! ## Concrete cases -/

/-- Two files: one with a duplicate of the ledger and a new transaction, with a message; one repeating it. -/
def demoSources : List Source :=
  [⟨true, [b!"2 rows"], [⟨20200102, b!"x", .num 3, b!"EUR", 1, b!"Bank", .none, b!"EUR", 1, [], b!"Food", [], []⟩, lunch], true⟩,
   ⟨true, [], [lunch, { lunch with date := 20200104, note := b!"again" }], true⟩]

example : (importCmd (demoEnv [(b!"a", centsFile)]) 1 insSort demoApp .english demoPrint true none demoSources).text =
    b!"; 2 rows\n2020/01/03 Lunch\n  Bank  EUR 12.5\n  Food  EUR -12.5\n\n2020/01/04 Lunch  ; again\n  Bank  EUR 12.5\n  Food  EUR -12.5\n\n" := by
  decide +kernel

/-- The calls of `centsFile`. -/
def centsCalls : List Call := [.newTransaction 20200102 b!"x" [], .addPosting b!"Assets:Cash" b!"EUR" (41/4) [], .addPosting b!"B" b!"EUR" (-41/4) []]

/-- Equality of builders without prices, as a test. -/
def sameB (b b' : Builder) : Bool :=
  decide (b.post = b'.post) && decide (b.prevTrans = b'.prevTrans) && decide (b.currAmts = b'.currAmts) && decide (b.currDate = b'.currDate) &&
  decide (b.currPayee = b'.currPayee) && decide (b.currNote = b'.currNote) && b.prices.isEmpty && b'.prices.isEmpty

theorem same_of_b {b b' : Builder} (h : sameB b b' = true) : b = b' := by
  cases b; cases b'
  simp only [sameB, Bool.and_eq_true, decide_eq_true_eq, List.isEmpty_iff] at h
  obtain ⟨⟨⟨⟨⟨⟨⟨rfl, rfl⟩, rfl⟩, rfl⟩, rfl⟩, rfl⟩, rfl⟩, rfl⟩ := h
  rfl

/-- The conditions of `c107_appended_partial` and `c108_import_again_partial`, as a test. -/
def importOkB (file : Str) (cs : List Call) (ss : List Source) (bb : Builder) (als : Aliases) (main : Book) : Bool :=
  ((Builder.new.calls cs).any fun b => sameB b bb) &&
  decide (∀ n ∈ issued Builder.new cs, hasTxn (main.transactions insSort) n.1 n.2 = true) &&
  decide (∀ s ∈ ss, ∀ m ∈ s.msgs, 0 ∉ m ∧ 10 ∉ m) &&
  ((importRun insSort true none main [] (ss.map sourceBook)).all fun out => out.all fun t => printableB (bookFmt .english demoPrint main) t &&
    t.all fun p => decide (als.resolve p.acct = p.acct)) &&
  (importRun insSort true none main [] (ss.map sourceBook)).any fun out => !out.isEmpty

/-- `centsFile` and `demoSources` meet the conditions, and something is imported. -/
theorem centsFile_ok : ∃ bb als main, parseFile (demoEnv [(b!"a", centsFile)]) 1 Builder.new b!"a" = .ok bb als ∧ Builder.new.calls centsCalls = some bb ∧
    bb.build insSort = some main ∧ (∀ n ∈ issued Builder.new centsCalls, hasTxn (main.transactions insSort) n.1 n.2 = true) ∧
    ScriptsGive insSort demoSources (demoSources.map sourceBook) ∧ (∀ s ∈ demoSources, ∀ m ∈ s.msgs, OneLineMsg m) ∧
    (∀ out ∈ importRun insSort true none main [] (demoSources.map sourceBook), ∀ t ∈ out,
      PrintableTxn (bookFmt .english demoPrint main) t ∧ ∀ p ∈ t, als.resolve p.acct = p.acct) ∧
    (importRun insSort true none main [] (demoSources.map sourceBook)).flatten ≠ [] := by
  have h : (match parseFile (demoEnv [(b!"a", centsFile)]) 1 Builder.new b!"a" with
      | .ok bb als => (match bb.build insSort with
        | some main => importOkB centsFile centsCalls demoSources bb als main
        | none => false)
      | _ => false) = true := by decide +kernel
  split at h <;> try cases h
  rename_i bb als hp
  split at h <;> try cases h
  rename_i main hm
  simp only [importOkB, Bool.and_eq_true, decide_eq_true_eq, List.all_eq_true, List.any_eq_true] at h
  obtain ⟨⟨⟨⟨h1, h2⟩, h3⟩, h4⟩, out, h5, h6⟩ := h
  refine ⟨bb, als, main, hp, ?_, hm, h2, ?_, h3, fun out ho t ht => ⟨printable_of_b (h4 out ho t ht).1, (h4 out ho t ht).2⟩, ?_⟩
  · cases hc : Builder.new.calls centsCalls with
    | none => rw [hc] at h1; cases h1
    | some b =>
      rw [hc] at h1
      rw [same_of_b h1]
  · have hs : ∀ s ∈ demoSources, (match processData insSort s with | .ok _ => s.readable | _ => false) = true := by decide +kernel
    have : ∀ ss : List Source, (∀ s ∈ ss, (match processData insSort s with | .ok _ => s.readable | _ => false) = true) →
        ScriptsGive insSort ss (ss.map sourceBook) := by
      intro ss
      induction ss with
      | nil => intro _; exact .nil
      | cons s ss ih =>
        intro h
        refine .cons ?_ (ih fun x hx => h x (List.mem_cons_of_mem _ hx))
        have := h s List.mem_cons_self
        split at this
        · rename_i b hb; exact ⟨this, by unfold sourceBook; rw [hb]; exact processData_iff.1 hb⟩
        · cases this
    exact this _ hs
  · intro e
    rw [List.flatten_eq_nil_iff] at e
    rw [e out h5] at h6
    cases h6

/-! ## C109: an import that fails -/

theorem loop_prefix {srt : List Posting → List Posting} {dedup : Bool} {rc : Option Reclass} {f : Fmt} {main : Book} :
    ∀ (ss : List Source) (prev : List Book), (importLoop srt dedup rc f main prev ss).fin ≠ .ok () →
      ∃ done s rest, ss = done ++ s :: rest ∧ (importLoop srt dedup rc f main prev done).fin = .ok () ∧
        ((importLoop srt dedup rc f main prev ss).text = (importLoop srt dedup rc f main prev done).text ∨
          (importLoop srt dedup rc f main prev ss).text = (importLoop srt dedup rc f main prev done).text ++ printMsgs s.msgs) := by
  intro ss
  induction ss with
  | nil => intro prev h; exact absurd rfl h
  | cons s ss ih =>
    intro prev h
    have stop : (importLoop srt dedup rc f main prev (s :: ss)).text = printMsgs s.msgs ∨ (importLoop srt dedup rc f main prev (s :: ss)).text = [] →
        ∃ done s' rest, s :: ss = done ++ s' :: rest ∧ (importLoop srt dedup rc f main prev done).fin = .ok () ∧
        ((importLoop srt dedup rc f main prev (s :: ss)).text = (importLoop srt dedup rc f main prev done).text ∨
          (importLoop srt dedup rc f main prev (s :: ss)).text = (importLoop srt dedup rc f main prev done).text ++ printMsgs s'.msgs) := by
      intro ht
      refine ⟨[], s, ss, rfl, rfl, ?_⟩
      rcases ht with ht | ht
      · exact Or.inr (by rw [ht]; rfl)
      · exact Or.inl (by rw [ht]; rfl)
    by_cases hr : s.readable = true
    · cases hp : processData srt s with
      | ok b =>
        cases hx : showTxns f ((importOne srt dedup rc main prev b).transactions srt) with
        | some text =>
          have e1 : ∀ l, importLoop srt dedup rc f main prev (s :: l) =
              ⟨printMsgs s.msgs ++ text ++ (importLoop srt dedup rc f main (prev ++ [importOne srt dedup rc main prev b]) l).text,
                (importLoop srt dedup rc f main (prev ++ [importOne srt dedup rc main prev b]) l).fin⟩ := by
            intro l
            rw [importLoop, if_pos hr, hp]
            simp only [hx]
          rw [e1] at h
          obtain ⟨done, s', rest, k1, k2, k3⟩ := ih _ h
          refine ⟨s :: done, s', rest, by rw [k1]; rfl, by rw [e1]; exact k2, ?_⟩
          rw [e1, e1]
          simp only
          rcases k3 with k3 | k3
          · left; rw [k3]
          · right; rw [k3]; simp
        | none => apply stop; left; rw [importLoop, if_pos hr, hp]; simp only [hx]
      | err => apply stop; left; rw [importLoop, if_pos hr, hp]
      | crash => apply stop; left; rw [importLoop, if_pos hr, hp]
      | diverge => apply stop; left; rw [importLoop, if_pos hr, hp]
      | fatal => apply stop; left; rw [importLoop, if_pos hr, hp]
    · apply stop; right; rw [importLoop, if_neg hr]

/-- C109, the part that holds: an import that fails has printed what the import of the files before the failing one prints, and at most the
messages of that file's script. -/
theorem c109_failed_partial (srt : List Posting → List Posting) (le : Env) (depth : Nat) (a : AppConf) (lang : Lang) (x : PrintEnv) (dedup : Bool)
    (rc : Option Reclass) (ss : List Source) (h : (importCmd le depth srt a lang x dedup rc ss).fin ≠ .ok ()) :
    (importCmd le depth srt a lang x dedup rc ss).text = [] ∨
    ∃ done s rest, ss = done ++ s :: rest ∧ (importCmd le depth srt a lang x dedup rc done).fin = .ok () ∧
      ((importCmd le depth srt a lang x dedup rc ss).text = (importCmd le depth srt a lang x dedup rc done).text ∨
        (importCmd le depth srt a lang x dedup rc ss).text = (importCmd le depth srt a lang x dedup rc done).text ++ printMsgs s.msgs) := by
  unfold importCmd at h ⊢
  cases hl : loadCmd le depth srt a with
  | ok main => rw [hl] at h; right; exact loop_prefix ss [] h
  | err => exact Or.inl rfl
  | crash => exact Or.inl rfl
  | diverge => exact Or.inl rfl
  | fatal => exact Or.inl rfl

theorem loop_succeeds {srt : List Posting → List Posting} {dedup : Bool} {rc : Option Reclass} {f : Fmt} {main : Book} :
    ∀ (ss : List Source) (prev : List Book), (importLoop srt dedup rc f main prev ss).fin = .ok () → ∃ bs, ScriptsGive srt ss bs := by
  intro ss
  induction ss with
  | nil => intro prev _; exact ⟨[], .nil⟩
  | cons s ss ih =>
    intro prev h
    rw [importLoop] at h
    split at h
    · rename_i hr
      split at h
      · rename_i b hp
        simp only at h
        split at h
        · obtain ⟨bs, hbs⟩ := ih _ h
          exact ⟨b :: bs, .cons ⟨hr, processData_iff.1 hp⟩ hbs⟩
        · cases h
      · cases h
      · cases h
      · cases h
      · cases h
    · cases h

/-- C109: an import that ends without an error has loaded the ledger, read every file, and every script ended without an error. -/
theorem c109_succeeds (srt : List Posting → List Posting) (le : Env) (depth : Nat) (a : AppConf) (lang : Lang) (x : PrintEnv) (dedup : Bool)
    (rc : Option Reclass) (ss : List Source) (h : (importCmd le depth srt a lang x dedup rc ss).fin = .ok ()) :
    (∃ main, loadBook srt le depth a.ledger = .ok main) ∧ ∃ bs, ScriptsGive srt ss bs := by
  unfold importCmd at h
  cases hl : loadCmd le depth srt a with
  | ok main =>
    rw [hl] at h
    refine ⟨⟨main, ?_⟩, loop_succeeds ss [] h⟩
    unfold loadCmd at hl
    split at hl <;> cases hl
    assumption
  | err => rw [hl] at h; cases h
  | crash => rw [hl] at h; cases h
  | diverge => rw [hl] at h; cases h
  | fatal => rw [hl] at h; cases h

/-- C109 fails: with two files, the transactions of the first are printed although the import of the second fails. -/
theorem c109_nothing_fails : ¬ ∀ (le : Env) (depth : Nat) (a : AppConf) (x : PrintEnv) (ss : List Source), SoundPrint x →
    (importCmd le depth insSort a .english x true none ss).fin ≠ .ok () → (importCmd le depth insSort a .english x true none ss).text = [] := by
  intro h
  have h1 : (match (importCmd (demoEnv [(b!"a", centsFile)]) 1 insSort demoApp .english demoPrint true none [⟨true, [], [lunch], true⟩, ⟨false, [], [], true⟩]).fin with
      | .ok _ => false
      | _ => true) = true := by decide +kernel
  have := h (demoEnv [(b!"a", centsFile)]) 1 demoApp demoPrint [⟨true, [], [lunch], true⟩, ⟨false, [], [], true⟩] demoPrint_sound (by
    intro e; rw [e] at h1; cases h1)
  revert this
  decide +kernel

end Verif
