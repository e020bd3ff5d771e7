import Verif.Model.RegisterFull
import Verif.Spec.RegisterFull
import Verif.Props.ReportCmd
import Verif.Props.Csv
import Verif.Props.RegisterCmd

/-! # C132: the register command, from the ledger file to what is shown -/

namespace Verif
open Spec

theorem groups_dates {split : Bool} {m : List (Txn × Posting)} {groups : List (List RegEntry)} (hm : m.Pairwise (fun a b => a.2.date ≤ b.2.date))
    (h : List.Forall₂ (fun (tp : Txn × Posting) g => RowsFor split tp.1 tp.2 g ∧ AmountsFor split tp.1 tp.2 g) m groups) :
    groups.flatten.Pairwise (fun a b => a.date ≤ b.date) := by
  induction h with
  | nil => exact List.Pairwise.nil
  | cons hg htail ih =>
    obtain ⟨m1, m2⟩ := List.pairwise_cons.1 hm
    rw [List.flatten_cons, List.pairwise_append]
    refine ⟨?_, ih m2, ?_⟩
    · apply List.Pairwise.imp_of_mem (R := fun _ _ => True)
      · intro p q hp hq _
        rw [(hg.1.fields p hp).1, (hg.1.fields q hq).1]
      · exact List.pairwise_of_forall (fun _ _ => trivial)
    · intro r hr r' hr'
      rw [(hg.1.fields r hr).1]
      obtain ⟨g', hg', hrg⟩ := List.mem_flatten.1 hr'
      obtain ⟨tp, htp, hR, _⟩ := forall₂_mem_right htail hg'
      rw [(hR.fields r' hrg).1]
      exact m1 _ htp

/-- The rows in ascending order are those of the specification. -/
theorem rows_spec {e : OpEnv} (hs : IsSort e.srt) {a : AppConf} {r : RegisterConf} (hr : r.asc = true) {mat : Str → Bool} {b : Book} (hg : b.Good)
    {rows : List (Option RegEntry)} (h : registerRows e a r mat b = .ok rows) :
    ∃ rep, rows = rep.map some ∧
      RegisterOf (b.transactions e.srt) mat r.split (dateFromString e.today r.beginDate) (dateFromString e.today r.endDate) r.count rep := by
  obtain ⟨groups, win, h1, h2, h3, h4, rfl⟩ := registerRows_ok hs hg h
  have hc : Canonical (b.transactions e.srt) := compact_canonical hs hg.1
  rw [c38_window _ _ _ _ (groups_dates (matching_dates hc) h1)] at h4
  cases h4
  refine ⟨_, by rw [showRows, hr]; rfl, groups, h1, h2, h3, ?_⟩
  rw [countRows_eq]
  rfl

theorem chosen_mem {count : Int} {rows : List RegEntry} {x : RegEntry} (h : x ∈ chosen count rows) : x ∈ rows := by
  unfold chosen at h
  split_ifs at h
  · exact List.mem_of_mem_take h
  · exact List.mem_reverse.1 (List.mem_of_mem_take (List.mem_reverse.1 h))
  · exact h

theorem mem_intercalate {sep : Str} {l : List Str} {c : Nat} (h : c ∈ List.intercalate sep l) : c ∈ sep ∨ ∃ s ∈ l, c ∈ s := by
  unfold List.intercalate at h
  obtain ⟨y, hy, hc⟩ := List.mem_flatten.1 h
  by_cases e : y ∈ l
  · exact Or.inr ⟨y, e, hc⟩
  · left
    have : ∀ l : List Str, y ∈ List.intersperse sep l → y = sep ∨ y ∈ l := by
      intro l
      induction l with
      | nil => intro h; cases h
      | cons a l ih =>
        cases l with
        | nil => intro h; exact Or.inr h
        | cons b l =>
          intro h
          rw [List.intersperse_cons_cons] at h
          rcases List.mem_cons.1 h with h | h
          · exact Or.inr (by rw [h]; simp)
          · rcases List.mem_cons.1 h with h | h
            · exact Or.inl h
            · rcases ih h with h | h
              · exact Or.inl h
              · exact Or.inr (List.mem_cons_of_mem _ h)
    rcases this l hy with h | h
    · rw [← h]; exact hc
    · exact absurd h e

/-- The rows of a book of plain names are plain. -/
theorem plain_rows {prt : Nat → Bool} {ts : List Txn} (hp : PlainPostings prt ts.flatten) {mat : Str → Bool} {split : Bool} {lo hi count : Int}
    {rep : List RegEntry} (h : RegisterOf ts mat split lo hi count rep) : ∀ p ∈ rep, PlainEntry prt p := by
  obtain ⟨groups, h1, _, _, rfl⟩ := h
  intro x hx
  obtain ⟨g, hg, hxg⟩ := List.mem_flatten.1 (List.mem_filter.1 (chosen_mem hx)).1
  obtain ⟨⟨t, p⟩, htp, hR, _⟩ := forall₂_mem_right h1 hg
  unfold matching at htp
  obtain ⟨t', ht', hm⟩ := List.mem_flatMap.1 htp
  obtain ⟨q, hq, e1⟩ := List.mem_map.1 hm
  cases e1
  have hall : ∀ p ∈ t, 27 ∉ p.payee ∧ 27 ∉ p.acct ∧ p.ccy ≠ [] ∧ ∀ c ∈ p.ccy, prt c = true ∧ c ≠ 27 ∧ c ≠ 9 :=
    fun p hpt => hp p (List.mem_flatten.2 ⟨t, ht', hpt⟩)
  obtain ⟨_, f2, f3, f4, _⟩ := hR.fields x hxg
  obtain ⟨k1, k2, k3, k4⟩ := hall p (List.mem_filter.1 hq).1
  refine ⟨by rw [f2]; exact k1, by rw [f3]; exact k2, ?_, by rw [f4]; exact k3, by rw [f4]; exact k4⟩
  have hc : x.counterAccount ∈ g.map (·.counterAccount) := List.mem_map.2 ⟨x, hxg, rfl⟩
  rw [hR.counters] at hc
  split at hc
  · obtain ⟨w, hw, e⟩ := List.mem_map.1 hc
    rw [← e]
    exact (hall w (List.mem_filter.1 hw).1).2.1
  · rw [List.mem_singleton] at hc
    rw [hc]
    intro h27
    rcases mem_intercalate h27 with h | ⟨s, hsm, h⟩
    · simp at h
    · obtain ⟨w, hw, rfl⟩ := List.mem_map.1 hsm
      exact (hall w (List.mem_filter.1 hw).1).2.1 h

theorem full_sections {e : OpEnv} {a : AppConf} {r : RegisterConf} {l : Lang} {x : PrintEnv} {sc : ScreenEnv} {typ : Str} {b : Book} :
    ∀ {accts : List Str} {secs : List (Str × List (Option RegEntry))} {outs : List Exported}, registerSections e a r b accts = .ok secs →
    List.Forall₂ (fun s o => registerPrint l x sc typ b false s.2 = .ok o) secs outs →
    registerFullSections e a r l x sc typ b accts =
      .ok (List.zipWith (fun s o => [.text ([10] ++ ansi sc.colour ansiBlueUL s.1 ++ [10]), o]) secs outs).flatten := by
  intro accts
  induction accts with
  | nil =>
    intro secs outs h ho
    simp only [registerSections] at h
    cases h
    cases ho
    rfl
  | cons ac accts ih =>
    intro secs outs h ho
    simp only [registerSections] at h
    split at h
    · rename_i hv
      obtain ⟨rows, h1, h2⟩ := bind_ok h
      obtain ⟨rest, h3, h4⟩ := bind_ok h2
      cases h4
      cases ho with
      | cons h5 h6 =>
        simp only [registerFullSections]
        rw [if_pos hv, h1, CmdEnd.bind, h5, CmdEnd.bind, ih h3 h6, CmdEnd.bind]
        rfl
    · cases h

theorem plain_head (colour : Bool) {s : Str} (h27 : 27 ∉ s) : plain ([10] ++ ansi colour ansiBlueUL s ++ [10]) = [10] ++ s ++ [10] := by
  have hc : IsCode ansiBlueUL := ⟨b!"[4;34", by decide, rfl⟩
  rw [List.append_assoc, plain_plain (by decide)]
  cases colour
  · rw [plain_self (by simp [ansi, h27])]
    rfl
  · show [10] ++ plain (ansiBlueUL ++ s ++ ansiReset ++ [10]) = _
    rw [List.append_assoc, List.append_assoc, plain_code hc, plain_plain h27, plain_code code_reset]
    rfl

/-- The book, the sections and their rows. -/
theorem sections_spec {le : Env} {depth : Nat} {e : OpEnv} (hs : IsSort e.srt) {fuel : Nat} {a : AppConf} {r : RegisterConf} (hr : r.asc = true)
    (hc : r.combined = false) {args : List Str} {arg : Str} {secs : List (Str × List (Option RegEntry))}
    (h : registerCmd le depth e fuel a r args arg = .ok secs) :
    ∃ (b : Book) (secs' : List (Str × List RegEntry)), registerBook le depth e fuel a r args = .ok b ∧ b.Good ∧ e.valid arg = true ∧ secs = secs'.map (fun s => (s.1, s.2.map some)) ∧
      registerSections e a r b (b.accounts (e.mat arg) (!a.all)) = .ok secs ∧
      secs'.map (·.1) = b.accounts (e.mat arg) (!a.all) ∧
      ∀ s ∈ secs', RegisterOf (b.transactions e.srt) (e.mat ([94] ++ s.1 ++ [36])) r.split (dateFromString e.today r.beginDate)
        (dateFromString e.today r.endDate) r.count s.2 := by
  obtain ⟨secs', rfl⟩ := c100_no_holes le depth e fuel a r hr args arg secs h
  unfold registerCmd at h
  obtain ⟨b, hb, h⟩ := bind_ok h
  have hg : b.Good := good_registerBook (r := r) hs hb
  rw [hc, if_neg (by simp)] at h
  split at h
  · rename_i hv
    obtain ⟨k1, k2⟩ := registerSections_ok _ _ h
    refine ⟨b, secs', hb, hg, hv, rfl, h, by rw [← k1, List.map_map]; rfl, fun s hsm => ?_⟩
    have h1 := k2 (s.1, s.2.map some) (List.mem_map.2 ⟨s, hsm, rfl⟩)
    obtain ⟨rep, e1, h2⟩ := rows_spec hs hr hg h1
    have : s.2 = rep := List.map_injective_iff.2 (Option.some_injective _) e1
    rw [this]
    exact h2
  · cases h

theorem plain_reported {prt : Nat → Bool} {e : OpEnv} (hs : IsSort e.srt) {b : Book} (hg : b.Good) (h : PlainPostings prt b.post) :
    PlainPostings prt (b.transactions e.srt).flatten := by
  intro p hp
  have : p ∈ reported e.srt b := hp
  rw [reported_eq hs hg.1] at this
  obtain ⟨q, hq, hk⟩ := compactPost_key_mem hs _ p this
  obtain ⟨_, k2, k3, k4⟩ := key_eq_iff.1 hk
  have := h q hq
  rw [k2, k3, k4]
  exact this

/-- Whatever the type: if every section can be printed, the command prints them one after the other. -/
theorem laid {le : Env} {depth : Nat} {e : OpEnv} {fuel : Nat} {a : AppConf} {r : RegisterConf} (hc : r.combined = false) {args : List Str} {arg : Str}
    {l : Lang} {x : PrintEnv} {sc : ScreenEnv} {typ : Str} {b : Book} {secs : List (Str × List RegEntry)}
    (hb : registerBook le depth e fuel a r args = .ok b) (hv : e.valid arg = true)
    (h : registerSections e a r b (b.accounts (e.mat arg) (!a.all)) = .ok (secs.map fun s => (s.1, s.2.map some)))
    {P : List RegEntry → Exported → Prop} (h27 : ∀ s ∈ secs, 27 ∉ s.1)
    (hP : ∀ s ∈ secs, ∃ out, registerPrint l x sc typ b false (s.2.map some) = .ok out ∧ P s.2 out) :
    ∃ pieces, registerFull le depth e fuel a r l x sc typ args arg = .ok pieces ∧ LaidOut secs P pieces := by
  have key : ∃ outs, List.Forall₂ (fun (s : Str × List RegEntry) o => registerPrint l x sc typ b false (s.2.map some) = .ok o ∧ P s.2 o) secs outs := by
    clear h h27
    induction secs with
    | nil => exact ⟨[], .nil⟩
    | cons s secs ih =>
      obtain ⟨outs, ho⟩ := ih fun s hsm => hP s (List.mem_cons_of_mem _ hsm)
      obtain ⟨o, h1⟩ := hP s (by simp)
      exact ⟨o :: outs, .cons h1 ho⟩
  obtain ⟨outs, ho⟩ := key
  have hf := full_sections (l := l) (x := x) (sc := sc) (typ := typ) h
    (List.forall₂_map_left_iff.2 (ho.imp fun _ _ h => h.1))
  refine ⟨_, ?_, secs.map (fun s => [10] ++ ansi sc.colour ansiBlueUL s.1 ++ [10]), outs, rfl, ?_, List.forall₂_map_left_iff.2 (ho.imp fun _ _ h => h.2)⟩
  · unfold registerFull
    unfold registerBook at hb
    rw [hb, CmdEnd.bind, hc, if_neg (by simp), if_pos hv, hf]
    rw [List.zipWith_map_left, List.zipWith_map_left]
  · rw [List.map_map]
    apply List.map_congr_left
    intro s hsm
    exact plain_head _ (h27 s hsm)

theorem print_text {x : PrintEnv} (hx : SoundPrint x) {sc : ScreenEnv} (hp : AsciiPrint sc.prt) {b : Book} {withAcct : Bool} {rep : List RegEntry}
    (hrep : ∀ p ∈ rep, PlainEntry sc.prt p)
    (hroom : Room sc.width (registerMay withAcct true) (registerTable sc.prt x.letter dateString (bookFmt .english x b).number withAcct true rep)) :
    ∃ out, registerPrint .english x sc b!"Text" b withAcct (rep.map some) = .ok out ∧
      RowsAsText sc.prt x.letter (bookFmt .english x b).number sc.width withAcct rep out := by
  obtain ⟨lines, h1, h2, _⟩ := c100_register_text_partial sc.prt hp sc.width (bookFmt .english x b) (bookFmt_sound hx b) sc.colour withAcct true rep hrep hroom
  refine ⟨.text lines.flatten, ?_, lines, rfl, h2⟩
  unfold registerPrint
  rw [if_pos rfl, h1]
  rfl

theorem print_json {l : Lang} {x : PrintEnv} (hx : SoundPrint x) (hd : FormatsDays x.tm) {sc : ScreenEnv} {b : Book} {withAcct : Bool} {rep : List RegEntry}
    (hrep : ∀ e ∈ rep, Ordinary e.amount ∧ Ordinary e.balance ∧ Ordinary e.baseAmount ∧ Ordinary e.baseBalance) :
    ∃ out, registerPrint l x sc b!"JSON" b withAcct (rep.map some) = .ok out ∧ RowsAsJson rep out := by
  obtain ⟨j, h1, h2⟩ := c86_register x.tm hd x.fl hx.float rep hrep
  refine ⟨_, ?_, j, rfl, h2⟩
  unfold registerPrint
  rw [if_neg (by decide), if_pos rfl, h1]

theorem print_csv {l : Lang} {x : PrintEnv} (hx : SoundPrint x) {sc : ScreenEnv} {b : Book} {withAcct : Bool} {rep : List RegEntry}
    (hrep : ∀ e ∈ rep, Millionths e.amount ∧ Millionths e.balance) :
    ∃ out, registerPrint l x sc b!"CSV" b withAcct (rep.map some) = .ok out ∧ RowsAsCsv rep out := by
  obtain ⟨text, rows, h1, h2, h3⟩ := c89_register_rows_partial x.space x.fl hx.float x.rd hx.nearest rep hrep
  refine ⟨.text text, ?_, text, rows, rfl, h2, h3⟩
  unfold registerPrint
  rw [if_neg (by decide), if_neg (by decide), if_pos rfl, h1]
  rfl

/-- What the sections say: their accounts, in order, and the register of each. -/
def SectionsSay (e : OpEnv) (a : AppConf) (r : RegisterConf) (arg : Str) (b : Book) (secs : List (Str × List RegEntry)) : Prop :=
  secs.map (·.1) = b.accounts (e.mat arg) (!a.all) ∧
  ∀ s ∈ secs, PlainName s.1 → RegisterOf (b.transactions e.srt) (fun x => decide (x = s.1)) r.split (dateFromString e.today r.beginDate)
    (dateFromString e.today r.endDate) r.count s.2

theorem say_of {e : OpEnv} (hre : LiteralNames e) {a : AppConf} {r : RegisterConf} {arg : Str} {b : Book} {secs : List (Str × List RegEntry)}
    (h1 : secs.map (·.1) = b.accounts (e.mat arg) (!a.all))
    (h2 : ∀ s ∈ secs, RegisterOf (b.transactions e.srt) (e.mat ([94] ++ s.1 ++ [36])) r.split (dateFromString e.today r.beginDate)
        (dateFromString e.today r.endDate) r.count s.2) : SectionsSay e a r arg b secs := by
  refine ⟨h1, fun s hsm hpl => ?_⟩
  have : e.mat ([94] ++ s.1 ++ [36]) = fun x => decide (x = s.1) := funext fun x => hre s.1 hpl x
  rw [← this]
  exact h2 s hsm

theorem sections_plain {mat : Str → Bool} {o : Bool} {b : Book} (h : ∀ p ∈ b.post, 27 ∉ p.acct) {secs : List (Str × List RegEntry)}
    (h1 : secs.map (·.1) = b.accounts mat o) : ∀ s ∈ secs, 27 ∉ s.1 := by
  intro s hsm
  have : s.1 ∈ b.accounts mat o := by rw [← h1]; exact List.mem_map.2 ⟨s, hsm, rfl⟩
  obtain ⟨p, hp, e⟩ := accounts_mem this
  rw [← e]
  exact h p hp

/-- **C132** as text, one section per account (partial: ascending, English, names without escape characters, account names without special characters, and a screen that has room).  The
command prints, account by account in order, the account and a table whose rows are the register of that account in the book after the operations. -/
theorem c132_text_partial (le : Env) (depth : Nat) (e : OpEnv) (hs : IsSort e.srt) (hre : LiteralNames e) (fuel : Nat) (a : AppConf) (r : RegisterConf)
    (hr : r.asc = true) (hc : r.combined = false) (x : PrintEnv) (hx : SoundPrint x) (sc : ScreenEnv) (hp : AsciiPrint sc.prt) (args : List Str)
    (arg : Str) (secs : List (Str × List (Option RegEntry))) (h : registerCmd le depth e fuel a r args arg = .ok secs) :
    ∃ b secs', registerBook le depth e fuel a r args = .ok b ∧ secs = secs'.map (fun s => (s.1, s.2.map some)) ∧ SectionsSay e a r arg b secs' ∧
      (PlainPostings sc.prt b.post →
        (∀ s ∈ secs', Room sc.width (registerMay false true) (registerTable sc.prt x.letter dateString (bookFmt .english x b).number false true s.2)) →
        ∃ pieces, registerFull le depth e fuel a r .english x sc b!"Text" args arg = .ok pieces ∧
          LaidOut secs' (RowsAsText sc.prt x.letter (bookFmt .english x b).number sc.width false) pieces ∧
          ∀ s ∈ secs', ∀ p ∈ s.2,
            (FitsDecimals (decimalsOf (bookFmt .english x b) p.ccy) p.amount → decimalValue ((bookFmt .english x b).number p.ccy p.amount) = p.amount) ∧
            (FitsDecimals (decimalsOf (bookFmt .english x b) p.ccy) p.balance → decimalValue ((bookFmt .english x b).number p.ccy p.balance) = p.balance)) := by
  obtain ⟨b, secs', hb, hg, hv, rfl, k1, k2, k3⟩ := sections_spec hs hr hc h
  refine ⟨b, secs', hb, rfl, say_of hre k2 k3, fun hpl hroom => ?_⟩
  have hrows : ∀ s ∈ secs', ∀ p ∈ s.2, PlainEntry sc.prt p := fun s hsm => plain_rows (plain_reported hs hg hpl) (k3 s hsm)
  obtain ⟨pieces, m1, m2⟩ := laid (x := x) (typ := b!"Text") hc hb hv k1 (sections_plain (fun p hp => (hpl p hp).2.1) k2)
    (fun s hsm => print_text hx hp (hrows s hsm) (hroom s hsm))
  refine ⟨pieces, m1, m2, fun s hsm => ?_⟩
  exact (c100_register_text_partial sc.prt hp sc.width (bookFmt .english x b) (bookFmt_sound hx b) sc.colour false true s.2 (hrows s hsm) (hroom s hsm)).choose_spec.2.2

/-- **C132** as JSON, one section per account (partial: ascending, ordinary amounts). -/
theorem c132_json_partial (le : Env) (depth : Nat) (e : OpEnv) (hs : IsSort e.srt) (hre : LiteralNames e) (fuel : Nat) (a : AppConf) (r : RegisterConf)
    (hr : r.asc = true) (hc : r.combined = false) (l : Lang) (x : PrintEnv) (hx : SoundPrint x) (hd : FormatsDays x.tm) (sc : ScreenEnv) (args : List Str)
    (arg : Str) (secs : List (Str × List (Option RegEntry))) (h : registerCmd le depth e fuel a r args arg = .ok secs) :
    ∃ b secs', registerBook le depth e fuel a r args = .ok b ∧ secs = secs'.map (fun s => (s.1, s.2.map some)) ∧ SectionsSay e a r arg b secs' ∧
      ((∀ p ∈ b.post, 27 ∉ p.acct) →
        (∀ s ∈ secs', ∀ p ∈ s.2, Ordinary p.amount ∧ Ordinary p.balance ∧ Ordinary p.baseAmount ∧ Ordinary p.baseBalance) →
        ∃ pieces, registerFull le depth e fuel a r l x sc b!"JSON" args arg = .ok pieces ∧ LaidOut secs' RowsAsJson pieces) := by
  obtain ⟨b, secs', hb, hg, hv, rfl, k1, k2, k3⟩ := sections_spec hs hr hc h
  refine ⟨b, secs', hb, rfl, say_of hre k2 k3, fun hpl ho => ?_⟩
  exact laid (x := x) (typ := b!"JSON") hc hb hv k1 (sections_plain hpl k2) (fun s hsm => print_json hx hd (ho s hsm))

/-- **C132** as CSV, one section per account (partial: ascending, amounts of at most six decimals). -/
theorem c132_csv_partial (le : Env) (depth : Nat) (e : OpEnv) (hs : IsSort e.srt) (hre : LiteralNames e) (fuel : Nat) (a : AppConf) (r : RegisterConf)
    (hr : r.asc = true) (hc : r.combined = false) (l : Lang) (x : PrintEnv) (hx : SoundPrint x) (sc : ScreenEnv) (args : List Str)
    (arg : Str) (secs : List (Str × List (Option RegEntry))) (h : registerCmd le depth e fuel a r args arg = .ok secs) :
    ∃ b secs', registerBook le depth e fuel a r args = .ok b ∧ secs = secs'.map (fun s => (s.1, s.2.map some)) ∧ SectionsSay e a r arg b secs' ∧
      ((∀ p ∈ b.post, 27 ∉ p.acct) → (∀ s ∈ secs', ∀ p ∈ s.2, Millionths p.amount ∧ Millionths p.balance) →
        ∃ pieces, registerFull le depth e fuel a r l x sc b!"CSV" args arg = .ok pieces ∧ LaidOut secs' RowsAsCsv pieces) := by
  obtain ⟨b, secs', hb, hg, hv, rfl, k1, k2, k3⟩ := sections_spec hs hr hc h
  refine ⟨b, secs', hb, rfl, say_of hre k2 k3, fun hpl ho => ?_⟩
  exact laid (x := x) (typ := b!"CSV") hc hb hv k1 (sections_plain hpl k2) (fun s hsm => print_csv hx (ho s hsm))

/-- **C132**, all accounts together (`--combined`; partial as above): one table of all matching accounts, with the account in a column. -/
theorem c132_combined_partial (le : Env) (depth : Nat) (e : OpEnv) (hs : IsSort e.srt) (fuel : Nat) (a : AppConf) (r : RegisterConf)
    (hr : r.asc = true) (hc : r.combined = true) (x : PrintEnv) (hx : SoundPrint x) (sc : ScreenEnv) (args : List Str)
    (arg : Str) (secs : List (Str × List (Option RegEntry))) (h : registerCmd le depth e fuel a r args arg = .ok secs) :
    ∃ b rows, registerBook le depth e fuel a r args = .ok b ∧ secs = [([], rows.map some)] ∧
      RegisterOf (b.transactions e.srt) (e.mat arg) r.split (dateFromString e.today r.beginDate) (dateFromString e.today r.endDate) r.count rows ∧
      (AsciiPrint sc.prt → PlainPostings sc.prt b.post →
        Room sc.width (registerMay true true) (registerTable sc.prt x.letter dateString (bookFmt .english x b).number true true rows) →
        ∃ out, registerFull le depth e fuel a r .english x sc b!"Text" args arg = .ok [out] ∧
          RowsAsText sc.prt x.letter (bookFmt .english x b).number sc.width true rows out) ∧
      (FormatsDays x.tm → (∀ p ∈ rows, Ordinary p.amount ∧ Ordinary p.balance ∧ Ordinary p.baseAmount ∧ Ordinary p.baseBalance) →
        ∀ l, ∃ out, registerFull le depth e fuel a r l x sc b!"JSON" args arg = .ok [out] ∧ RowsAsJson rows out) ∧
      ((∀ p ∈ rows, Millionths p.amount ∧ Millionths p.balance) →
        ∀ l, ∃ out, registerFull le depth e fuel a r l x sc b!"CSV" args arg = .ok [out] ∧ RowsAsCsv rows out) := by
  unfold registerCmd at h
  obtain ⟨b, hb, h⟩ := bind_ok h
  have hg : b.Good := good_registerBook (r := r) hs hb
  rw [hc, if_pos rfl] at h
  split at h
  · rename_i hv
    obtain ⟨rows, h1, h2⟩ := bind_ok h
    cases h2
    obtain ⟨rep, rfl, h3⟩ := rows_spec hs hr hg h1
    have full : ∀ l typ out, registerPrint l x sc typ b true (rep.map some) = .ok out →
        registerFull le depth e fuel a r l x sc typ args arg = .ok [out] := by
      intro l typ out ho
      unfold registerFull
      rw [hb, CmdEnd.bind, hc, if_pos rfl, if_pos hv, h1, CmdEnd.bind, ho]
      rfl
    refine ⟨b, rep, hb, rfl, h3, ?_, ?_, ?_⟩
    · intro hp hpl hroom
      obtain ⟨out, o1, o2⟩ := print_text hx hp (plain_rows (plain_reported hs hg hpl) h3) hroom
      exact ⟨out, full _ _ _ o1, o2⟩
    · intro hd ho l
      obtain ⟨out, o1, o2⟩ := print_json (l := l) (sc := sc) (b := b) (withAcct := true) hx hd ho
      exact ⟨out, full _ _ _ o1, o2⟩
    · intro hm l
      obtain ⟨out, o1, o2⟩ := print_csv (l := l) (sc := sc) (b := b) (withAcct := true) hx hm
      exact ⟨out, full _ _ _ o1, o2⟩
  · cases h

/-- **C132**, nothing is shown of a register that fails: whatever the type, if the command ends well so does the register. -/
theorem c132_only (le : Env) (depth : Nat) (e : OpEnv) (fuel : Nat) (a : AppConf) (r : RegisterConf) (l : Lang) (x : PrintEnv) (sc : ScreenEnv)
    (typ : Str) (args : List Str) (arg : Str) (pieces : List Exported) (h : registerFull le depth e fuel a r l x sc typ args arg = .ok pieces) :
    ∃ secs, registerCmd le depth e fuel a r args arg = .ok secs ∧ pieces.length = if r.combined then 1 else 2 * secs.length := by
  have key : ∀ (b : Book) (accts : List Str) (ps : List Exported), registerFullSections e a r l x sc typ b accts = .ok ps →
      ∃ secs, registerSections e a r b accts = .ok secs ∧ ps.length = 2 * secs.length := by
    intro b accts
    induction accts with
    | nil => intro ps h; simp only [registerFullSections] at h; cases h; exact ⟨[], rfl, rfl⟩
    | cons ac accts ih =>
      intro ps h
      simp only [registerFullSections] at h
      split at h
      · rename_i hv
        obtain ⟨rows, h1, h⟩ := bind_ok h
        obtain ⟨out, h2, h⟩ := bind_ok h
        obtain ⟨rest, h3, h⟩ := bind_ok h
        cases h
        obtain ⟨secs, s1, s2⟩ := ih rest h3
        refine ⟨(ac, rows) :: secs, ?_, ?_⟩
        · simp only [registerSections]
          rw [if_pos hv, h1, CmdEnd.bind, s1, CmdEnd.bind]
        · simp only [List.length_cons, s2]
          omega
      · cases h
  unfold registerFull at h
  obtain ⟨b, hb, h⟩ := bind_ok h
  unfold registerCmd
  rw [hb, CmdEnd.bind]
  cases hc : r.combined with
  | true =>
    rw [hc, if_pos rfl] at h
    rw [if_pos rfl]
    split at h
    · rename_i hv
      obtain ⟨rows, h1, h⟩ := bind_ok h
      obtain ⟨out, h2, h⟩ := bind_ok h
      cases h
      exact ⟨[([], rows)], by rw [if_pos hv, h1]; rfl, rfl⟩
    · cases h
  | false =>
    rw [hc, if_neg (by simp)] at h
    rw [if_neg (by simp)]
    split at h
    · rename_i hv
      obtain ⟨secs, s1, s2⟩ := key _ _ _ h
      exact ⟨secs, by rw [if_pos hv, s1], by rw [s2]; rfl⟩
    · cases h

/-! ## Examples -/

/-- What was printed, if text only. -/
def piecesText : List Exported → Option Str
  | [] => some []
  | .text s :: l => (piecesText l).map (s ++ ·)
  | .json _ :: _ => none

/-- A screen without a limit. -/
def wideScreen : ScreenEnv := { demoScreen with width := 0 }

/-- The register of two payments, on the screen; as CSV, all together. -/
example : ((registerFull (demoEnv [(b!"a", dotFile)]) 1 dotOps 1 demoApp demoRegister .english demoPrint wideScreen b!"Text" [] b!".").okB fun ps =>
      piecesText ps == some (b!"\nA\nDate       Payee Counteraccount Amount Balance\n2020/01/01 P     C              E    1 E     1\n" ++
        b!"\nB\nDate       Payee Counteraccount Amount Balance\n2020/01/02 Q     C              E    2 E     2\n" ++
        b!"\nC\nDate       Payee Counteraccount Amount Balance\n2020/01/01 P     A              E   -1 E    -1\n" ++
        b!"2020/01/02 Q     B              E   -2 E    -3\n")) = true ∧
    ((registerFull (demoEnv [(b!"a", dotFile)]) 1 dotOps 1 demoApp { demoRegister with combined := true } .english demoPrint wideScreen b!"CSV" [] b!".").okB
      fun ps => piecesText ps == some (b!"date,payee,account,counterAccount,ccy,amount,balance\n2020/01/01,P,A,C,E,1.000000,1.000000\n" ++
        b!"2020/01/01,P,C,A,E,-1.000000,0.000000\n2020/01/02,Q,B,C,E,2.000000,2.000000\n2020/01/02,Q,C,B,E,-2.000000,0.000000\n")) = true := by
  decide +kernel

/-- The hypotheses of the theorems above, for that file. -/
example : IsSort dotOps.srt ∧ LiteralNames dotOps ∧ demoRegister.asc = true ∧ SoundPrint demoPrint ∧ AsciiPrint wideScreen.prt ∧
    (∃ b, registerBook (demoEnv [(b!"a", dotFile)]) 1 dotOps 1 demoApp demoRegister [] = .ok b ∧ PlainPostings wideScreen.prt b.post ∧
      b.accounts (dotOps.mat b!".") (!demoApp.all) = [b!"A", b!"B", b!"C"]) ∧
    (∃ secs, registerCmd (demoEnv [(b!"a", dotFile)]) 1 dotOps 1 demoApp demoRegister [] b!"." = .ok secs ∧ secs.length = 3 ∧
      ∀ s ∈ secs, ∀ o ∈ s.2, ∃ p : RegEntry, o = some p ∧ Millionths p.amount ∧ Millionths p.balance) ∧
    ∀ rows, Room wideScreen.width (registerMay false true) rows := by
  refine ⟨insSort_isSort, dotOps_literal, rfl, demoPrint_sound, asciiPrt_ok, ?_, ?_, fun rows ws _ h => absurd h (by decide)⟩
  · have hc : (registerBook (demoEnv [(b!"a", dotFile)]) 1 dotOps 1 demoApp demoRegister []).okB (fun b =>
        decide (∀ p ∈ b.post, 27 ∉ p.payee ∧ 27 ∉ p.acct ∧ p.ccy ≠ [] ∧ ∀ c ∈ p.ccy, asciiPrt c = true ∧ c ≠ 27 ∧ c ≠ 9) &&
        decide (b.accounts (dotOps.mat b!".") (!demoApp.all) = [b!"A", b!"B", b!"C"])) = true := by decide +kernel
    obtain ⟨b, e1, e2⟩ := okB_ok hc
    simp only [Bool.and_eq_true, decide_eq_true_eq] at e2
    exact ⟨b, e1, e2.1, e2.2⟩
  · have hc : (registerCmd (demoEnv [(b!"a", dotFile)]) 1 dotOps 1 demoApp demoRegister [] b!".").okB (fun secs =>
        decide (secs.length = 3) && decide (∀ s ∈ secs, ∀ o ∈ s.2, o.isSome = true ∧ ∀ p ∈ o.toList, (p.amount * 10 ^ 6).den = 1 ∧ |(p.amount * 10 ^ 6).num| < 2 ^ 52 ∧ (p.balance * 10 ^ 6).den = 1 ∧ |(p.balance * 10 ^ 6).num| < 2 ^ 52)) = true := by
      decide +kernel
    obtain ⟨secs, e1, e2⟩ := okB_ok hc
    simp only [Bool.and_eq_true, decide_eq_true_eq] at e2
    refine ⟨secs, e1, e2.1, fun s hsm o ho => ?_⟩
    obtain ⟨k1, k2⟩ := e2.2 s hsm o ho
    obtain ⟨p, rfl⟩ := Option.isSome_iff_exists.1 k1
    obtain ⟨k3, k4, k5, k6⟩ := k2 p (by simp)
    exact ⟨p, rfl, ⟨_, (Rat.coe_int_num_of_den_eq_one k3).symm, k4⟩, ⟨_, (Rat.coe_int_num_of_den_eq_one k5).symm, k6⟩⟩

/-- C132 is false in descending order: there is no fault in the ledger and the register is made, but showing it crashes. -/
theorem c132_descending_fails : ¬ ∀ (le : Env) (depth : Nat) (e : OpEnv) (_ : IsSort e.srt) (_ : LiteralNames e) (fuel : Nat) (a : AppConf)
    (r : RegisterConf) (x : PrintEnv) (_ : SoundPrint x) (sc : ScreenEnv) (_ : AsciiPrint sc.prt) (_ : sc.width = 0) (args : List Str) (arg : Str)
    (b : Book) (secs : List (Str × List (Option RegEntry))), registerBook le depth e fuel a r args = .ok b → PlainPostings sc.prt b.post →
    registerCmd le depth e fuel a r args arg = .ok secs → ∃ pieces, registerFull le depth e fuel a r .english x sc b!"Text" args arg = .ok pieces := by
  intro h
  have hb : (registerBook (demoEnv [(b!"a", dotFile)]) 1 dotOps 1 demoApp { demoRegister with asc := false } []).okB (fun b =>
      decide (∀ p ∈ b.post, 27 ∉ p.payee ∧ 27 ∉ p.acct ∧ p.ccy ≠ [] ∧ ∀ c ∈ p.ccy, asciiPrt c = true ∧ c ≠ 27 ∧ c ≠ 9)) = true := by decide +kernel
  have hc : (registerCmd (demoEnv [(b!"a", dotFile)]) 1 dotOps 1 demoApp { demoRegister with asc := false } [] b!".").okB (fun _ => true) = true := by
    decide +kernel
  have hd : (registerFull (demoEnv [(b!"a", dotFile)]) 1 dotOps 1 demoApp { demoRegister with asc := false } .english demoPrint wideScreen b!"Text" [] b!".").okB
    (fun _ => true) = false := by decide +kernel
  obtain ⟨b, e1, e2⟩ := okB_ok hb
  simp only [decide_eq_true_eq] at e2
  obtain ⟨secs, e3, _⟩ := okB_ok hc
  obtain ⟨ps, hp⟩ := h _ 1 dotOps insSort_isSort dotOps_literal 1 demoApp _ demoPrint demoPrint_sound wideScreen asciiPrt_ok rfl [] b!"." b secs e1
    e2 e3
  rw [hp] at hd
  cases hd

end Verif
