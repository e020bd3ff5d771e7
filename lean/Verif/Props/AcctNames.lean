import Verif.Spec.AcctNames
import Verif.Props.Loader2
import Verif.Props.Compact

/-! # C77: account names in ledger files -/

namespace Verif
open Spec

theorem isAcctRune_iff (c : Nat) : isAcctRune c = true ↔ NameRune c := by
  simp only [isAcctRune, isDigit, NameRune, Bool.or_eq_true, Bool.and_eq_true, decide_eq_true_eq, beq_iff_eq]
  tauto

theorem mem_takeWhile_prop {α} {f : α → Bool} {l : List α} {x : α} (h : x ∈ l.takeWhile f) : f x = true := by
  induction l with
  | nil => cases h
  | cons y l ih =>
    rw [List.takeWhile_cons] at h
    split at h
    · rcases List.mem_cons.1 h with e | e
      · rw [e]; assumption
      · exact ih e
    · cases h

theorem parseAccount_plain (s : Reader) : PlainName (parseAccount s).1 := by
  intro c hc
  unfold parseAccount at hc
  exact (isAcctRune_iff c).1 (mem_takeWhile_prop hc)

/-- All postings so far have plain account names. -/
def PlainPosts (b : Builder) : Prop := ∀ p ∈ b.post, PlainName p.acct

/-- All aliases stand for plain account names. -/
def PlainAliases (als : Aliases) : Prop := ∀ kv ∈ als, PlainName kv.2

theorem resolve_plain {als : Aliases} (h : PlainAliases als) {a : Str} (ha : PlainName a) : PlainName (als.resolve a) := by
  induction als with
  | nil => exact ha
  | cons kv als ih =>
    obtain ⟨k, v⟩ := kv
    simp only [Aliases.resolve]
    split
    · exact h (k, v) (by simp)
    · exact ih (fun x hx => h x (List.mem_cons_of_mem _ hx))

theorem addPosting_plain {b : Builder} (h : PlainPosts b) {a c : Str} {v : Rat} {n : Str} (ha : PlainName a) :
    PlainPosts (b.addPosting a c v n) := by
  intro p hp
  simp only [Builder.addPosting, List.mem_append, List.mem_singleton] at hp
  rcases hp with hp | hp
  · exact h p hp
  · rw [hp]; exact ha

theorem addElided_plain {a n : Str} (ha : PlainName a) (ord : List (Str × Rat)) : ∀ b : Builder, PlainPosts b → PlainPosts (addElided a n ord b) := by
  unfold addElided
  induction ord with
  | nil => intro b h; exact h
  | cons kv ord ih =>
    intro b h
    rw [List.foldl_cons]
    apply ih
    split
    · exact addPosting_plain h ha
    · exact h

theorem postingEffect_plain {b : Builder} (h : PlainPosts b) (ord : Builder → List (Str × Rat)) {l : Str × Str × Rat × Str} (ha : PlainName l.1) :
    PlainPosts (postingEffect ord l b) := by
  unfold postingEffect
  split
  · exact addElided_plain ha _ b h
  · exact addPosting_plain h ha

theorem newTransaction_plain {b b' : Builder} {d : Int} {p n : Str} (h : PlainPosts b) (hb : b.newTransaction d p n = some b') : PlainPosts b' := by
  have hc : ∀ b1, b.checkAndClear = some b1 → b1.post = b.post := by
    intro b1 h1
    unfold Builder.checkAndClear at h1
    split at h1 <;> cases h1
    rfl
  unfold Builder.newTransaction at hb
  split at hb
  · cases hb
  · rename_i b1 h1
    split at hb
    · cases hb
    · cases hb
      intro q hq
      exact h q (by rw [← hc b1 h1]; exact hq)

theorem parsePostingLine_plain {als : Aliases} (h : PlainAliases als) {s s' : Reader} {l : Str × Str × Rat × Str}
    (hl : parsePostingLine als s = some (l, s')) : PlainName l.1 := by
  unfold parsePostingLine at hl
  simp only at hl
  split at hl
  · cases hl
  · split at hl
    · cases hl
    · cases hl
      exact resolve_plain h (parseAccount_plain _)

theorem parseAlias_plain {s s' : Reader} {kv : Str × Str} (h : parseAlias s = some (kv, s')) : PlainName kv.2 := by
  unfold parseAlias at h
  simp only at h
  split at h
  · cases h
  · split at h
    · cases h
    · cases h; exact parseAccount_plain _

theorem parseStep_plain {e : Env} {b b' : Builder} {als als' : Aliases} {s s' : Reader} (hp : PlainPosts b) (ha : PlainAliases als)
    (h : parseStep e b als s = .go b' als' s') : PlainPosts b' ∧ PlainAliases als' := by
  unfold parseStep at h
  simp only at h
  split at h
  · cases h; exact ⟨hp, ha⟩
  split at h
  · split at h
    · cases h; exact ⟨hp, ha⟩
    split at h
    · split at h
      · cases h
      · cases h; exact ⟨hp, ha⟩
    split at h
    · split at h
      · cases h
      · split at h
        · cases h
        · rename_i h1
          cases h; exact ⟨newTransaction_plain hp h1, ha⟩
    split at h
    · split at h <;> cases h
    · split at h
      · split at h
        · cases h
        · rename_i kv _ h1
          cases h
          refine ⟨hp, fun x hx => ?_⟩
          rcases List.mem_cons.1 hx with e | e
          · rw [e]; exact parseAlias_plain h1
          · exact ha x e
      · cases h
  · split at h
    · cases h
    · rename_i h1
      cases h
      exact ⟨postingEffect_plain hp _ (parsePostingLine_plain ha h1), ha⟩

theorem parseLoop_plain {e : Env} {fn : Str} {inc : Builder → Aliases → Str → Outcome}
    (hinc : ∀ b als f b' als', PlainPosts b → PlainAliases als → inc b als f = .ok b' als' → PlainPosts b') :
    ∀ (n : Nat) (b : Builder) (als : Aliases) (s : Reader) (b' : Builder) (als' : Aliases), PlainPosts b → PlainAliases als →
      parseLoop e fn inc n b als s = .ok b' als' → PlainPosts b' := by
  intro n
  induction n with
  | zero => intro b als s b' als' _ _ h; cases h
  | succ n ih =>
    intro b als s b' als' hp ha h
    unfold parseLoop at h
    split at h
    · cases h; exact hp
    · cases hst : parseStep e b als s with
      | stop => rw [hst] at h; cases h
      | go b1 als1 s1 =>
        rw [hst] at h
        obtain ⟨h1, h2⟩ := parseStep_plain hp ha hst
        exact ih _ _ _ _ _ h1 h2 h
      | incl f s1 =>
        rw [hst] at h
        simp only at h
        cases hi : inc b als (e.join fn f) with
        | ok b1 als1 =>
          rw [hi] at h
          exact ih _ _ _ _ _ (hinc _ _ _ _ _ hp ha hi) ha h
        | err => rw [hi] at h; cases h
        | fatal => rw [hi] at h; cases h
        | running => rw [hi] at h; cases h

theorem parseFileLocal_plain (e : Env) : ∀ (depth : Nat) (b : Builder) (als : Aliases) (f : Str) (b' : Builder) (als' : Aliases),
    PlainPosts b → PlainAliases als → parseFileLocal e depth b als f = .ok b' als' → PlainPosts b' := by
  intro depth
  induction depth with
  | zero => intro b als f b' als' _ _ h; cases h
  | succ n ih =>
    intro b als f b' als' hp ha h
    unfold parseFileLocal at h
    split at h
    · cases h
    · exact parseLoop_plain ih _ _ _ _ _ _ hp ha h

/-- C77, what holds: the account of every posting of a loaded book (aliases and included files
included) consists of the runes the loader knows. -/
theorem c77_accounts_plain_partial (srt : List Posting → List Posting) (hs : IsSort srt) (e : Env) (depth : Nat) (f : Str)
    (bk : Book) (h : loadBook srt e depth f = .ok bk) : ∀ p ∈ bk.post, PlainName p.acct := by
  unfold loadBook at h
  split at h <;> try cases h
  rename_i b als hb
  split at h <;> try cases h
  rename_i hbk
  have hp := parseFileLocal_plain e depth _ _ _ _ _ (by intro p hp; cases hp) (by intro p hp; cases hp) hb
  unfold Builder.build at hbk
  split at hbk
  · cases hbk
  · rename_i b1 h1
    cases hbk
    rw [compact_post _ (srt_nil hs)]
    intro p hpm
    obtain ⟨q, hq, e1⟩ := compactPost_key_mem hs _ p hpm
    rw [(key_eq_iff.1 e1).2.2.1]
    unfold Builder.checkAndClear at h1
    split at h1 <;> cases h1
    exact hp q hq

/-- C77, what holds: a posting line whose account is such a name, up to a space, is read with
exactly that account (or what an alias makes of it). -/
theorem c77_name_read_whole_partial (als : Aliases) (name rest : Str) (hn : PlainName name) (hne : name ≠ []) (s' : Reader)
    (l : Str × Str × Rat × Str) (h : parsePostingLine als (name ++ 32 :: rest) = some (l, s')) : l.1 = als.resolve name := by
  obtain ⟨c, cs, rfl⟩ := List.exists_cons_of_ne_nil hne
  have hc : NameRune c := hn c (by simp)
  have hw : consumeWS (c :: cs ++ 32 :: rest) = c :: cs ++ 32 :: rest := by
    unfold consumeWS
    rw [List.cons_append, List.dropWhile_cons, if_neg]
    have : isBlank c = false := by
      rcases hc with h | h | h | h | h | h | h <;> (simp [isBlank, isSpace]; omega)
    simp [this]
  have hp : (parseAccount (c :: cs ++ 32 :: rest)).1 = c :: cs := by
    unfold parseAccount
    rw [hw]
    have h1 : ¬ (Reader.ch (c :: cs ++ 32 :: rest) = 33 ∨ Reader.ch (c :: cs ++ 32 :: rest) = 91) := by
      show ¬ (c = 33 ∨ c = 91)
      rcases hc with h | h | h | h | h | h | h <;> omega
    simp only [if_neg h1]
    rw [List.takeWhile_append_of_pos (fun x hx => (isAcctRune_iff x).2 (hn x hx))]
    rw [List.takeWhile_cons, if_neg (by decide)]
    simp
  unfold parsePostingLine at h
  simp only at h
  rw [hw] at h
  split at h
  · cases h
  · split at h
    · cases h
    · cases h
      simp only [hp]

/-- A file with one transaction: 10 to an account, the rest to B. -/
def oneNameFile (name : Str) : Str := b!"2020/01/01 P\n  " ++ name ++ b!" 10\n  B\n"

/-- C77 is false of the code: `My-Bank 10` is accepted and read as -10 Bank posted to the account `My`. -/
theorem c77_name_split_fails : ¬ ∀ (srt : List Posting → List Posting) (_ : IsSort srt) (e : Env) (depth : Nat) (f name : Str) (bk : Book),
    name ≠ [] → (∀ c ∈ name, c ≠ 32 ∧ c ≠ 9 ∧ c ≠ 10) → e.files f = some (oneNameFile name) →
    loadBook srt e depth f = .ok bk → ∀ p ∈ bk.post, p.acct = name ∨ p.acct = b!"B" := by
  intro h
  have hb : (match loadBook insSort (demoEnv [(b!"a", oneNameFile b!"My-Bank")]) 1 b!"a" with
      | .ok bk => decide (bk.post.map line = [⟨20200101, b!"P", b!"B", b!"Bank", 10⟩, ⟨20200101, b!"P", b!"My", b!"Bank", -10⟩])
      | _ => false) = true := by decide +kernel
  cases hl : loadBook insSort (demoEnv [(b!"a", oneNameFile b!"My-Bank")]) 1 b!"a" with
  | ok bk =>
    rw [hl] at hb
    simp only [decide_eq_true_eq] at hb
    have hm : (⟨20200101, b!"P", b!"My", b!"Bank", -10⟩ : Line) ∈ bk.post.map line := by rw [hb]; simp
    obtain ⟨p, hp, hpl⟩ := List.mem_map.1 hm
    have ha : p.acct = b!"My" := congrArg Line.acct hpl
    have := h insSort insSort_isSort _ 1 b!"a" b!"My-Bank" bk (by decide) (by decide) (by decide +kernel) hl p hp
    rw [ha] at this
    revert this
    decide
  | err => rw [hl] at hb; cases hb
  | fatal => rw [hl] at hb; cases hb
  | crash => rw [hl] at hb; cases hb
  | running => rw [hl] at hb; cases hb

/-- Non-vacuity: a plain name is read whole. -/
example : PlainName b!"Joe's:Food_1" ∧ ((parsePostingLine [] (b!"Joe's:Food_1" ++ 32 :: b!"10 X\n")).map (·.1.1)) = some b!"Joe's:Food_1" := by
  decide +kernel

end Verif
