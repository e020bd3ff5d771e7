import Verif.Spec.MainDownload
import Verif.Props.MainImport2
import Verif.Props.Zero

/-! # C153: which settings a download works with -/

namespace Verif
open Spec

/-! ## The flags -/

theorem short_like {σ : Type} {fe : FlagEnv} {f : FlagOf σ} {n : Str} {k : Kind} {s s' : Option Nat} (h : FlagLike fe f (n, s, k)) :
    FlagLike fe { f with short := s' } (n, s', k) where
  name := h.name
  short := rfl
  switch := h.switch
  valued := h.valued
  set := h.set

theorem table_ok {t : Table} (h1 : ∀ x ∈ t.map (·.1), x ≠ [] ∧ x.head? ≠ some 45 ∧ 61 ∉ x)
    (h2 : ∀ x ∈ t.map (·.2.1), x ≠ some 45 ∧ x ≠ some 61 ∧ x ≠ some 116) (h3 : (t.map (·.1)).Nodup) : TableOk t :=
  ⟨fun x hx => h1 _ (List.mem_map_of_mem hx), fun x hx => h2 _ (List.mem_map_of_mem (f := fun x => x.2.1) hx), h3⟩

theorem monzo_linked (fe : FlagEnv) : Linked fe (monzoFlags fe) monzoFlagTable where
  like := append_like (.cons (stringVar_like ..) (.cons (stringVar_like ..) (.cons (short_like (intVar_like ..)) .nil))) (lifted_like (app_like fe))
  ok := by apply table_ok <;> simp [monzoFlagTable, appFlagTable]

theorem starling_linked (fe : FlagEnv) : Linked fe starlingFlags starlingFlagTable where
  like := append_like (.cons (stringVar_like ..) (.cons (boolVar_like ..) .nil)) (lifted_like (app_like fe))
  ok := by apply table_ok <;> simp [starlingFlagTable, appFlagTable]

theorem nordigen_linked (fe : FlagEnv) : Linked fe nordigenFlags nordigenFlagTable where
  like := append_like (.cons (stringVar_like ..) (.cons (stringVar_like ..) .nil)) (lifted_like (app_like fe))
  ok := by apply table_ok <;> simp [nordigenFlagTable, appFlagTable]

/-- The settings after the flags of the line. -/
def monzoWith (fe : FlagEnv) (s : CmdState MonzoConf) (l : List (Str × Str)) : CmdState MonzoConf where
  conf := appWith s.conf l
  d := ⟨lineStr l b!"clientid" s.d.clientID, lineStr l b!"clientsecret" s.d.clientSecret, lineInt fe l b!"port" s.d.port⟩
  given := s.given

def starlingWith (s : CmdState StarlingConf) (l : List (Str × Str)) : CmdState StarlingConf where
  conf := appWith s.conf l
  d := ⟨lineStr l b!"personalAccessToken" s.d.token, lineBool l b!"alldata" s.d.allData⟩
  given := s.given

def nordigenWith (s : CmdState NordigenConf) (l : List (Str × Str)) : CmdState NordigenConf where
  conf := appWith s.conf l
  d := ⟨lineStr l b!"Client ID" s.d.clientID, lineStr l b!"Client Secret" s.d.clientSecret⟩
  given := s.given

theorem set_monzo (fe : FlagEnv) (s : CmdState MonzoConf) (l : List (Str × Str)) (h : ∀ x ∈ l, kindOf monzoFlagTable x.1 ≠ none)
    (hg : ∀ x ∈ l, ∀ k, kindOf monzoFlagTable x.1 = some k → k.takes fe x.2) :
    setAll (monzoFlags fe) s l = some (monzoWith fe s l) := by
  induction l generalizing s with
  | nil => rfl
  | cons x l ih =>
    obtain ⟨n, v⟩ := x
    obtain ⟨k, hk⟩ := Option.ne_none_iff_exists'.1 (h (n, v) (by simp))
    have ht := hg (n, v) (by simp) k hk
    have ih := fun c => ih c (fun x hx => h x (by simp [hx])) (fun x hx => hg x (by simp [hx]))
    rw [setAll]
    simp only [ih]
    clear ih h hg
    obtain ⟨s', hm⟩ := kindOf_mem hk
    clear hk
    simp only [monzoFlagTable, appFlagTable, List.cons_append, List.nil_append, List.mem_cons, List.not_mem_nil, or_false, Prod.mk.injEq] at hm
    casesm* _ ∨ _
    all_goals
      obtain ⟨rfl, -, rfl⟩ := hm
      rw [show longFlag (monzoFlags _) _ = some _ from rfl]
      simp only [Kind.takes] at ht
      first
      | (simp [stringVar, liftFlag, monzoWith, appWith, lineStr_cons, lineBool_cons, lineInt_cons]; done)
      | (simp [boolVar, liftFlag, parseBool_yes ht, monzoWith, appWith, lineStr_cons, lineBool_cons, lineInt_cons]; done)
      | (rw [show (intVar fe.num _ _ _).set s v = _ from rfl]; simp [num_set ht, monzoWith, appWith, lineStr_cons, lineBool_cons, lineInt_cons]; done)
      | (simp [intVar, monzoWith, appWith, lineStr_cons, lineBool_cons, lineInt_cons]; rw [num_set ht]; simp; done)

theorem set_starling (fe : FlagEnv) (s : CmdState StarlingConf) (l : List (Str × Str)) (h : ∀ x ∈ l, kindOf starlingFlagTable x.1 ≠ none)
    (hg : ∀ x ∈ l, ∀ k, kindOf starlingFlagTable x.1 = some k → k.takes fe x.2) :
    setAll starlingFlags s l = some (starlingWith s l) := by
  induction l generalizing s with
  | nil => rfl
  | cons x l ih =>
    obtain ⟨n, v⟩ := x
    obtain ⟨k, hk⟩ := Option.ne_none_iff_exists'.1 (h (n, v) (by simp))
    have ht := hg (n, v) (by simp) k hk
    have ih := fun c => ih c (fun x hx => h x (by simp [hx])) (fun x hx => hg x (by simp [hx]))
    rw [setAll]
    simp only [ih]
    clear ih h hg
    obtain ⟨s', hm⟩ := kindOf_mem hk
    clear hk
    simp only [starlingFlagTable, appFlagTable, List.cons_append, List.nil_append, List.mem_cons, List.not_mem_nil, or_false, Prod.mk.injEq] at hm
    casesm* _ ∨ _
    all_goals
      obtain ⟨rfl, -, rfl⟩ := hm
      rw [show longFlag starlingFlags _ = some _ from rfl]
      simp only [Kind.takes] at ht
      first
      | (simp [stringVar, liftFlag, starlingWith, appWith, lineStr_cons, lineBool_cons]; done)
      | (simp [boolVar, liftFlag, parseBool_yes ht, starlingWith, appWith, lineStr_cons, lineBool_cons]; done)

theorem set_nordigen (fe : FlagEnv) (s : CmdState NordigenConf) (l : List (Str × Str)) (h : ∀ x ∈ l, kindOf nordigenFlagTable x.1 ≠ none)
    (hg : ∀ x ∈ l, ∀ k, kindOf nordigenFlagTable x.1 = some k → k.takes fe x.2) :
    setAll nordigenFlags s l = some (nordigenWith s l) := by
  induction l generalizing s with
  | nil => rfl
  | cons x l ih =>
    obtain ⟨n, v⟩ := x
    obtain ⟨k, hk⟩ := Option.ne_none_iff_exists'.1 (h (n, v) (by simp))
    have ht := hg (n, v) (by simp) k hk
    have ih := fun c => ih c (fun x hx => h x (by simp [hx])) (fun x hx => hg x (by simp [hx]))
    rw [setAll]
    simp only [ih]
    clear ih h hg
    obtain ⟨s', hm⟩ := kindOf_mem hk
    clear hk
    simp only [nordigenFlagTable, appFlagTable, List.cons_append, List.nil_append, List.mem_cons, List.not_mem_nil, or_false, Prod.mk.injEq] at hm
    casesm* _ ∨ _
    all_goals
      obtain ⟨rfl, -, rfl⟩ := hm
      rw [show longFlag nordigenFlags _ = some _ from rfl]
      simp only [Kind.takes] at ht
      first
      | (simp [stringVar, liftFlag, nordigenWith, appWith, lineStr_cons, lineBool_cons]; done)
      | (simp [boolVar, liftFlag, parseBool_yes ht, nordigenWith, appWith, lineStr_cons, lineBool_cons]; done)

/-- A line that can be read. -/
theorem down_line {δ : Type} (w : World) (fs : List (FlagOf (CmdState δ))) (t : Table) (hlk : Linked w.flags fs t) (run : δ → Str → Exit) (name : Str)
    (d : δ) (c : Conf) (l : CmdLine) (hg : l.Good w.flags t) (s : CmdState δ) (hs : setAll fs ⟨c, d, []⟩ (l.flags t) = some s) :
    downExecute w fs run name d l.text c =
      if s.conf.help then .done 0 [.text (w.usage name)]
      else match l.words with
        | [f] => run s.d f
        | _ => .done 1 [] := by
  unfold downExecute
  rw [parse_line hlk l hg.1, hs]
  rfl

/-- A line that cannot be read. -/
theorem down_refused {δ : Type} (w : World) (fs : List (FlagOf (CmdState δ))) (t : Table) (hlk : Linked w.flags fs t) (run : δ → Str → Exit) (name : Str)
    (d : δ) (c : Conf) (args : List Str) (h : ¬ ∃ l : CmdLine, l.text = args ∧ l.Good w.flags t) : downExecute w fs run name d args c = .done 1 [] := by
  unfold downExecute
  have := (parse_iff hlk args ⟨c, d, []⟩).not.2 h
  simp only [Option.isSome_iff_ne_none, ne_eq, not_not] at this
  rw [this]

/-! ## The file -/

/-- The settings after some keys. -/
def downWith (d : DownConf) (p : Keys) : DownConf where
  monzo := ⟨fileStr p [b!"download", b!"monzo", b!"clientid"] d.monzo.clientID, fileStr p [b!"download", b!"monzo", b!"clientsecret"] d.monzo.clientSecret,
    fileInt p [b!"download", b!"monzo", b!"port"] d.monzo.port⟩
  starling := ⟨fileStr p [b!"download", b!"starling", b!"personalaccesstoken"] d.starling.token,
    fileBool p [b!"download", b!"starling", b!"alldata"] d.starling.allData⟩
  nordigen := ⟨fileStr p [b!"download", b!"nordigen", b!"clientid"] d.nordigen.clientID,
    fileStr p [b!"download", b!"nordigen", b!"clientsecret"] d.nordigen.clientSecret⟩

theorem downWith_cons (d : DownConf) (k : List Str) (v : TomlVal) (p : Keys) : downWith (downWith d [(k, v)]) p = downWith d ((k, v) :: p) := by
  simp only [downWith, fileStr_cons k v p, fileBool_cons k v p, fileInt_cons k v p]

/-- One key. -/
def BankKeyGood (k : List Str) (v : TomlVal) : Prop :=
  (k.map lowerStr ∈ bankTextKeys ∧ ∃ s, v = .str s) ∨ (k.map lowerStr = [b!"download", b!"monzo", b!"port"] ∧ ∃ i, v = .int i) ∨
    (k.map lowerStr = [b!"download", b!"starling", b!"alldata"] ∧ ∃ b, v = .bool b)

theorem downField_eq (d : DownConf) (t : Str) (f : List Str) (v : TomlVal) (ht : lowerStr t = b!"download") :
    (BankKeyGood (t :: f) v → downField d f v = some (downWith d [(t :: f, v)])) ∧ (¬ BankKeyGood (t :: f) v → downField d f v = none) := by
  constructor
  · rintro (⟨h, s, rfl⟩ | ⟨h, i, rfl⟩ | ⟨h, b, rfl⟩)
    · simp only [bankTextKeys, List.mem_cons, List.not_mem_nil, or_false] at h
      rcases h with h | h | h | h | h <;>
      · have hs := fun k => sameKey_of h k
        simp only [List.map_cons, List.cons.injEq] at h
        simp [downField, downWith, fileStr, fileBool, fileInt, hs, h.2]
    · have hs := fun k => sameKey_of h k
      simp only [List.map_cons, List.cons.injEq] at h
      simp [downField, downWith, fileStr, fileBool, fileInt, hs, h.2]
    · have hs := fun k => sameKey_of h k
      simp only [List.map_cons, List.cons.injEq] at h
      simp [downField, downWith, fileStr, fileBool, fileInt, hs, h.2]
  · intro h
    simp only [BankKeyGood, List.map_cons, ht, bankTextKeys, List.mem_cons, List.not_mem_nil, or_false, List.cons.injEq, true_and, not_or, not_and,
      not_exists] at h
    obtain ⟨h1, h2, h3⟩ := h
    unfold downField
    split
    · next b f' s he =>
      rw [he] at h1
      have h1 := fun h => h1 h s rfl
      simp only [List.cons.injEq, and_true] at h1
      by_contra hc
      apply h1
      revert hc
      split_ifs <;> simp_all
    · next b f' s he =>
      rw [he] at h3
      rw [if_neg]
      rintro ⟨rfl, rfl⟩
      exact h3 rfl s rfl
    · next b f' s he =>
      rw [he] at h2
      rw [if_neg]
      rintro ⟨rfl, rfl⟩
      exact h2 rfl s rfl
    · rfl

theorem downWith_skip (d : DownConf) (k : List Str) (v : TomlVal) (h : (k.map lowerStr).head? ≠ some b!"download") : downWith d [(k, v)] = d := by
  have hs : ∀ l : List Str, sameKey k (b!"download" :: l) = false := by
    intro l
    rw [sameKey, smallStr_eq]
    refine decide_eq_false fun he => h ?_
    rw [he]
    rfl
  cases v <;> simp [downWith, fileStr, fileBool, fileInt, hs]

/-- The whole table. -/
theorem readDown_eq (d : DownConf) (keys : Keys) :
    (BanksGood keys → readDown d keys = some (downWith d keys)) ∧ (¬ BanksGood keys → readDown d keys = none) := by
  have hb : ∀ keys, BanksGood keys ↔ ∀ x ∈ keys, (x.1.map lowerStr).head? = some b!"download" → BankKeyGood x.1 x.2 := by
    intro keys
    unfold BanksGood BankKeyGood
    rw [smallStr_eq]
  simp only [hb]
  induction keys generalizing d with
  | nil => exact ⟨fun _ => rfl, fun h => absurd (fun x hx => by simp at hx) h⟩
  | cons x keys ih =>
    obtain ⟨k, v⟩ := x
    have skip : (k.map lowerStr).head? ≠ some b!"download" → readDown d ((k, v) :: keys) = readDown d keys →
        ((∀ x ∈ (k, v) :: keys, (x.1.map lowerStr).head? = some b!"download" → BankKeyGood x.1 x.2) →
          readDown d ((k, v) :: keys) = some (downWith d ((k, v) :: keys))) ∧
        (¬ (∀ x ∈ (k, v) :: keys, (x.1.map lowerStr).head? = some b!"download" → BankKeyGood x.1 x.2) → readDown d ((k, v) :: keys) = none) := by
      intro h1 h2
      rw [h2, ← downWith_cons, downWith_skip d k v h1]
      constructor
      · intro h
        exact (ih d).1 fun x hx => h x (List.mem_cons_of_mem _ hx)
      · intro h
        refine (ih d).2 fun h' => h fun x hx => ?_
        rcases List.mem_cons.1 hx with rfl | hx
        · exact fun h => absurd h h1
        · exact h' x hx
    cases k with
    | nil => exact skip (by simp) rfl
    | cons t f =>
      by_cases ht : lowerStr t = b!"download"
      · have hstep : readDown d ((t :: f, v) :: keys) = (downField d f v).bind fun d => readDown d keys := by
          rw [readDown, if_pos ht]
        rw [hstep]
        by_cases hg : BankKeyGood (t :: f) v
        · rw [(downField_eq d t f v ht).1 hg, Option.bind_some, ← downWith_cons d (t :: f) v keys]
          constructor
          · intro h
            exact (ih _).1 fun x hx => h x (List.mem_cons_of_mem _ hx)
          · intro h
            refine (ih _).2 fun h' => h fun x hx => ?_
            rcases List.mem_cons.1 hx with rfl | hx
            · exact fun _ => hg
            · exact h' x hx
        · rw [(downField_eq d t f v ht).2 hg]
          exact ⟨fun h => absurd (h (t :: f, v) (by simp) (by simp [ht])) hg, fun _ => rfl⟩
      · refine skip (by simpa using ht) ?_
        rw [readDown, if_neg ht]

/-! ## The program -/

/-- `download` with a good file. -/
theorem down_known (w : World) (im : ImpWorld) (bw : BankWorld) (env : Option Str) (keys : Keys) (other : List Str → Conf → Exit)
    (hf : FileGood keys) (hb : BanksGood keys) (bank : Str) (args : List Str) :
    goledgerDown w im bw env (some keys) other (b!"download" :: bank :: args) =
      downMain w bw (downWith DownConf.zero keys) other (b!"download" :: bank :: args) (startConf env keys) := by
  unfold goledgerDown
  rw [Option.bind_some, (readDown_eq _ _).1 hb]
  simp only
  obtain ⟨defs, gens, -, -, -, -, h⟩ := goledger_defs w im env keys (downMain w bw (downWith DownConf.zero keys) other) hf
  rw [h _ _ (by decide +kernel), defsMain, if_neg (by decide), defsMain, if_neg (by decide)]

/-- C153, Monzo: `download monzo FILE` works with the settings of the command line, or else of the configuration file, or else those built in, on the
file named by the one word of the line. -/
theorem c153_monzo (w : World) (im : ImpWorld) (bw : BankWorld) (env : Option Str) (keys : Keys) (other : List Str → Conf → Exit) (l : CmdLine) (f : Str)
    (hf : FileGood keys) (hb : BanksGood keys) (hl : l.Good w.flags monzoFlagTable) (hh : asksHelp (l.flags monzoFlagTable) = false)
    (ha : l.words = [f]) :
    goledgerDown w im bw env (some keys) other (b!"download" :: b!"monzo" :: l.text) = bw.monzo (monzoOf w.flags keys (l.flags monzoFlagTable)) f := by
  rw [down_known w im bw env keys other hf hb]
  have hlk := monzo_linked w.flags
  rw [downMain, if_pos rfl, if_pos rfl, down_line w _ _ hlk _ _ _ _ l hl _ (set_monzo w.flags _ _ (flags_known_line hlk.ok l hl.1) hl.2)]
  have hhelp : (appWith (startConf env keys) (l.flags monzoFlagTable)).help = false := hh
  simp only [monzoWith, hhelp, ha]
  rw [if_neg (by simp)]
  congr 1
  unfold monzoOf filePort MonzoConf.added
  by_cases hp : fileInt keys [b!"download", b!"monzo", b!"port"] 0 = 0 <;> simp [downWith, DownConf.zero, hp]

/-- C153, Starling. -/
theorem c153_starling (w : World) (im : ImpWorld) (bw : BankWorld) (env : Option Str) (keys : Keys) (other : List Str → Conf → Exit) (l : CmdLine) (f : Str)
    (hf : FileGood keys) (hb : BanksGood keys) (hl : l.Good w.flags starlingFlagTable) (hh : asksHelp (l.flags starlingFlagTable) = false)
    (ha : l.words = [f]) :
    goledgerDown w im bw env (some keys) other (b!"download" :: b!"starling" :: l.text) = bw.starling (starlingOf keys (l.flags starlingFlagTable)) f := by
  rw [down_known w im bw env keys other hf hb]
  have hlk := starling_linked w.flags
  rw [downMain, if_pos rfl, if_neg (by decide), if_pos rfl,
    down_line w _ _ hlk _ _ _ _ l hl _ (set_starling w.flags _ _ (flags_known_line hlk.ok l hl.1) hl.2)]
  have hhelp : (appWith (startConf env keys) (l.flags starlingFlagTable)).help = false := hh
  simp only [starlingWith, hhelp, ha]
  rfl

/-- C153, Nordigen. -/
theorem c153_nordigen (w : World) (im : ImpWorld) (bw : BankWorld) (env : Option Str) (keys : Keys) (other : List Str → Conf → Exit) (l : CmdLine) (f : Str)
    (hf : FileGood keys) (hb : BanksGood keys) (hl : l.Good w.flags nordigenFlagTable) (hh : asksHelp (l.flags nordigenFlagTable) = false)
    (ha : l.words = [f]) :
    goledgerDown w im bw env (some keys) other (b!"download" :: b!"nordigen" :: l.text) = bw.nordigen (nordigenOf keys (l.flags nordigenFlagTable)) f := by
  rw [down_known w im bw env keys other hf hb]
  have hlk := nordigen_linked w.flags
  rw [downMain, if_pos rfl, if_neg (by decide), if_neg (by decide), if_pos rfl,
    down_line w _ _ hlk _ _ _ _ l hl _ (set_nordigen w.flags _ _ (flags_known_line hlk.ok l hl.1) hl.2)]
  have hhelp : (appWith (startConf env keys) (l.flags nordigenFlagTable)).help = false := hh
  simp only [nordigenWith, hhelp, ha]
  rfl

/-- Any bank, with its flags. -/
theorem down_bank (w : World) (im : ImpWorld) (bw : BankWorld) (env : Option Str) (keys : Keys) (other : List Str → Conf → Exit)
    (hf : FileGood keys) (hb : BanksGood keys) (bank : Str) (t : Table) (ht : (bank, t) ∈ bankTables) (args : List Str) :
    ((¬ ∃ l : CmdLine, l.text = args ∧ l.Good w.flags t) →
      goledgerDown w im bw env (some keys) other (b!"download" :: bank :: args) = .done 1 []) ∧
    ∀ l : CmdLine, l.text = args → l.Good w.flags t →
      (asksHelp (l.flags t) = true → goledgerDown w im bw env (some keys) other (b!"download" :: bank :: args) = .done 0 [.text (w.usage bank)]) ∧
      (asksHelp (l.flags t) = false → l.words.length ≠ 1 →
        goledgerDown w im bw env (some keys) other (b!"download" :: bank :: args) = .done 1 []) := by
  rw [down_known w im bw env keys other hf hb]
  have words : ∀ {α : Type} (ws : List Str) (r : Str → α) (e : α), ws.length ≠ 1 → (match ws with | [f] => r f | _ => e) = e := by
    intro α ws r e h
    rcases ws with _ | ⟨x, _ | ⟨y, ys⟩⟩
    · rfl
    · simp at h
    · rfl
  simp only [bankTables, List.mem_cons, List.not_mem_nil, or_false, Prod.mk.injEq] at ht
  rcases ht with ⟨rfl, rfl⟩ | ⟨rfl, rfl⟩ | ⟨rfl, rfl⟩
  · have hlk := monzo_linked w.flags
    rw [downMain, if_pos rfl, if_pos rfl]
    refine ⟨down_refused w _ _ hlk _ _ _ _ args, ?_⟩
    rintro l rfl hl
    rw [down_line w _ _ hlk _ _ _ _ l hl _ (set_monzo w.flags _ _ (flags_known_line hlk.ok l hl.1) hl.2)]
    constructor
    · intro hh
      exact if_pos hh
    · intro hh ha
      exact (if_neg (Bool.eq_false_iff.1 hh)).trans (words _ _ _ ha)
  · have hlk := starling_linked w.flags
    rw [downMain, if_pos rfl, if_neg (by decide), if_pos rfl]
    refine ⟨down_refused w _ _ hlk _ _ _ _ args, ?_⟩
    rintro l rfl hl
    rw [down_line w _ _ hlk _ _ _ _ l hl _ (set_starling w.flags _ _ (flags_known_line hlk.ok l hl.1) hl.2)]
    constructor
    · intro hh
      exact if_pos hh
    · intro hh ha
      exact (if_neg (Bool.eq_false_iff.1 hh)).trans (words _ _ _ ha)
  · have hlk := nordigen_linked w.flags
    rw [downMain, if_pos rfl, if_neg (by decide), if_neg (by decide), if_pos rfl]
    refine ⟨down_refused w _ _ hlk _ _ _ _ args, ?_⟩
    rintro l rfl hl
    rw [down_line w _ _ hlk _ _ _ _ l hl _ (set_nordigen w.flags _ _ (flags_known_line hlk.ok l hl.1) hl.2)]
    constructor
    · intro hh
      exact if_pos hh
    · intro hh ha
      exact (if_neg (Bool.eq_false_iff.1 hh)).trans (words _ _ _ ha)

/-- C153, a line that cannot be read with the flags of the bank: status 1, and no download. -/
theorem c153_refused (w : World) (im : ImpWorld) (bw : BankWorld) (env : Option Str) (keys : Keys) (other : List Str → Conf → Exit)
    (hf : FileGood keys) (hb : BanksGood keys) (bank : Str) (t : Table) (ht : (bank, t) ∈ bankTables) (args : List Str)
    (h : ¬ ∃ l : CmdLine, l.text = args ∧ l.Good w.flags t) :
    goledgerDown w im bw env (some keys) other (b!"download" :: bank :: args) = .done 1 [] :=
  (down_bank w im bw env keys other hf hb bank t ht args).1 h

/-- C153, no state file or more than one: status 1, and no download. -/
theorem c153_words (w : World) (im : ImpWorld) (bw : BankWorld) (env : Option Str) (keys : Keys) (other : List Str → Conf → Exit)
    (hf : FileGood keys) (hb : BanksGood keys) (bank : Str) (t : Table) (ht : (bank, t) ∈ bankTables) (l : CmdLine)
    (hl : l.Good w.flags t) (hh : asksHelp (l.flags t) = false) (ha : l.words.length ≠ 1) :
    goledgerDown w im bw env (some keys) other (b!"download" :: bank :: l.text) = .done 1 [] :=
  ((down_bank w im bw env keys other hf hb bank t ht _).2 l rfl hl).2 hh ha

/-- C153, help: it is shown, and there is no download. -/
theorem c153_help (w : World) (im : ImpWorld) (bw : BankWorld) (env : Option Str) (keys : Keys) (other : List Str → Conf → Exit)
    (hf : FileGood keys) (hb : BanksGood keys) (bank : Str) (t : Table) (ht : (bank, t) ∈ bankTables) (l : CmdLine)
    (hl : l.Good w.flags t) (hh : asksHelp (l.flags t) = true) :
    goledgerDown w im bw env (some keys) other (b!"download" :: bank :: l.text) = .done 0 [.text (w.usage bank)] :=
  ((down_bank w im bw env keys other hf hb bank t ht _).2 l rfl hl).1 hh

/-- C153, a setting of a bank that there is not, or of the wrong kind: no command works, whichever it is. -/
theorem c153_bad_file (w : World) (im : ImpWorld) (bw : BankWorld) (env : Option Str) (keys : Keys) (other : List Str → Conf → Exit) (args : List Str)
    (h : ¬ (FileGood keys ∧ BanksGood keys)) : goledgerDown w im bw env (some keys) other args = .done 1 [] := by
  unfold goledgerDown
  rw [Option.bind_some]
  by_cases hb : BanksGood keys
  · rw [(readDown_eq _ _).1 hb]
    exact c136_bad_file w im env keys _ args fun hf => h ⟨hf, hb⟩
  · rw [(readDown_eq _ _).2 hb]

/-! ## Examples -/

/-- Monzo and Starling in the file. -/
def downToml : Keys := [([b!"ledger"], .str b!"a"), ([b!"Download", b!"monzo", b!"ClientID"], .str b!"C"),
  ([b!"download", b!"Monzo", b!"clientSecret"], .str b!"S"), ([b!"download", b!"starling", b!"AllData"], .bool true)]

theorem downToml_good : FileGood downToml := fileGood_of (by decide +kernel) (by decide +kernel) (by decide +kernel)

theorem downToml_banks : BanksGood downToml := by
  by_contra h
  have := (readDown_eq DownConf.zero downToml).2 h
  have h2 : (readDown DownConf.zero downToml).isSome = true := by decide +kernel
  rw [this] at h2
  cases h2

/-- Banks that say what they are asked. -/
def sayBanks : BankWorld where
  monzo := fun c f => .done 0 [.text (b!"monzo " ++ c.clientID ++ b!" " ++ c.clientSecret ++ (if c.port = 12345 then b!" 12345 " else b!" other ") ++ f)]
  starling := fun c f => .done 0 [.text (b!"starling " ++ c.token ++ (if c.allData then b!" all " else b!" new ") ++ f)]
  nordigen := fun c f => .done 0 [.text (b!"nordigen " ++ c.clientID ++ b!" " ++ c.clientSecret ++ b!" " ++ f)]

/-- `--clientsecret T f.json` -/
def monzoLine : CmdLine := ⟨[.next b!"clientsecret" b!"T", .word b!"f.json"], none⟩

theorem monzoLine_good : monzoLine.Good zeroWorld.flags monzoFlagTable := by
  constructor
  · intro p hp
    simp only [monzoLine, List.mem_cons, List.not_mem_nil, or_false] at hp
    rcases hp with rfl | rfl
    · exact ⟨_, rfl, by simp⟩
    · intro h; simp at h
  · intro x hx k hk
    simp [monzoLine, CmdLine.flags, LinePart.flags] at hx
    subst hx
    cases (show kindOf monzoFlagTable b!"clientsecret" = some .text from rfl).symm.trans hk; trivial

/-- The client is that of the file, the secret that of the line, the port is built in. -/
example : goledgerDown zeroWorld bankWorld sayBanks none (some downToml) (fun _ _ => .never) (b!"download" :: b!"monzo" :: monzoLine.text) =
    sayBanks.monzo ⟨b!"C", b!"T", 12345⟩ b!"f.json" :=
  c153_monzo zeroWorld bankWorld sayBanks none downToml (fun _ _ => .never) monzoLine b!"f.json" downToml_good downToml_banks monzoLine_good
    (by decide +kernel) (by decide +kernel)

example : (goledgerDown zeroWorld bankWorld sayBanks none (some downToml) (fun _ _ => .never) [b!"download", b!"monzo", b!"--clientsecret", b!"T", b!"f.json"]).text? =
    some b!"monzo C T 12345 f.json" := by decide +kernel

example : (goledgerDown zeroWorld bankWorld sayBanks none (some downToml) (fun _ _ => .never) [b!"download", b!"starling", b!"f", b!"--personalAccessToken=X"]).text? =
    some b!"starling X all f" := by decide +kernel

example : (goledgerDown zeroWorld bankWorld sayBanks none (some downToml) (fun _ _ => .never) [b!"download", b!"starling", b!"f", b!"--alldata=false"]).text? =
    some b!"starling  new f" := by decide +kernel

example : (goledgerDown zeroWorld bankWorld sayBanks none (some downToml) (fun _ _ => .never) [b!"download", b!"nordigen", b!"--Client ID=N", b!"f"]).text? =
    some b!"nordigen N  f" := by decide +kernel

/-- A file with a port that is not a number. -/
example : ¬ BanksGood [([b!"download", b!"monzo", b!"port"], .str b!"80")] := by
  intro h
  have := h _ (List.mem_singleton.2 rfl) (by decide +kernel)
  revert this
  simp only [bankTextKeys, reduceCtorEq, exists_false, and_false, or_false, TomlVal.str.injEq, exists_eq', and_true]
  decide +kernel

end Verif
