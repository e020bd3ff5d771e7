import Verif.Spec.OnDay
import Verif.Props.Laws
import Verif.Props.OpText
import Verif.Props.DateText
import Verif.Model.ExportCmd

/-! # C159: the day on which a command is given -/

namespace Verif
open Spec

theorem instalments_day (t t' : Int) (p : Posting) (na : Str) (n : Int) : ∀ (k : Nat) (d : Int),
    instalments t p na b!"monthly" n k d = instalments t' p na b!"monthly" n k d
  | 0, d => rfl
  | k + 1, d => by
    simp only [instalments]
    rw [instalments_day t t' p na n k]
    rfl

theorem floorBy_day {ty : Str} (h : ty ≠ b!"today") (t t' d : Int) : floorBy t d ty = floorBy t' d ty := by
  unfold floorBy floorDiff
  rw [if_neg h, if_neg h]

theorem splitBy_day {ty : Str} (h : ty ≠ b!"today") (srt : List Posting → List Posting) (t t' : Int) (b : Book) : b.splitBy srt t ty = b.splitBy srt t' ty := by
  unfold Book.splitBy
  congr 1
  funext d _
  rw [floorBy_day h t t']

theorem apply_day (e : OpEnv) (t : Int) {p : Prim} (h : p ≠ .combine b!"today") (b : Book) : p.apply (e.onDay t) b = p.apply e b := by
  cases p with
  | combine ty =>
    have : ty ≠ b!"today" := fun hh => h (by rw [hh])
    show some (b.splitBy e.srt t ty) = some (b.splitBy e.srt e.today ty)
    rw [splitBy_day this e.srt t e.today]
  | depreciate s a n =>
    show (if e.valid s then some (b.depreciate e.srt t (e.mat s) (e.rep s a) b!"monthly" n) else none) = _
    have hd : depreciatePost t (e.mat s) (e.rep s a) b!"monthly" n = depreciatePost e.today (e.mat s) (e.rep s a) b!"monthly" n := by
      funext p
      unfold depreciatePost
      rw [instalments_day t e.today]
    unfold Book.depreciate
    rw [hd]
    rfl
  | _ => rfl

/-- Operations that mean the same on both days. -/
def DayFree (e : OpEnv) (t : Int) (op : Str) : Prop := parsePrim (e.onDay t) op = parsePrim e op ∧ parsePrim e op ≠ some (.combine b!"today")

theorem runAll_congr {f g : Str → Book → OpEnd} : ∀ {l : List Str}, (∀ o ∈ l, ∀ b, f o b = g o b) → ∀ b, runAll f l b = runAll g l b
  | [], _, _ => rfl
  | o :: l, h, b => by
    simp only [runAll]
    rw [h o (by simp)]
    cases g o b with
    | ok c => exact runAll_congr (fun o ho => h o (by simp [ho])) c
    | _ => rfl

theorem bookOp_day {e : OpEnv} {t : Int} {mac : Str → Option (List Str)} {args : List Str} (h : ∀ op, Used mac args op → DayFree e t op) :
    ∀ (n : Nat) (op : Str), Used mac args op → ∀ b, bookOp (e.onDay t) mac n op b = bookOp e mac n op b
  | 0, _, _, _ => rfl
  | n + 1, op, hu, b => by
    simp only [bookOp]
    cases hm : mac op with
    | some ms =>
      simp only
      rw [runAll_congr (fun o ho => bookOp_day h n o (.within hu hm ho))]
    | none =>
      simp only [primOp]
      rw [(h op hu).1]
      cases hp : parsePrim e op with
      | none => rfl
      | some p =>
        simp only
        rw [apply_day e t (fun hh => (h op hu).2 (by rw [hp, hh]))]

theorem opsCmd_day {e : OpEnv} {t : Int} {a : AppConf} {args : List Str} (h : ∀ op, Used a.macros args op → DayFree e t op) (fuel : Nat) (b : Book) :
    opsCmd (e.onDay t) fuel a args b = opsCmd e fuel a args b := by
  unfold opsCmd bookOps
  rw [runAll_congr (f := fun op b => (bookOp (e.onDay t) a.macros fuel op b).wrap op) (g := fun op b => (bookOp e a.macros fuel op b).wrap op)
    fun o ho b => by rw [bookOp_day h fuel o (.given ho)]]

/-- A date that is no period words means the same on every day. -/
theorem dateFromString_day {s : Str} (h : ¬ PeriodWords s) (t t' : Int) : dateFromString t s = dateFromString t' s := by
  unfold dateFromString
  cases h1 : reYMD s with
  | some x => rfl
  | none =>
    cases h2 : reDMY s with
    | some x => rfl
    | none =>
      cases h3 : reDesc s with
      | none => rfl
      | some x =>
        exfalso
        apply h
        unfold reDesc at h3
        simp only at h3
        split at h3
        · rename_i hc
          obtain ⟨hw, hsp, hu⟩ := hc
          refine ⟨_, _, _, ?_, by rcases hw with h | h | h; exacts [.inr (.inl h), .inl h, .inr (.inr h)], hsp, ?_,
            by rcases hu with h | h | h; exacts [.inr (.inr h), .inl h, .inr (.inl h)]⟩
          · rw [List.append_assoc, List.takeWhile_append_dropWhile, List.take_append_drop]
          · intro c hc
            have := List.all_eq_true.1 List.all_takeWhile c hc
            simp only [Bool.or_eq_true, decide_eq_true_eq] at this
            rcases this with ((h | h) | h) | h <;> simp [WordSep, h]
        · simp at h3

/-- The same month of the same year. -/
def SameMonth (t t' : Int) : Prop := ∃ x y : YMD, x.Valid ∧ y.Valid ∧ t = x.code ∧ t' = y.code ∧ x.y = y.y ∧ x.m = y.m

theorem dateFromString_month {t t' : Int} (h : SameMonth t t') (s : Str) : dateFromString t s = dateFromString t' s := by
  obtain ⟨x, y, hx, hy, rfl, rfl, h1, h2⟩ := h
  unfold dateFromString
  cases reYMD s with
  | some v => rfl
  | none =>
    cases reDMY s with
    | some v => rfl
    | none =>
      cases reDesc s with
      | none => rfl
      | some v =>
        simp only [floorMonth_code hx, floorMonth_code hy, floorQuarter_code hx, floorQuarter_code hy, floorYear_code hx, floorYear_code hy, h1, h2]

/-- Operations whose dates read alike on both days, and which do not end in `today`. -/
theorem dayFree {e : OpEnv} {t : Int} {op : Str} (hd : ∀ front s, op = front ++ s → dateFromString t s = dateFromString e.today s) (ht : ¬ EndsToday op) :
    DayFree e t op := by
  constructor
  · unfold parsePrim
    cases hp : opPrefix op with
    | none => rfl
    | some x =>
      have hop := opPrefix_inv hp
      have := hd (x.1 ++ [61]) x.2 (by rw [hop]; simp)
      show _ = _
      simp only [OpEnv.onDay, this]
      rfl
  · intro h
    unfold parsePrim at h
    cases hp : opPrefix op with
    | none => rw [hp] at h; cases h
    | some x =>
      have hop := opPrefix_inv hp
      rw [hp] at h
      obtain ⟨ty, act⟩ := x
      simp only at h
      split at h
      · cases hx : reTwo act <;> simp [hx] at h
      split at h
      · cases hx : reMap act <;> simp [hx] at h
      split at h
      · cases hx : reNum act with
        | none => simp [hx] at h
        | some v => cases hy : parseFloat e v.2.2 <;> simp [hx, hy] at h
      split at h
      · split at h <;> simp at h
      split at h
      · split at h <;> simp at h
      split at h
      · cases hx : floorTypes.find? fun t => decide (act.map lower = t) with
        | none => rw [hx] at h; cases h
        | some v =>
          rw [hx] at h
          have hv : v = b!"today" := by
            have := Option.some.inj h
            injection this
          have := List.find?_some hx
          simp only [decide_eq_true_eq] at this
          exact ht ⟨ty ++ [61], act, by rw [hop]; simp, by rw [this, hv]⟩
      split at h
      · cases hx : reNum act with
        | none => simp [hx] at h
        | some v => cases hy : atoi v.2.2 <;> simp [hx, hy] at h
      · cases h

/-- The words mean the same on both days. -/
theorem used_free {e : OpEnv} {t : Int} {mac : Str → Option (List Str)} {args : List Str}
    (h : ∀ op, Used mac args op → ¬ EndsToday op ∧ ¬ EndsPeriodWords op) : ∀ op, Used mac args op → DayFree e t op :=
  fun op hu => dayFree (fun f s hs => dateFromString_day (fun hp => (h op hu).2 ⟨f, s, hs, hp⟩) _ _) (h op hu).1

theorem used_month {e : OpEnv} {t : Int} (hm : SameMonth t e.today) {mac : Str → Option (List Str)} {args : List Str}
    (h : ∀ op, Used mac args op → ¬ EndsToday op) : ∀ op, Used mac args op → DayFree e t op :=
  fun op hu => dayFree (fun _ s _ => dateFromString_month hm s) (h op hu)

theorem report_day {le : Env} {depth : Nat} {e : OpEnv} {t : Int} {fuel : Nat} {a : AppConf} {r : ReportConf} {args : List Str}
    (h : ∀ op, Used a.macros args op → DayFree e t op) (hc : r.combineby ≠ b!"today") (o : Int → Str → List Str → List Str) :
    reportCmd le depth (e.onDay t) fuel a r o args = reportCmd le depth e fuel a r o args := by
  unfold reportCmd
  have h1 : opsCmd (e.onDay t) fuel a args = opsCmd e fuel a args := funext fun b => opsCmd_day h fuel b
  have h2 : reportTxns (e.onDay t) a r o = reportTxns e a r o := by
    funext b
    have := splitBy_day hc e.srt t e.today b
    show (if r.typ = b!"Beancount" then CmdEnd.ok (b.transactions e.srt)
      else (convertCmd a r.convert (if r.combineby ≠ b!"skip" then b.splitBy e.srt t r.combineby else b)).bind (sumCmd e a r o)) = _
    rw [this]
    rfl
  rw [h1, h2]
  rfl

theorem export_day {le : Env} {depth : Nat} {e : OpEnv} {t : Int} {fuel : Nat} {a : AppConf} {args : List Str}
    (h : ∀ op, Used a.macros args op → DayFree e t op) (l : Lang) (x : PrintEnv) (typ : Str) :
    exportCmd le depth (e.onDay t) fuel a l x typ args = exportCmd le depth e fuel a l x typ args := by
  unfold exportCmd
  have h1 : opsCmd (e.onDay t) fuel a args = opsCmd e fuel a args := funext fun b => opsCmd_day h fuel b
  rw [h1]
  rfl

theorem registerRows_day {e : OpEnv} {t : Int} {r : RegisterConf} (hb : dateFromString t r.beginDate = dateFromString e.today r.beginDate)
    (he : dateFromString t r.endDate = dateFromString e.today r.endDate) (a : AppConf) (mat : Str → Bool) (b : Book) :
    registerRows (e.onDay t) a r mat b = registerRows e a r mat b := by
  unfold registerRows
  have : filterByDateStr t r.beginDate r.endDate = filterByDateStr e.today r.beginDate r.endDate := by
    funext l
    unfold filterByDateStr
    rw [hb, he]
  show CmdEnd.orCrash (((b.extractRegister e.srt a.baseCCY mat r.split).bind (filterByDateStr t r.beginDate r.endDate)).map _) = _
  rw [this]

theorem registerSections_day {e : OpEnv} {t : Int} {r : RegisterConf} (hb : dateFromString t r.beginDate = dateFromString e.today r.beginDate)
    (he : dateFromString t r.endDate = dateFromString e.today r.endDate) (a : AppConf) (b : Book) :
    ∀ l, registerSections (e.onDay t) a r b l = registerSections e a r b l
  | [] => rfl
  | c :: l => by
    simp only [registerSections]
    rw [registerSections_day hb he a b l]
    show (if e.valid _ then (registerRows (e.onDay t) a r (e.mat _) b).bind _ else _) = _
    rw [registerRows_day hb he]

theorem register_day {le : Env} {depth : Nat} {e : OpEnv} {t : Int} {fuel : Nat} {a : AppConf} {r : RegisterConf} {args : List Str}
    (h : ∀ op, Used a.macros args op → DayFree e t op) (hb : dateFromString t r.beginDate = dateFromString e.today r.beginDate)
    (he : dateFromString t r.endDate = dateFromString e.today r.endDate) (arg : Str) :
    registerCmd le depth (e.onDay t) fuel a r args arg = registerCmd le depth e fuel a r args arg := by
  unfold registerCmd
  have h1 : opsCmd (e.onDay t) fuel a args = opsCmd e fuel a args := funext fun b => opsCmd_day h fuel b
  have h2 : ∀ b, registerSections (e.onDay t) a r b = registerSections e a r b := fun b => funext (registerSections_day hb he a b)
  have h3 : ∀ m b, registerRows (e.onDay t) a r m b = registerRows e a r m b := fun m b => registerRows_day hb he a m b
  simp only [h1, h2, h3]
  rfl

/-- **C159** (a): a report, of which neither the operations (given or in macros) nor the option `--combine` name the present day or a period near it,
is the same whatever the day. -/
theorem c159_report (le : Env) (depth : Nat) (e : OpEnv) (t : Int) (fuel : Nat) (a : AppConf) (r : ReportConf) (o : Int → Str → List Str → List Str)
    (args : List Str) (h : ∀ op, Used a.macros args op → ¬ EndsToday op ∧ ¬ EndsPeriodWords op) (hc : r.combineby ≠ b!"today") :
    reportCmd le depth (e.onDay t) fuel a r o args = reportCmd le depth e fuel a r o args :=
  report_day (used_free h) hc o

/-- **C159** (b): so is an export. -/
theorem c159_export (le : Env) (depth : Nat) (e : OpEnv) (t : Int) (fuel : Nat) (a : AppConf) (l : Lang) (x : PrintEnv) (typ : Str)
    (args : List Str) (h : ∀ op, Used a.macros args op → ¬ EndsToday op ∧ ¬ EndsPeriodWords op) :
    exportCmd le depth (e.onDay t) fuel a l x typ args = exportCmd le depth e fuel a l x typ args :=
  export_day (used_free h) l x typ

/-- **C159** (c): and a register, when `--begin` and `--end` too do not name a period near the present day. -/
theorem c159_register (le : Env) (depth : Nat) (e : OpEnv) (t : Int) (fuel : Nat) (a : AppConf) (r : RegisterConf)
    (args : List Str) (arg : Str) (h : ∀ op, Used a.macros args op → ¬ EndsToday op ∧ ¬ EndsPeriodWords op)
    (hb : ¬ PeriodWords r.beginDate) (he : ¬ PeriodWords r.endDate) :
    registerCmd le depth (e.onDay t) fuel a r args arg = registerCmd le depth e fuel a r args arg :=
  register_day (used_free h) (dateFromString_day hb _ _) (dateFromString_day he _ _) arg

/-- **C159** (d): with periods near the present day but without `today`, a report, an export and a register are the same on all days of a month. -/
theorem c159_same_month (le : Env) (depth : Nat) (e : OpEnv) (t : Int) (hm : SameMonth t e.today) (fuel : Nat) (a : AppConf)
    (args : List Str) (h : ∀ op, Used a.macros args op → ¬ EndsToday op) :
    (∀ (r : ReportConf) (o : Int → Str → List Str → List Str), r.combineby ≠ b!"today" → reportCmd le depth (e.onDay t) fuel a r o args = reportCmd le depth e fuel a r o args) ∧
    (∀ l x typ, exportCmd le depth (e.onDay t) fuel a l x typ args = exportCmd le depth e fuel a l x typ args) ∧
    (∀ (r : RegisterConf) (arg : Str), registerCmd le depth (e.onDay t) fuel a r args arg = registerCmd le depth e fuel a r args arg) :=
  ⟨fun _ o hc => report_day (used_month hm h) hc o, fun l x typ => export_day (used_month hm h) l x typ,
    fun r arg => register_day (used_month hm h) (dateFromString_month hm _) (dateFromString_month hm _) arg⟩

/-- **C159** (e): a report without operations depends on the day only by the option `--combine today`. -/
theorem c159_plain (le : Env) (depth : Nat) (e : OpEnv) (t : Int) (fuel : Nat) (a : AppConf) (r : ReportConf) (o : Int → Str → List Str → List Str)
    (hc : r.combineby ≠ b!"today") : reportCmd le depth (e.onDay t) fuel a r o [] = reportCmd le depth e fuel a r o [] :=
  c159_report le depth e t fuel a r o [] (fun op hu => by
    exfalso
    have : ∀ op, Used a.macros [] op → False := by
      intro op hu
      induction hu with
      | given h => simp at h
      | within _ _ _ ih => exact ih
    exact this op hu) hc

/-- A report of the year file on a day. -/
def dayLines (day : Int) (by_ : Str) (args : List Str) : Option (List (List Line)) :=
  (reportCmd (demoEnv [(b!"a", yearFile)]) 1 (plainOps.onDay day) 1 demoApp (yearReport false by_) (fun _ _ l => l) args).lines

theorem no_macros {args : List Str} {op : Str} (h : Used demoApp.macros args op) : op ∈ args := by
  cases h with
  | given h => exact h
  | within _ h _ => cases h

/-- Words with neither `today` nor a period in them, by their last letters. -/
theorem ends_not {op : Str} {c : Nat} (h : op.getLast? = some c) (hc : lower c ≠ 121 ∧ lower c ≠ 114 ∧ lower c ≠ 104 ∧ c ≠ 114 ∧ c ≠ 104) :
    ¬ EndsToday op ∧ ¬ EndsPeriodWords op := by
  constructor
  · rintro ⟨f, s, rfl, hs⟩
    rcases List.eq_nil_or_concat s with rfl | ⟨s', x, rfl⟩
    · cases hs
    · simp only [List.concat_eq_append, ← List.append_assoc, List.getLast?_append, List.getLast?_singleton, Option.some_or, Option.some.injEq] at h
      subst h
      have := congrArg List.getLast? hs
      simp only [List.concat_eq_append, List.map_append, List.map_cons, List.map_nil, List.getLast?_append, List.getLast?_singleton, Option.some_or] at this
      exact hc.1 (Option.some.inj this)
  · rintro ⟨f, s, rfl, w, sp, u, rfl, -, -, -, hu⟩
    rcases hu with rfl | rfl | rfl <;>
      simp only [List.getLast?_append, List.getLast?_cons_cons, List.getLast?_singleton, Option.some_or, Option.some.injEq] at h <;> subst h
    · exact hc.2.2.2.1 rfl
    · exact hc.2.2.2.1 rfl
    · exact hc.2.2.2.2 rfl

/-- The hypotheses of C159 (a) to (c), for two operations; with them the days 2020/07/15 and 2024/02/29 show the same. -/
example : (∀ op, Used demoApp.macros [b!"since=2020-07", b!"map=/A/Z/"] op → ¬ EndsToday op ∧ ¬ EndsPeriodWords op) ∧
    dayLines 20200715 b!"yearly" [b!"since=2020-07", b!"map=/A/Z/"] = some [[⟨20200101, [], b!"B", b!"U", -10⟩, ⟨20200101, [], b!"Z", b!"U", 10⟩]] ∧
    dayLines 20240229 b!"yearly" [b!"since=2020-07", b!"map=/A/Z/"] = dayLines 20200715 b!"yearly" [b!"since=2020-07", b!"map=/A/Z/"] := by
  refine ⟨fun op hu => ?_, by decide +kernel, by decide +kernel⟩
  have := no_macros hu
  simp only [List.mem_cons, List.not_mem_nil, or_false] at this
  rcases this with rfl | rfl
  · exact ends_not (c := 55) rfl (by decide)
  · exact ends_not (c := 47) rfl (by decide)

/-- The words do matter: `this month` from one month to the next, and `today` from one day to the next. -/
example : dayLines 20200615 b!"skip" [b!"asof=this month"] ≠ dayLines 20200715 b!"skip" [b!"asof=this year"] ∧
    dayLines 20200715 b!"skip" [b!"asof=this month"] = dayLines 20200731 b!"skip" [b!"asof=this month"] ∧
    dayLines 20200715 b!"skip" [b!"asof=this month"] ≠ dayLines 20200815 b!"skip" [b!"asof=this month"] ∧
    dayLines 20200715 b!"skip" [b!"combine=Today"] ≠ dayLines 20200716 b!"skip" [b!"combine=Today"] ∧
    dayLines 20200715 b!"today" [] ≠ dayLines 20200716 b!"today" [] := by decide +kernel

/-- The hypothesis of (d). -/
example : SameMonth 20200715 20200731 ∧ ¬ SameMonth 20200731 20200801 := by
  refine ⟨⟨⟨2020, 7, 15⟩, ⟨2020, 7, 31⟩, by decide, by decide, by decide, by decide, rfl, rfl⟩, ?_⟩
  rintro ⟨x, y, hx, hy, h1, h2, h3, h4⟩
  have k1 := hx.2.2.2.2
  have k2 := hy.2.2.2.2
  have l1 := daysIn_le x.y x.m
  have l2 := daysIn_le y.y y.m
  unfold YMD.code at h1 h2
  have := hx.2.2.2.1
  omega

end Verif
