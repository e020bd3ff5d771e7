import Verif.Props.OnDay
import Verif.Props.MainMacros

/-! # C159: the day on which the program is started -/

namespace Verif
open Spec

/-- The same computer on another day. -/
def World.onDay (w : World) (t : Int) : World := { w with ops := w.ops.onDay t }

theorem reportFull_day {le : Env} {depth : Nat} {e : OpEnv} {t : Int} {fuel : Nat} {a : AppConf} {r : ReportConf} {args : List Str}
    (h : ∀ op, Used a.macros args op → DayFree e t op) (hc : r.combineby ≠ b!"today") (o : Int → Str → List Str → List Str) (l : Lang) (x : PrintEnv)
    (sc : ScreenEnv) (css : Str) : reportFull le depth (e.onDay t) fuel a r o l x sc css args = reportFull le depth e fuel a r o l x sc css args := by
  unfold reportFull
  have h1 : opsCmd (e.onDay t) fuel a args = opsCmd e fuel a args := funext fun b => opsCmd_day h fuel b
  have h2 : reportShow (e.onDay t) a r o l x sc css = reportShow e a r o l x sc css := by
    funext b
    have := splitBy_day hc e.srt t e.today b
    unfold reportShow
    show (if r.typ = b!"Beancount" then _
      else (convertCmd a r.convert (if r.combineby ≠ b!"skip" then b.splitBy e.srt t r.combineby else b)).bind _) = _
    rw [this]
    rfl
  rw [h1, h2]
  rfl

theorem registerFullSections_day {e : OpEnv} {t : Int} {r : RegisterConf} (hb : dateFromString t r.beginDate = dateFromString e.today r.beginDate)
    (he : dateFromString t r.endDate = dateFromString e.today r.endDate) (a : AppConf) (l : Lang) (x : PrintEnv) (sc : ScreenEnv) (typ : Str) (b : Book) :
    ∀ accts, registerFullSections (e.onDay t) a r l x sc typ b accts = registerFullSections e a r l x sc typ b accts
  | [] => rfl
  | c :: accts => by
    simp only [registerFullSections]
    rw [registerFullSections_day hb he a l x sc typ b accts]
    show (if e.valid _ then (registerRows (e.onDay t) a r (e.mat _) b).bind _ else _) = _
    rw [registerRows_day hb he]

theorem registerFull_day {le : Env} {depth : Nat} {e : OpEnv} {t : Int} {fuel : Nat} {a : AppConf} {r : RegisterConf} {args : List Str}
    (h : ∀ op, Used a.macros args op → DayFree e t op) (hb : dateFromString t r.beginDate = dateFromString e.today r.beginDate)
    (he : dateFromString t r.endDate = dateFromString e.today r.endDate) (l : Lang) (x : PrintEnv) (sc : ScreenEnv) (typ : Str) (arg : Str) :
    registerFull le depth (e.onDay t) fuel a r l x sc typ args arg = registerFull le depth e fuel a r l x sc typ args arg := by
  unfold registerFull
  have h1 : opsCmd (e.onDay t) fuel a args = opsCmd e fuel a args := funext fun b => opsCmd_day h fuel b
  have h2 : ∀ b, registerFullSections (e.onDay t) a r l x sc typ b = registerFullSections e a r l x sc typ b :=
    fun b => funext (registerFullSections_day hb he a l x sc typ b)
  have h3 : ∀ m b, registerRows (e.onDay t) a r m b = registerRows e a r m b := fun m b => registerRows_day hb he a m b
  simp only [h1, h2, h3]
  rfl

/-- **C159** (f), the program: `report` ends and prints the same on every day, if neither the operations of the line nor those of the macros used there end
in `today` or a period near the present, and it is not set, by flag or file, to combine by the present day. -/
theorem c159_program_report (w : World) (t : Int) (env : Option Str) (keys : Keys) (other : List Str → Conf → Exit) (name : Str) (l : CmdLine)
    (hn : name ∈ [b!"report", b!"trans", b!"transactions"]) (hk : ∀ x ∈ keys, KeyGood x.1 x.2) (hl : l.Good w.flags reportFlagTable)
    (hh : asksHelp (l.flags reportFlagTable) = false) (h : ∀ op, Used (fileMacros keys) l.words op → ¬ EndsToday op ∧ ¬ EndsPeriodWords op)
    (hc : (reportOf w.flags keys (l.flags reportFlagTable)).combineby ≠ b!"today") :
    mainCmd (w.onDay t) env (some keys) other (name :: l.text) = mainCmd w env (some keys) other (name :: l.text) := by
  rw [c134_report w env keys other name l hn hk hl hh, c134_report (w.onDay t) env keys other name l hn hk hl hh]
  have := reportFull_day (le := w.files) (depth := w.depth) (e := w.ops) (t := t) (fuel := w.fuel) (a := appOf keys (l.flags reportFlagTable))
    (args := l.words) (used_free h) hc w.order (w.lang (langOf env keys (l.flags reportFlagTable))) w.print
    { w.screen with colour := colourOf keys (l.flags reportFlagTable) } (cssOf keys (l.flags reportFlagTable))
  rw [← this]
  rfl

/-- **C159** (f), `export`. -/
theorem c159_program_export (w : World) (t : Int) (env : Option Str) (keys : Keys) (other : List Str → Conf → Exit) (l : CmdLine)
    (hk : ∀ x ∈ keys, KeyGood x.1 x.2) (hl : l.Good w.flags exportFlagTable)
    (hh : asksHelp (l.flags exportFlagTable) = false) (h : ∀ op, Used (fileMacros keys) l.words op → ¬ EndsToday op ∧ ¬ EndsPeriodWords op) :
    mainCmd (w.onDay t) env (some keys) other (b!"export" :: l.text) = mainCmd w env (some keys) other (b!"export" :: l.text) := by
  rw [c134_export w env keys other l hk hl hh, c134_export (w.onDay t) env keys other l hk hl hh]
  have := export_day (le := w.files) (depth := w.depth) (e := w.ops) (t := t) (fuel := w.fuel) (a := appOf keys (l.flags exportFlagTable))
    (args := l.words) (used_free h) (w.lang (langOf env keys (l.flags exportFlagTable))) w.print (expTypeOf w.flags keys (l.flags exportFlagTable))
  rw [← this]
  rfl

/-- **C159** (f), `register`: the words before the last, which is the account, are operations; the dates to begin and end with are those of the flags or the
file. -/
theorem c159_program_register (w : World) (t : Int) (env : Option Str) (keys : Keys) (other : List Str → Conf → Exit) (l : CmdLine) (args : List Str)
    (acct : Str) (hk : ∀ x ∈ keys, KeyGood x.1 x.2) (hl : l.Good w.flags registerFlagTable)
    (hh : asksHelp (l.flags registerFlagTable) = false) (ha : l.words = args ++ [acct])
    (h : ∀ op, Used (fileMacros keys) args op → ¬ EndsToday op ∧ ¬ EndsPeriodWords op)
    (hb : ¬ PeriodWords (registerOf w.flags keys (l.flags registerFlagTable)).beginDate)
    (he : ¬ PeriodWords (registerOf w.flags keys (l.flags registerFlagTable)).endDate) :
    mainCmd (w.onDay t) env (some keys) other (b!"register" :: l.text) = mainCmd w env (some keys) other (b!"register" :: l.text) := by
  rw [c134_register w env keys other l args acct hk hl hh ha, c134_register (w.onDay t) env keys other l args acct hk hl hh ha]
  have := registerFull_day (le := w.files) (depth := w.depth) (e := w.ops) (t := t) (fuel := w.fuel) (a := appOf keys (l.flags registerFlagTable))
    (r := registerOf w.flags keys (l.flags registerFlagTable)) (args := args) (used_free h) (dateFromString_day hb _ _) (dateFromString_day he _ _)
    (w.lang (langOf env keys (l.flags registerFlagTable))) w.print { w.screen with colour := colourOf keys (l.flags registerFlagTable) }
    (regTypeOf w.flags keys (l.flags registerFlagTable)) acct
  rw [← this]
  rfl

/-- **C159** (f), `accts` and `ccy`: always. -/
theorem c159_program_lists (w : World) (t : Int) (env : Option Str) (keys : Keys) (other : List Str → Conf → Exit) (name : Str) (args : List Str)
    (hn : name ∈ [b!"accts", b!"accounts", b!"ccy"]) :
    mainCmd (w.onDay t) env (some keys) other (name :: args) = mainCmd w env (some keys) other (name :: args) := by
  simp only [List.mem_cons, List.not_mem_nil, or_false] at hn
  rcases hn with rfl | rfl | rfl <;> rfl

/-- The hypotheses of (f), for the line `-l x.ledger fl --type=json --convert=false Asset -- -x` and a file with a macro. -/
example : (∀ x ∈ demoToml, KeyGood x.1 x.2) ∧ demoCmdLine.Good demoFlagEnv reportFlagTable ∧
    asksHelp (demoCmdLine.flags reportFlagTable) = false ∧ demoCmdLine.words = [b!"fl", b!"Asset", b!"-x"] ∧
    (∀ op, Used (fileMacros demoToml) demoCmdLine.words op → ¬ EndsToday op ∧ ¬ EndsPeriodWords op) ∧
    (reportOf demoFlagEnv demoToml (demoCmdLine.flags reportFlagTable)).combineby ≠ b!"today" := by
  have hw : demoCmdLine.words = [b!"fl", b!"Asset", b!"-x"] := by decide +kernel
  refine ⟨demoToml_good, demoCmdLine_good, by decide +kernel, hw, fun op hu => ?_, by decide +kernel⟩
  have : op ∈ [b!"fl", b!"Asset", b!"-x"] := by
    induction hu with
    | given h => rw [← hw]; exact h
    | within _ h _ ih =>
      exfalso
      simp only [List.mem_cons, List.not_mem_nil, or_false] at ih
      rcases ih with rfl | rfl | rfl
      · exact absurd h (by rw [show fileMacros demoToml b!"fl" = none by decide +kernel]; simp)
      · exact absurd h (by rw [show fileMacros demoToml b!"Asset" = none by decide +kernel]; simp)
      · exact absurd h (by rw [show fileMacros demoToml b!"-x" = none by decide +kernel]; simp)
  simp only [List.mem_cons, List.not_mem_nil, or_false] at this
  rcases this with rfl | rfl | rfl
  · exact ends_not (c := 108) rfl (by decide)
  · exact ends_not (c := 116) rfl (by decide)
  · exact ends_not (c := 120) rfl (by decide)

/-- The macro counts where it is used. -/
example : Used (fileMacros demoToml) [b!"q"] b!"A" := .within (.given (by simp)) (show fileMacros demoToml b!"q" = some [b!"fl", b!"A"] by decide +kernel) (by simp)

end Verif
