import Verif.Props.Main
import Verif.Props.RegisterFull

/-! # C135: `register --zero` -/

namespace Verif
open Spec

theorem lastOf_filter {n m : Str} (h : n ≠ m) (l : List (Str × Str)) : lastOf n (l.filter fun x => decide (x.1 ≠ m)) = lastOf n l := by
  induction l with
  | nil => rfl
  | cons x l ih =>
    obtain ⟨k, v⟩ := x
    rw [List.filter_cons, lastOf]
    by_cases hk : k = m
    · subst hk
      simp only [ne_eq, not_true_eq_false, decide_false, Bool.false_eq_true, if_false]
      rw [ih, if_neg (Ne.symm h), Option.or_none]
    · simp only [ne_eq, hk, not_false_eq_true, decide_true, if_true]
      rw [lastOf, ih]

/-- C135, what holds instead: the switch `--zero` changes nothing.  Whatever the ledger, the settings and the operations, two command lines
that differ in it alone have the same effect.  Missing: that the balances begin at zero. -/
theorem c135_unused_partial (w : World) (env : Option Str) (keys : Keys) (other : List Str → Conf → Exit) (l l' : CmdLine)
    (hl : l.Good w.flags registerFlagTable) (hl' : l'.Good w.flags registerFlagTable) (hw : l.words = l'.words)
    (hf : (l.flags registerFlagTable).filter (fun x => decide (x.1 ≠ b!"zero")) = (l'.flags registerFlagTable).filter (fun x => decide (x.1 ≠ b!"zero"))) :
    mainCmd w env (some keys) other (b!"register" :: l.text) = mainCmd w env (some keys) other (b!"register" :: l'.text) := by
  by_cases hk : ∀ x ∈ keys, KeyGood x.1 x.2
  swap
  · rw [c134_bad_file w env keys other _ hk, c134_bad_file w env keys other _ hk]
  have hlast : ∀ n, n ≠ b!"zero" → lastOf n (l.flags registerFlagTable) = lastOf n (l'.flags registerFlagTable) := by
    intro n hn
    rw [← lastOf_filter hn, hf, lastOf_filter hn]
  have hS : ∀ n d, n ≠ b!"zero" → lineStr (l.flags registerFlagTable) n d = lineStr (l'.flags registerFlagTable) n d := by
    intro n d hn; unfold lineStr; rw [hlast n hn]
  have hB : ∀ n d, n ≠ b!"zero" → lineBool (l.flags registerFlagTable) n d = lineBool (l'.flags registerFlagTable) n d := by
    intro n d hn; unfold lineBool; rw [hlast n hn]
  have hI : ∀ n d, n ≠ b!"zero" → lineInt w.flags (l.flags registerFlagTable) n d = lineInt w.flags (l'.flags registerFlagTable) n d := by
    intro n d hn; unfold lineInt; rw [hlast n hn]
  have hC : ∀ ws n d, n ≠ b!"zero" → lineChoice w.flags ws (l.flags registerFlagTable) n d = lineChoice w.flags ws (l'.flags registerFlagTable) n d := by
    intro ws n d hn; unfold lineChoice; rw [hlast n hn]
  have hh : asksHelp (l.flags registerFlagTable) = asksHelp (l'.flags registerFlagTable) := hB _ _ (by decide)
  have hreg : ([b!"register"], registerFlagTable) ∈ commandTables := by simp [commandTables]
  cases hhelp : asksHelp (l'.flags registerFlagTable) with
  | true =>
    rw [c134_help w env keys other _ _ _ l hreg (by simp) hk hl (hh.trans hhelp), c134_help w env keys other _ _ _ l' hreg (by simp) hk hl' hhelp]
  | false =>
    rcases List.eq_nil_or_concat l'.words with h | ⟨args, acct, h⟩
    · rw [c134_count w env keys other _ _ _ l hreg (by simp) hl (hh.trans hhelp) (Or.inl ⟨rfl, hw.trans h⟩),
        c134_count w env keys other _ _ _ l' hreg (by simp) hl' hhelp (Or.inl ⟨rfl, h⟩)]
    · rw [List.concat_eq_append] at h
      rw [c134_register w env keys other l args acct hk hl (hh.trans hhelp) (hw.trans h), c134_register w env keys other l' args acct hk hl' hhelp h]
      have h1 : appOf keys (l.flags registerFlagTable) = appOf keys (l'.flags registerFlagTable) := by
        unfold appOf; rw [hS _ _ (by decide), hS _ _ (by decide), hS _ _ (by decide), hB _ _ (by decide)]
      have h2 : registerOf w.flags keys (l.flags registerFlagTable) = registerOf w.flags keys (l'.flags registerFlagTable) := by
        unfold registerOf
        rw [hS _ _ (by decide), hS _ _ (by decide), hI _ _ (by decide), hB _ _ (by decide), hB _ _ (by decide), hB _ _ (by decide), hB _ _ (by decide)]
      have h3 : langOf env keys (l.flags registerFlagTable) = langOf env keys (l'.flags registerFlagTable) := hS _ _ (by decide)
      have h4 : colourOf keys (l.flags registerFlagTable) = colourOf keys (l'.flags registerFlagTable) := hB _ _ (by decide)
      have h5 : regTypeOf w.flags keys (l.flags registerFlagTable) = regTypeOf w.flags keys (l'.flags registerFlagTable) := hC _ _ _ (by decide)
      rw [h1, h2, h3, h4, h5]

/-- The surroundings of the example. -/
def zeroWorld : World where
  files := demoEnv [(b!"a", b!"2020/01/01 P\n  A 1 E\n  C -1 E\n2020/01/02 Q\n  A 2 E\n  C -2 E\n")]
  depth := 1
  ops := dotOps
  fuel := 1
  order := fun _ _ l => l
  ccyOrder := id
  lang := fun _ => .english
  print := demoPrint
  screen := wideScreen
  flags := demoFlagEnv
  usage := id

/-- `--ledger=a --zero --begin=2020/01/02 --combined --asc --type=CSV A`. -/
def zeroLine (zero : Bool) : CmdLine :=
  ⟨[.eq b!"ledger" b!"a"] ++ (if zero then [.alone b!"zero"] else []) ++
    [.eq b!"begin" b!"2020/01/02", .alone b!"combined", .alone b!"asc", .eq b!"type" b!"CSV", .word b!"^A$"], none⟩

theorem zeroLine_good (zero : Bool) : (zeroLine zero).Good demoFlagEnv registerFlagTable := by
  constructor
  · intro p hp
    have : p ∈ [LinePart.eq b!"ledger" b!"a", .alone b!"zero", .eq b!"begin" b!"2020/01/02", .alone b!"combined", .alone b!"asc", .eq b!"type" b!"CSV",
        .word b!"^A$"] := by
      cases zero <;> simp [zeroLine] at hp ⊢ <;> tauto
    simp only [List.mem_cons, List.not_mem_nil, or_false] at this
    rcases this with rfl | rfl | rfl | rfl | rfl | rfl | rfl
    · show kindOf registerFlagTable b!"ledger" ≠ none
      simp [kindOf, registerFlagTable, appFlagTable]
    · rfl
    · show kindOf registerFlagTable b!"begin" ≠ none
      simp [kindOf, registerFlagTable, appFlagTable]
    · rfl
    · rfl
    · show kindOf registerFlagTable b!"type" ≠ none
      simp [kindOf, registerFlagTable, appFlagTable]
    · intro h; simp at h
  · intro x hx k hk
    have : x ∈ [(b!"ledger", b!"a"), (b!"zero", b!"true"), (b!"begin", b!"2020/01/02"), (b!"combined", b!"true"), (b!"asc", b!"true"), (b!"type", b!"CSV")] := by
      cases zero <;> simp [zeroLine, CmdLine.flags, LinePart.flags] at hx ⊢ <;> tauto
    simp only [List.mem_cons, List.not_mem_nil, or_false] at this
    rcases this with rfl | rfl | rfl | rfl | rfl | rfl
    · cases (show kindOf registerFlagTable b!"ledger" = some .text from rfl).symm.trans hk; trivial
    · cases (show kindOf registerFlagTable b!"zero" = some .switch from rfl).symm.trans hk; left; decide +kernel
    · cases (show kindOf registerFlagTable b!"begin" = some .text from rfl).symm.trans hk; trivial
    · cases (show kindOf registerFlagTable b!"combined" = some .switch from rfl).symm.trans hk; left; decide +kernel
    · cases (show kindOf registerFlagTable b!"asc" = some .switch from rfl).symm.trans hk; left; decide +kernel
    · cases (show kindOf registerFlagTable b!"type" = some (.choice _) from rfl).symm.trans hk
      exact ⟨b!"CSV", by decide +kernel, by decide +kernel⟩

/-- The text of what was printed, if it ended well. -/
def Exit.text? : Exit → Option Str
  | .done 0 ps => piecesText ps
  | _ => none

/-- C135 is false: with `--zero`, when one row is shown, its balance should be its amount.  It is not: the payments before the first date count. -/
theorem c135_zero_fails : ¬ ∀ (w : World) (env : Option Str) (keys : Keys) (other : List Str → Conf → Exit) (l : CmdLine),
    (∀ x ∈ keys, KeyGood x.1 x.2) → l.Good w.flags registerFlagTable → lineBool (l.flags registerFlagTable) b!"zero" false = true →
    ∀ date payee acct counter ccy amount balance : Str,
      (mainCmd w env (some keys) other (b!"register" :: l.text)).text? = some (b!"date,payee,account,counterAccount,ccy,amount,balance\n" ++
        date ++ b!"," ++ payee ++ b!"," ++ acct ++ b!"," ++ counter ++ b!"," ++ ccy ++ b!"," ++ amount ++ b!"," ++ balance ++ b!"\n") →
      44 ∉ date ++ payee ++ acct ++ counter ++ ccy ++ amount ++ balance → amount = balance := by
  intro h
  have := h zeroWorld none [] (fun _ _ => .never) (zeroLine true) (by simp) (zeroLine_good true) (by decide +kernel)
    b!"2020/01/02" b!"Q" b!"A" b!"C" b!"E" b!"2.000000" b!"3.000000" (by decide +kernel) (by decide +kernel)
  revert this
  decide +kernel

/-- The same with and without, concretely. -/
example : mainCmd zeroWorld none (some []) (fun _ _ => .never) (b!"register" :: (zeroLine true).text) =
    mainCmd zeroWorld none (some []) (fun _ _ => .never) (b!"register" :: (zeroLine false).text) :=
  c135_unused_partial zeroWorld none [] _ _ _ (zeroLine_good true) (zeroLine_good false) (by decide +kernel) (by decide +kernel)

end Verif
