import Verif.Spec.Order
import Verif.Spec.Calendar

/-! # Specification: operations whose order does not matter, and combinations that repeat each other -/

namespace Verif.Spec

/-- `asof=`, `since=`: which transactions are kept. -/
inductive Chooses : Prim → Prop
  | asof (d : Int) : Chooses (.asof d)
  | since (d : Int) : Chooses (.since d)

/-- `map=`, `move=`: to which accounts the amounts go. -/
inductive Renames : Prim → Prop
  | map (s r alt : Str) : Renames (.map s r alt)
  | move (s a : Str) (f : Rat) : Renames (.move s a f)

/-- Operations that concern different things: days, accounts, currencies.  (Depreciation moves amounts to other days and other accounts.) -/
inductive Independent : Prim → Prim → Prop
  | days {p q : Prim} : Chooses p → Chooses q → Independent p q
  | daysAccounts {p q : Prim} : Chooses p → Renames q → Independent p q
  | daysCurrency {p : Prim} {s r : Str} : Chooses p → Independent p (.mapccy s r)
  | periodsAccounts {t : Str} {q : Prim} : Renames q → Independent (.combine t) q
  | periodsCurrency {t s r : Str} : Independent (.combine t) (.mapccy s r)
  | accountsCurrency {p : Prim} {s r : Str} : Renames p → Independent p (.mapccy s r)
  | depreciationCurrency {s a : Str} {n : Int} {s' r : Str} : Independent (.depreciate s a n) (.mapccy s' r)
  | symm {p q : Prim} : Independent p q → Independent q p

/-- Every period of the first kind lies in one of the second. -/
inductive Finer : Str → Str → Prop
  | same {t : Str} : t ∈ [b!"monthly", b!"quarterly", b!"yearly", b!"today", b!"none"] → Finer t t
  | monthQuarter : Finer b!"monthly" b!"quarterly"
  | monthYear : Finer b!"monthly" b!"yearly"
  | quarterYear : Finer b!"quarterly" b!"yearly"
  | today {t : Str} : t ∈ [b!"monthly", b!"quarterly", b!"yearly", b!"today", b!"none"] → Finer t b!"today"
  | none {t : Str} : t ∈ [b!"monthly", b!"quarterly", b!"yearly", b!"today", b!"none"] → Finer b!"none" t

/-- A period of this kind begins on this day. -/
def Begins (t : Str) (d : Int) : Prop :=
  (t = b!"monthly" ∧ ∃ x : YMD, x.Valid ∧ d = x.monthStart.code) ∨ (t = b!"quarterly" ∧ ∃ x : YMD, x.Valid ∧ d = x.quarterStart.code) ∨
    (t = b!"yearly" ∧ ∃ x : YMD, x.Valid ∧ d = x.yearStart.code) ∨ t = b!"none"

/-- Two runs of a report show the same, if both show something; and unless amounts are converted one by one (`convert` without combining), where a
missing price matters only if the amount is there, they also end in the same way. -/
def SameShown (r : ReportConf) (x y : CmdEnd (List Txn)) : Prop :=
  (∀ ts ts', x = .ok ts → y = .ok ts' → SameReport r ts ts') ∧
    (r.typ = b!"Beancount" ∨ r.convert = false ∨ r.combineby ≠ b!"skip" → EndsLike (SameReport r) x y)

end Verif.Spec
