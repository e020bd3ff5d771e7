import Verif.Model.Generate
import Verif.Spec.Import

/-! # Specification: what a script's `add` calls book -/

namespace Verif.Spec

/-- The amount a script value stands for: an integer, a decimal text or a (finite) float. -/
def amountOf (setString : Str → Option Rat) : SVal → Option Rat
  | .int i => some i
  | .str s => setString s
  | .float (.fin x) => some x
  | _ => none

/-- The (account, currency, amount) lines one pair of amount and denominator stands for. -/
def pairLines (acct cacct ccy : Str) (amt : Option Rat) (denom : Int) : List (Str × Str × Rat) :=
  match amt with
  | some r => [(acct, ccy, r / denom), (cacct, ccy, -(r / denom))]
  | none => []

/-- The lines a call of `add` stands for. -/
def addLines (setString : Str → Option Rat) (a : ScriptAdd) : List (Str × Str × Rat) :=
  pairLines a.account a.caccount a.ccy (amountOf setString a.amt) a.denom ++
    pairLines a.account2 a.caccount a.ccy2 (amountOf setString a.amt2) a.denom2

/-- The `add` calls of a script. -/
def adds (script : List GenAct) : List ScriptAdd :=
  script.filterMap fun
    | .add a => some a
    | _ => none

/-- What a script's `add` calls of one date book on an account in a currency. -/
def scriptTotal (setString : Str → Option Rat) (today : Int) (script : List GenAct) (d : Int) (acct ccy : Str) : Rat :=
  (((((adds script).filter fun a => decide (dateFromString today a.date = d)).flatMap (addLines setString)).filter
    fun l => decide (l.1 = acct ∧ l.2.1 = ccy)).map (·.2.2)).sum

/-- No amount of the call is a float that is no number. -/
def NoNaN (a : ScriptAdd) : Prop :=
  ∀ x, (a.amt = .float x ∨ a.amt2 = .float x) → ∃ q, x = .fin q

/-- The steps leave the transactions of the date alone: no renaming of accounts, and the date lies in every window. -/
def KeepsDate (today : Int) (d : Int) : GenAct → Prop
  | .since s => dateFromString today s ≤ d
  | .asof s => d < dateFromString today s
  | .map _ _ _ => False
  | _ => True

end Verif.Spec
