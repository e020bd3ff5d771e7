import Verif.Model.Commands
import Verif.Spec.Book

/-! # Specification: what a report shows -/

namespace Verif.Spec

/-- Whether the report combines by period (otherwise it lists the transactions as they are). -/
def combines (r : ReportConf) : Prop := r.typ ≠ b!"Beancount" ∧ r.combineby ≠ b!"skip"

instance (r : ReportConf) : Decidable (combines r) := inferInstanceAs (Decidable (_ ∧ _))

/-- Whether the report converts to the base currency. -/
def converts (r : ReportConf) : Prop := r.typ ≠ b!"Beancount" ∧ r.convert = true

instance (r : ReportConf) : Decidable (converts r) := inferInstanceAs (Decidable (_ ∧ _))

/-- Where a posting is shown: the start of its period. -/
def shownDate (today : Int) (r : ReportConf) (p : Posting) : Int :=
  if combines r then floorBy today p.date r.combineby else p.date

/-- Under which payee: none, if transactions are combined. -/
def shownPayee (r : ReportConf) (p : Posting) : Str := if combines r then [] else p.payee

/-- In which currency. -/
def shownCCY (base : Str) (r : ReportConf) (p : Posting) : Str := if converts r then base else p.ccy

/-- At which rate: that of the price table on the date shown (1 if nothing is converted). -/
def shownRate (prices : PriceBook) (today : Int) (base : Str) (r : ReportConf) (p : Posting) : Rat :=
  if converts r then ((prices.getPrice (shownDate today r p) p.ccy base).map (·.1)).getD 1 else 1

end Verif.Spec
