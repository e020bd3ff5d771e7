import Verif.Spec.SumCmd
import Verif.Spec.ReportText

/-! # Specification: the report command with its output -/

namespace Verif.Spec

/-- A currency that can be shown: not empty, printable. -/
def PlainCCY (prt : Nat → Bool) (s : Str) : Prop := s ≠ [] ∧ ∀ c ∈ s, prt c = true ∧ c ≠ 27 ∧ c ≠ 9

/-- Names the text report can show: accounts that are not empty, do not end in the divider and have no escape sequences; currencies that can be shown. -/
structure PlainNames (prt : Nat → Bool) (a : AppConf) (ps : List Posting) : Prop where
  accts : ∀ p ∈ ps, p.acct ≠ [] ∧ ¬ a.divider <:+ p.acct ∧ 27 ∉ p.acct
  ccys : ∀ p ∈ ps, PlainCCY prt p.ccy
  base : PlainCCY prt a.baseCCY

/-- A report type that is none of the others: ledger format. -/
def LedgerReport (r : ReportConf) : Prop := r.typ ≠ b!"Text" ∧ r.typ ≠ b!"Json" ∧ r.typ ≠ b!"HTML" ∧ r.typ ≠ b!"Beancount"

instance (r : ReportConf) : Decidable (LedgerReport r) := inferInstanceAs (Decidable (_ ∧ _ ∧ _ ∧ _))

/-- The periods one can combine by. -/
def periods : List Str := [b!"skip", b!"monthly", b!"quarterly", b!"yearly", b!"today", b!"none"]

end Verif.Spec
