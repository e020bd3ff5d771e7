import Verif.Model.ExportCmd
import Verif.Spec.Export

/-! # Specification: exporting an export -/

namespace Verif.Spec

/-- A sound print environment: numbers go through `float64`, ranging over the prices yields all of them. -/
structure SoundPrint (x : PrintEnv) : Prop where
  float : DoubleRounding x.fl
  nearest : NearestNat x.rd
  pairs : ∀ pb, (x.pairs pb).Perm pb

/-- The book can be written in ledger format by its own printer (English). -/
structure Writable (srt : List Posting → List Posting) (x : PrintEnv) (b : Book) : Prop where
  txns : ∀ t ∈ b.transactions srt, PrintableTxn (bookFmt .english x b) t
  prices : ∀ u c, ∀ q ∈ (b.prices.find (u, c)).getD [], PrintablePrice (bookFmt .english x b) u c q

/-- The type is none of the others: ledger format. -/
def LedgerType (typ : Str) : Prop := typ ≠ b!"Json" ∧ typ ≠ b!"Beancount" ∧ typ ≠ b!"CSV"

end Verif.Spec
