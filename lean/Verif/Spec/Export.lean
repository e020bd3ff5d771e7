import Verif.Model.Export
import Verif.Spec.Chars
import Verif.Spec.Calendar
import Verif.Spec.Float

/-! # Specification: what can be printed in ledger format and read again -/

namespace Verif.Spec

/-- Grouping of digits as in the locale "en": the digits themselves, beginning with a digit,
with commas in between. -/
def GroupsDigits (grp : Str → Str) : Prop :=
  ∀ n, (grp (natDec n)).filter digitChar = natDec n ∧ (∀ c ∈ grp (natDec n), digitChar c = true ∨ c = 44) ∧
    ∃ c r, grp (natDec n) = c :: r ∧ digitChar c = true

/-- A printer for the locale "en" whose numbers go through `float64`. -/
structure SoundFmt (f : Fmt) : Prop where
  groups : GroupsDigits f.grp
  float : DoubleRounding f.fl
  nearest : NearestNat f.rd
  point : f.point = 46

/-- A printer, of whatever language, whose numbers contain no `<`. -/
def NumbersNoTags (f : Fmt) : Prop := (∀ n, 60 ∉ f.grp (natDec n)) ∧ f.point ≠ 60

/-- Text on one line that does not begin with a blank. -/
def OneLine (s : Str) : Prop := (∀ c ∈ s, lineChar c = true) ∧ ∀ c, s.head? = some c → blankChar c = false

/-- The decimals printed for the currency of a posting. -/
def decimalsOf (f : Fmt) (ccy : Str) : Nat := (f.decs ccy).getD 2

/-- A number that has at most `dec` decimals and less than 52 bits without the point. -/
def FitsDecimals (dec : Nat) (v : Rat) : Prop := dec ≤ 18 ∧ ∃ k : Int, v * 10 ^ dec = k ∧ |k| < 2 ^ 52

/-- A posting the ledger format can express: the account consists of account characters, the
currency is on one line without quotes, the amount has no more decimals than are printed, and
the note is one line. -/
structure PrintablePost (f : Fmt) (p : Posting) : Prop where
  acct : p.acct ≠ [] ∧ ∀ c ∈ p.acct, acctChar c = true
  ccy : p.ccy ≠ [] ∧ ∀ c ∈ p.ccy, lineChar c = true ∧ c ≠ 34
  amount : FitsDecimals (decimalsOf f p.ccy) p.val
  note : OneLine p.note

/-- A payee the ledger format can express: one line without semicolon, no space at either end, and
not beginning with a quote or star. -/
structure PrintablePayee (s : Str) : Prop where
  line : ∀ c ∈ s, lineChar c = true ∧ c ≠ 59
  first : ∀ c, s.head? = some c → spaceChar c = false ∧ c ≠ 34 ∧ c ≠ 42
  last : ∀ c, s.getLast? = some c → spaceChar c = false

/-- A transaction the ledger format can express. -/
structure PrintableTxn (f : Fmt) (t : Txn) : Prop where
  nonempty : t ≠ []
  date : ∀ p ∈ t, ∃ y : YMD, y.Valid ∧ y.y ≤ 9999 ∧ p.date = y.code
  payee : ∀ p ∈ t, PrintablePayee p.payee
  tnote : ∀ p ∈ t, OneLine p.tnote
  posts : ∀ p ∈ t, PrintablePost f p

/-- A transaction as it comes back: every posting carries the note of the transaction's first posting
(the only one printed); the report labels are not part of a ledger file. -/
def asLoaded (t : Txn) : Txn :=
  match t with
  | [] => []
  | h :: _ => t.map fun p => { p with tnote := h.tnote, acctterm := [] }

/-- A currency name that needs no quotes: currency characters, not beginning with a quote. -/
def BareCCY (s : Str) : Prop := s ≠ [] ∧ (∀ c ∈ s, ccyChar c = true) ∧ s.head? ≠ some 34

/-- A price the ledger format, as the export writes it, can express: a real date, unit and currency
that need no quotes, and a value with no more decimals than are printed for the currency. -/
structure PrintablePrice (f : Fmt) (unit ccy : Str) (q : Price) : Prop where
  date : ∃ y : YMD, y.Valid ∧ y.y ≤ 9999 ∧ q.date = y.code
  unitBare : BareCCY unit
  ccyBare : BareCCY ccy
  value : FitsDecimals (decimalsOf f ccy) q.val

/-- A transaction whose amounts have lost their decimal sign: 12.34 has become 1234 wherever the currency is printed with two
decimals. -/
def withoutPoint (f : Fmt) (t : Txn) : Txn :=
  t.map fun p => { p with val := p.val * 10 ^ decimalsOf f p.ccy, bal := p.bal * 10 ^ decimalsOf f p.ccy }

end Verif.Spec
