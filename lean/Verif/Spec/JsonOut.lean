import Verif.Model.Script
import Verif.Model.Register
import Verif.Spec.Float
import Verif.Spec.Calendar

/-! # Specification: what JSON output must say -/

namespace Verif.Spec

/-- A member of an object. -/
def member (k : Str) : Json → Option Json
  | .obj l => (l.find? fun kv => decide (kv.1 = k)).map (·.2)
  | _ => none

/-- The member is this text; empty text may be left out. -/
def TextMember (j : Json) (k s : Str) : Prop := member k j = some (.str s) ∨ (s = [] ∧ member k j = none)

/-- The member is the number as a `float64`. -/
def NumMember (j : Json) (k : Str) (v : Rat) : Prop :=
  ∃ x, member k j = some (.num (.fin x)) ∧ IsDouble x ∧ |x - v| ≤ |v| / 2 ^ 53

/-- The usual notation of a day at midnight UTC. -/
def isoDay (y : YMD) : Str := intPad 4 y.y ++ b!"-" ++ intPad 2 y.m ++ b!"-" ++ intPad 2 y.d ++ b!"T00:00:00Z"

/-- The time formatting of Go's library on real dates. -/
def FormatsDays (tm : Int → Int → Int → Str) : Prop := ∀ y : YMD, y.Valid → y.y ≤ 9999 → tm y.y y.m y.d = isoDay y

/-- A posting in JSON, without its note. -/
structure PostSays (j : Json) (p : Posting) : Prop where
  acct : TextMember j b!"account" p.acct
  ccy : TextMember j b!"ccy" p.ccy
  amount : NumMember j b!"amount" p.val

/-- A transaction in JSON, without the notes of postings. -/
structure TxnSays (j : Json) (t : Txn) : Prop where
  date : ∀ p ∈ t, ∀ y : YMD, y.Valid → y.y ≤ 9999 → p.date = y.code → member b!"date" j = some (.str (isoDay y))
  payee : ∀ p ∈ t, TextMember j b!"payee" p.payee
  note : ∀ p, t.head? = some p → TextMember j b!"note" p.tnote
  posts : ∃ l, member b!"posts" j = some (.arr l) ∧ List.Forall₂ PostSays l t

/-- The notes of the postings. -/
def NotesSay (j : Json) (t : Txn) : Prop :=
  ∃ l, member b!"posts" j = some (.arr l) ∧ List.Forall₂ (fun q (p : Posting) => TextMember q b!"note" p.note) l t

/-- What the source of a rate is called. -/
inductive SourceName : PriceType → Str → Prop
  | outOfRange : SourceName .outOfRange b!"OutOfRange"
  | inferred : SourceName .inferred b!"Inferred"
  | exact : SourceName .exact b!"Exact"
  | trade : SourceName .trade b!"Trade"
  | none : SourceName .none b!"None"

/-- An entry of the register in JSON. -/
structure EntryIs (j : Json) (e : RegEntry) : Prop where
  date : ∀ y : YMD, y.Valid → y.y ≤ 9999 → e.date = y.code → member b!"date" j = some (.str (isoDay y))
  account : TextMember j b!"account" e.account
  payee : TextMember j b!"payee" e.payee
  counter : TextMember j b!"counterAccount" e.counterAccount
  ccy : TextMember j b!"ccy" e.ccy
  note : TextMember j b!"note" e.note
  tnote : TextMember j b!"tnote" e.tnote
  amount : NumMember j b!"amount" e.amount
  balance : NumMember j b!"balance" e.balance
  baseAmount : NumMember j b!"BaseAmount" e.baseAmount
  baseBalance : NumMember j b!"BaseBalance" e.baseBalance
  baseCCY : TextMember j b!"BaseCCY" e.baseCCY
  baseSource : ∃ s, SourceName e.baseSource s ∧ member b!"BaseSource" j = some (.str s)

/-- An amount of ordinary size. -/
def Ordinary (v : Rat) : Prop := |v| ≤ 10 ^ 300 ∧ (v = 0 ∨ 1 / 10 ^ 300 ≤ |v|)

end Verif.Spec
