import Verif.Model.State
import Verif.Spec.Script
import Verif.Spec.Float

/-! # Specification: data as received and as stored -/

namespace Verif.Spec

/-- A decimal of at most `n` significant digits. -/
def HasDigits (n : Nat) (q : Rat) : Prop := ∃ m e : Int, |m| < 10 ^ n ∧ q = m * (10 : Rat) ^ e

/-- Numbers are read as the nearest `float64` and written as a shortest decimal that is read as the same number; the entries of maps are written
in some order. -/
structure SoundJson (e : JsonEnv) : Prop where
  reads : ∀ q, |q| ≤ 10 ^ 300 → ∃ x, e.num q = some x
  zero : e.num 0 = some 0
  double : ∀ q x, e.num q = some x → IsDouble x
  close : ∀ q x, e.num q = some x → (1 / 10 ^ 300 ≤ |q| ∨ 1 / 10 ^ 300 ≤ |x|) → |x - q| ≤ |q| / 2 ^ 53
  shortest : ∀ n q x, HasDigits n q → e.num q = some x → e.num (e.short x) = some x ∧ HasDigits n (e.short x)
  order : ∀ l, (e.ord l).Perm l

/-- The same JSON: the same at every place. -/
def SameJson (a b : Json) : Prop := ∀ p, Json.look a p = Json.look b p

/-- A number of a JSON text: at most 15 digits, and not too small. -/
def Plain15 (q : Rat) : Prop := HasDigits 15 q ∧ |q| ≤ 10 ^ 300 ∧ (q = 0 ∨ 1 / 10 ^ 299 ≤ |q|)

/-- A JSON text: its numbers are decimals. -/
inductive IsText : Json → Prop
  | null : IsText .null
  | bool (b) : IsText (.bool b)
  | num (q n) : HasDigits n q → IsText (.num (.fin q))
  | str (s) : IsText (.str s)
  | arr (l) : (∀ j ∈ l, IsText j) → IsText (.arr l)
  | obj (l) : (∀ kv ∈ l, IsText kv.2) → IsText (.obj l)

/-- The same entry, or none, in both. -/
def SameAt {α : Type} (same : α → α → Prop) : Option α → Option α → Prop
  | none, none => True
  | some a, some b => same a b
  | _, _ => False

/-- The same map (or none). -/
def SameMap {α : Type} (same : α → α → Prop) : Option (SMap α) → Option (SMap α) → Prop :=
  SameAt fun m m' => ∀ k, SameAt same (SMap.get m k) (SMap.get m' k)

/-- The same list (or none). -/
def SameList {α : Type} (same : α → α → Prop) : Option (List α) → Option (List α) → Prop := SameAt (List.Forall₂ same)

/-- The same record. -/
def SameRec (a b : Rec) : Prop := a.fields = b.fields ∧ SameJson a.data b.data

/-- The same Monzo data. -/
def SameMonzo (a b : MonzoState) : Prop :=
  SameMap (SameAt SameRec) a.transactions b.transactions ∧ SameMap (SameAt SameRec) a.accounts b.accounts

/-- The same spaces. -/
def SameSpaces (a b : SpacesState) : Prop := SameList SameRec a.savings b.savings ∧ SameList SameRec a.spending b.spending

/-- The same data of a Starling account. -/
def SameStarlingAcct (a b : StarlingAcctState) : Prop :=
  SameAt SameRec a.account b.account ∧ SameAt SameSpaces a.spaces b.spaces ∧ SameJson a.identifiers b.identifiers ∧
    SameMap (SameMap (SameAt SameRec)) a.feeditems b.feeditems

/-- The same Starling data. -/
def SameStarling (a b : StarlingState) : Prop :=
  SameMap (SameAt SameStarlingAcct) a.accounts b.accounts ∧ SameList SameJson a.payees b.payees

/-- The same data of a Nordigen account. -/
def SameNordAcct (a b : NordAcctState) : Prop :=
  SameJson a.basic b.basic ∧ SameJson a.details b.details ∧ SameMap (SameAt SameRec) a.transactions b.transactions

/-- The same requisition. -/
def SameReq (a b : ReqRec) : Prop := a.id = b.id ∧ a.link = b.link ∧ a.accounts = b.accounts ∧ SameJson a.data b.data

/-- The same Nordigen data. -/
def SameNord (a b : NordState) : Prop :=
  SameMap (SameAt SameNordAcct) a.accounts b.accounts ∧ SameAt SameRec a.institution b.institution ∧ SameAt SameReq a.requisition b.requisition

end Verif.Spec

namespace Verif.Spec

/-- Data read from some JSON text. -/
def JsonOf (e : JsonEnv) (v : Json) : Prop := ∃ d, IsText d ∧ goValue e d = some v

/-- A record read from some JSON text. -/
def RecOf (e : JsonEnv) (keys : List Str) (r : Rec) : Prop := ∃ d, IsText d ∧ (recCodec e keys).dec d = some r

/-- What is there is of that kind. -/
def AllAt {α : Type} (ok : α → Prop) : Option α → Prop
  | none => True
  | some a => ok a

/-- A map: keys do not repeat, and all values are of that kind. -/
def AllMap {α : Type} (ok : α → Prop) : Option (SMap α) → Prop := AllAt fun m => (m.map (·.1)).Nodup ∧ ∀ kv ∈ m, ok kv.2

/-- A list of things of that kind. -/
def AllList {α : Type} (ok : α → Prop) : Option (List α) → Prop := AllAt fun l => ∀ a ∈ l, ok a

/-- Monzo data: all records were read from JSON. -/
def MonzoOk (e : JsonEnv) (s : MonzoState) : Prop :=
  AllMap (AllAt (RecOf e monzoTransactionKeys)) s.transactions ∧ AllMap (AllAt (RecOf e monzoAccountKeys)) s.accounts

/-- The data of a Starling account. -/
def StarlingAcctOk (e : JsonEnv) (s : StarlingAcctState) : Prop :=
  AllAt (RecOf e starlingAccountKeys) s.account ∧
  AllAt (fun t : SpacesState => AllList (RecOf e savingsGoalKeys) t.savings ∧ AllList (RecOf e spendingSpaceKeys) t.spending) s.spaces ∧
  JsonOf e s.identifiers ∧ AllMap (AllMap (AllAt (RecOf e feedItemKeys))) s.feeditems

/-- Starling data. -/
def StarlingOk (e : JsonEnv) (s : StarlingState) : Prop := AllMap (AllAt (StarlingAcctOk e)) s.accounts ∧ AllList (JsonOf e) s.payees

/-- The data of a Nordigen account. -/
def NordAcctOk (e : JsonEnv) (s : NordAcctState) : Prop :=
  JsonOf e s.basic ∧ JsonOf e s.details ∧ AllMap (AllAt (RecOf e nordigenTransactionKeys)) s.transactions

/-- Nordigen data. -/
def NordOk (e : JsonEnv) (s : NordState) : Prop :=
  AllMap (AllAt (NordAcctOk e)) s.accounts ∧ AllAt (RecOf e institutionKeys) s.institution ∧
    AllAt (fun r => ∃ d, IsText d ∧ (requisitionCodec e).dec d = some r) s.requisition

/-- Monzo data a download can come to hold: new, read from a file, or with records that were received entered. -/
inductive MonzoHeld (e : JsonEnv) : MonzoState → Prop
  | new : MonzoHeld e ⟨none, none⟩
  | read (j s) : IsText j → (monzoCodec e).dec j = some s → MonzoHeld e s
  | transaction (s k d r) : MonzoHeld e s → IsText d → (recCodec e monzoTransactionKeys).dec d = some r →
      MonzoHeld e { s with transactions := some (SMap.put (s.transactions.getD []) k (some r)) }
  | account (s k d r) : MonzoHeld e s → IsText d → (recCodec e monzoAccountKeys).dec d = some r →
      MonzoHeld e { s with accounts := some (SMap.put (s.accounts.getD []) k (some r)) }

/-- The data of a Starling account: the same. -/
inductive StarlingAcctHeld (e : JsonEnv) : StarlingAcctState → Prop
  | new : StarlingAcctHeld e ⟨none, none, .null, none⟩
  | read (j s) : IsText j → (starlingAcctCodec e).dec j = some s → StarlingAcctHeld e s
  | account (s d r) : StarlingAcctHeld e s → IsText d → (recCodec e starlingAccountKeys).dec d = some r → StarlingAcctHeld e { s with account := some r }
  | spaces (s d r) : StarlingAcctHeld e s → IsText d → (spacesCodec e).ptr.dec d = some r → StarlingAcctHeld e { s with spaces := r }
  | identifiers (s d r) : StarlingAcctHeld e s → IsText d → goValue e d = some r → StarlingAcctHeld e { s with identifiers := r }
  | item (s c k d r) : StarlingAcctHeld e s → IsText d → (recCodec e feedItemKeys).dec d = some r →
      StarlingAcctHeld e { s with feeditems := some (SMap.put (s.feeditems.getD []) c
        (some (SMap.put ((((s.feeditems.getD []).get c).getD none).getD []) k (some r)))) }

/-- Starling data: the same. -/
inductive StarlingHeld (e : JsonEnv) : StarlingState → Prop
  | new : StarlingHeld e ⟨none, none⟩
  | read (j s) : IsText j → (starlingCodec e).dec j = some s → StarlingHeld e s
  | account (s k a) : StarlingHeld e s → StarlingAcctHeld e a → StarlingHeld e { s with accounts := some (SMap.put (s.accounts.getD []) k (some a)) }
  | payees (s d l) : StarlingHeld e s → IsText d → (anyCodec e).slice.dec d = some l → StarlingHeld e { s with payees := l }

/-- The data of a Nordigen account: the same. -/
inductive NordAcctHeld (e : JsonEnv) : NordAcctState → Prop
  | new : NordAcctHeld e ⟨.null, .null, none⟩
  | read (j s) : IsText j → (nordAcctCodec e).dec j = some s → NordAcctHeld e s
  | basic (s d r) : NordAcctHeld e s → IsText d → goValue e d = some r → NordAcctHeld e { s with basic := r }
  | details (s d r) : NordAcctHeld e s → IsText d → goValue e d = some r → NordAcctHeld e { s with details := r }
  | transaction (s k d r) : NordAcctHeld e s → IsText d → (recCodec e nordigenTransactionKeys).dec d = some r →
      NordAcctHeld e { s with transactions := some (SMap.put (s.transactions.getD []) k (some r)) }

/-- Nordigen data: the same. -/
inductive NordHeld (e : JsonEnv) : NordState → Prop
  | new : NordHeld e ⟨none, none, none⟩
  | read (j s) : IsText j → (nordCodec e).dec j = some s → NordHeld e s
  | account (s k a) : NordHeld e s → NordAcctHeld e a → NordHeld e { s with accounts := some (SMap.put (s.accounts.getD []) k (some a)) }
  | institution (s d r) : NordHeld e s → IsText d → (recCodec e institutionKeys).dec d = some r → NordHeld e { s with institution := some r }
  | requisition (s d r) : NordHeld e s → IsText d → (requisitionCodec e).dec d = some r → NordHeld e { s with requisition := some r }

/-- A JSON text whose numbers are not too large to be read. -/
inductive Moderate : Json → Prop
  | null : Moderate .null
  | bool (b) : Moderate (.bool b)
  | num (q n) : HasDigits n q → |q| ≤ 10 ^ 300 → Moderate (.num (.fin q))
  | str (s) : Moderate (.str s)
  | arr (l) : (∀ j ∈ l, Moderate j) → Moderate (.arr l)
  | obj (l) : (∀ kv ∈ l, Moderate kv.2) → Moderate (.obj l)

/-- A transaction that has an id. -/
def HasId (d : Json) : Prop := ∃ s, Json.look d [.key b!"transactionId"] = some (.str s)

/-- The reply to a request for the transactions of an account: the booked and the pending ones. -/
def reply (booked pending : List Json) : Json :=
  .obj [(b!"transactions", .obj [(b!"booked", .arr booked), (b!"pending", .arr pending)])]

/-- The JSON object says the text `s` under the key. -/
def TextAt (d : Json) (key s : Str) : Prop := Json.look d [.key key] = some (.str s)

end Verif.Spec
