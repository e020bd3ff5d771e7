import Verif.Model.Nordigen
import Verif.Spec.State

/-! # Specification: what the bank was asked, what it answered, and what the state file says -/

namespace Verif.Spec

/-- The bank answers with JSON. -/
def BankDay (day : NordDay) : Prop := ∀ q j, day.answer q = some j → IsText j

/-- The state file after run on run, one each day. -/
def stateAfter (e : JsonEnv) (file : Option Json) (days : List NordDay) : Option Json := days.foldl (fun f day => (nordRun e f day).file) file

/-- Each day with its run. -/
def history (e : JsonEnv) : Option Json → List NordDay → List (NordDay × NordEnd)
  | _, [] => []
  | file, day :: days => (day, nordRun e file day) :: history e (nordRun e file day).file days

/-- The run came to its end. -/
def Done (r : NordEnd) : Bool :=
  match r.fin with
  | .link _ => true
  | .synced => true
  | _ => false

/-- The requests and answers of a run. -/
def exchanged (x : NordDay × NordEnd) : List (NordReq × Json) := x.2.asked.filterMap fun q => (x.1.answer q).map fun j => (q, j)

/-- The requests and answers of the runs that came to their end, in order. -/
def log (h : List (NordDay × NordEnd)) : List (NordReq × Json) := h.flatMap fun x => if Done x.2 then exchanged x else []

/-- The latest answer to a request. -/
def latest (q : NordReq) (l : List (NordReq × Json)) : Option Json := (l.reverse.find? fun x => decide (x.1 = q)).map (·.2)

/-- A request about the consent. -/
def NordReq.isConsent : NordReq → Bool
  | .create _ => true
  | .requisition _ => true
  | _ => false

/-- The latest answer about the consent. -/
def consent (l : List (NordReq × Json)) : Option Json := (l.reverse.find? fun x => NordReq.isConsent x.1).map (·.2)

/-- The value of a key. -/
def child (j : Json) (k : Str) : Option Json :=
  match j with
  | .obj l => entry k l
  | _ => none

/-- The elements of a list. -/
def elems : Option Json → List Json
  | some (.arr l) => l
  | _ => []

/-- The booked transactions of an answer. -/
def bookedOf (j : Json) : List Json := elems ((child j b!"transactions").bind fun t => child t b!"booked")

/-- The booked transactions of an account, as they came in. -/
def cameIn (a : Str) (l : List (NordReq × Json)) : List Json := l.flatMap fun x => if x.1 = .transactions a then bookedOf x.2 else []

/-- The latest that came in of the transaction with this id. -/
def latestTxn (a id : Str) (l : List (NordReq × Json)) : Option Json :=
  (cameIn a l).reverse.find? fun d => decide (Json.look d [.key b!"transactionId"] = some (.str id))

/-- The object has these texts in a list under the key. -/
def ListsAt (d : Json) (key : Str) (ss : List Str) : Prop := child d key = some (.arr (ss.map .str))

/-- What is asked about an account. -/
def aboutAccount (a : Str) : List NordReq := [.basic a, .details a, .transactions a]

/-- The user enters the country `c` and chooses, of the banks listed, the one with the id `b`. -/
def Chosen (day : NordDay) (c b : Str) : Prop :=
  day.country = some c ∧ ∃ (list : List Json) (k : Nat) (d : Json), day.answer (.institutions c) = some (.arr list) ∧ day.choice = some (k : Int) ∧
    list[k]? = some d ∧ TextAt d b!"id" b

/-- A run that sets up the bank: it ends with the link of the bank's answer, or with an error. -/
def SetupRun (day : NordDay) (r : NordEnd) : Prop :=
  (∃ c b j l, Chosen day c b ∧ r.asked = [.institutions c, .create b] ∧ day.answer (.create b) = some j ∧ TextAt j b!"link" l ∧ r.fin = .link l) ∨
  (r.fin = .failed ∧ (r.asked = [] ∨ (∃ c, day.country = some c ∧ r.asked = [.institutions c]) ∨
    ∃ c b, Chosen day c b ∧ r.asked = [.institutions c, .create b]))

/-- A run with the consent `i`: it asks for the consent, then about the accounts listed there. -/
def SyncRun (day : NordDay) (i : Str) (r : NordEnd) : Prop :=
  (r.asked = [.requisition i] ∧ r.fin = .failed) ∨
  ∃ j as, day.answer (.requisition i) = some j ∧ ListsAt j b!"accounts" as ∧ r.asked <+: .requisition i :: as.flatMap aboutAccount ∧
    ((r.fin = .synced ∧ r.asked = .requisition i :: as.flatMap aboutAccount) ∨ r.fin = .failed ∨ r.fin = .crash)

/-- A usable answer about a consent. -/
def ConsentAnswer (j : Json) (as : List Str) : Prop :=
  Moderate j ∧ (∃ i, TextAt j b!"id" i) ∧ (∃ l, TextAt j b!"link" l) ∧ ListsAt j b!"accounts" as

/-- A usable list of banks. -/
def BankList (list : List Json) : Prop := ∀ d ∈ list, Moderate d ∧ (∃ i, TextAt d b!"id" i) ∧ ∃ n, TextAt d b!"name" n

/-- Usable answers about an account. -/
def AccountAnswers (day : NordDay) (a : Str) : Prop :=
  (∃ j, day.answer (.basic a) = some j ∧ Moderate j) ∧ (∃ j, day.answer (.details a) = some j ∧ Moderate j) ∧
    ∃ booked pending, day.answer (.transactions a) = some (reply booked pending) ∧ ∀ d ∈ booked ++ pending, Moderate d ∧ HasId d

/-- At this place of the file stands what stands there in `d`; numbers may have at most 15 digits (C97). -/
def Filed (f : Json) (place : List Step) (d : Json) : Prop :=
  ∀ p, (∀ q, Json.look d p = some (.num (.fin q)) → Plain15 q) → Json.look f (place ++ p) = Json.look d p

end Verif.Spec
