import Verif.Model.Script
import Verif.Model.Download

/-! # State files and replies: /repo/cmd/utils/json.go, /repo/cmd/download/{monzo,starling,nordigen}.go

JSON texts are given as trees (`Json`, with the exact value of each numeral, and objects as written: keys may repeat); the text itself is
encoding/json's.  The parameters `num` and `short` are `strconv.ParseFloat` (`none`: out of range) and the shortest decimal that is read as a given
number; `ord` is the order in which the encoder writes the keys of a map (Go: sorted). -/

namespace Verif

/-- What encoding/json does with numbers and maps. -/
structure JsonEnv where
  num : Rat → Option Rat
  short : Rat → Rat
  ord : List (Str × Json) → List (Str × Json)

mutual
/-- encoding/json: `Unmarshal` into an `interface{}`: numbers become `float64`; a key that is repeated keeps the last value. -/
def goValue (e : JsonEnv) : Json → Option Json
  | .null => some .null
  | .bool b => some (.bool b)
  | .num (.fin q) => (e.num q).map fun x => .num (.fin x)
  | .num _ => none
  | .str s => some (.str s)
  | .arr l => (goList e l).map .arr
  | .obj l => (goMap e l []).map .obj
/-- The elements of an array. -/
def goList (e : JsonEnv) : List Json → Option (List Json)
  | [] => some []
  | j :: l => (goValue e j).bind fun v => (goList e l).map fun vs => v :: vs
/-- The entries of an object. -/
def goMap (e : JsonEnv) : List (Str × Json) → SMap Json → Option (SMap Json)
  | [], m => some m
  | (k, j) :: l, m => (goValue e j).bind fun v => goMap e l (SMap.put m k v)
end

mutual
/-- encoding/json: `Marshal` of such a value. -/
def textOf (e : JsonEnv) : Json → Json
  | .num (.fin x) => .num (.fin (e.short x))
  | .arr l => .arr (textList e l)
  | .obj l => .obj (e.ord (textMap e l))
  | v => v
/-- The elements. -/
def textList (e : JsonEnv) : List Json → List Json
  | [] => []
  | v :: l => textOf e v :: textList e l
/-- The entries. -/
def textMap (e : JsonEnv) : List (Str × Json) → List (Str × Json)
  | [] => []
  | (k, v) :: l => (k, textOf e v) :: textMap e l
end

/-- json.go:22-36 `GetStringValue`; `none` = error. -/
def getStringValue (data : Json) (key : Str) : Option Str :=
  match data with
  | .obj l =>
    match SMap.get l key with
    | some (.str s) => some s
    | _ => none
  | _ => none

/-- json.go:38-53 `GetListValue`; `none` = error. -/
def getListValue (data : Json) (key : Str) : Option (List Json) :=
  match data with
  | .obj l =>
    match SMap.get l key with
    | some (.arr a) => some a
    | _ => none
  | _ => none

/-- json.go:55-65 `ListToStringList`; `none` = error. -/
def listToStringList : List Json → Option (List Str)
  | [] => some []
  | .str s :: l => (listToStringList l).map fun r => s :: r
  | _ => none

/-- How a type is written to and read from JSON; `none` = error. -/
structure Codec (α : Type) where
  enc : α → Json
  dec : Json → Option α

/-- `interface{}` -/
def anyCodec (e : JsonEnv) : Codec Json := ⟨textOf e, goValue e⟩

/-- The record types: the data as received, and the texts taken from it. -/
structure Rec where
  fields : List Str
  data : Json

/-- `UnmarshalJSON` and `MarshalJSON` of a type that takes the texts of `keys`: monzo.go:198-240, starling.go:235-261, 268-342,
nordigen.go:225-247, 282-300. -/
def recCodec (e : JsonEnv) (keys : List Str) : Codec Rec where
  enc := fun r => textOf e r.data
  dec := fun d => (goValue e d).bind fun v => (keys.mapM (getStringValue v)).map fun fs => ⟨fs, v⟩

/-- monzo.go:203-212 -/
def monzoAccountKeys : List Str := [b!"id"]
/-- monzo.go:224-236 -/
def monzoTransactionKeys : List Str := [b!"id", b!"created"]
/-- starling.go:242-257 -/
def starlingAccountKeys : List Str := [b!"accountUid", b!"defaultCategory", b!"createdAt"]
/-- starling.go:274-286 -/
def savingsGoalKeys : List Str := [b!"savingsGoalUid", b!"name"]
/-- starling.go:298-310 -/
def spendingSpaceKeys : List Str := [b!"spaceUid", b!"name"]
/-- starling.go:323-338 -/
def feedItemKeys : List Str := [b!"feedItemUid", b!"transactionTime", b!"updatedAt"]
/-- nordigen.go:231-243 -/
def institutionKeys : List Str := [b!"id", b!"name"]
/-- nordigen.go:287-296 -/
def nordigenTransactionKeys : List Str := [b!"transactionId"]

/-- nordigen.go:249-280 `Requisition`: id, link and the accounts. -/
structure ReqRec where
  id : Str
  link : Str
  accounts : List Str
  data : Json

/-- nordigen.go:256-280 -/
def requisitionCodec (e : JsonEnv) : Codec ReqRec where
  enc := fun r => textOf e r.data
  dec := fun d => (goValue e d).bind fun v => (getStringValue v b!"id").bind fun i => (getStringValue v b!"link").bind fun l =>
    (getListValue v b!"accounts").bind fun a => (listToStringList a).map fun as => ⟨i, l, as, v⟩

/-- encoding/json: a pointer. -/
def Codec.ptr {α : Type} (c : Codec α) : Codec (Option α) where
  enc := fun a => match a with
    | none => .null
    | some a => c.enc a
  dec := fun j => match j with
    | .null => some none
    | j => (c.dec j).map some

/-- The entries of a map, read one after the other. -/
def decEntries {α : Type} (c : Codec α) : List (Str × Json) → SMap α → Option (SMap α)
  | [], m => some m
  | (k, j) :: l, m => (c.dec j).bind fun v => decEntries c l (SMap.put m k v)

/-- encoding/json: a map with string keys (`none`: nil). -/
def Codec.map {α : Type} (e : JsonEnv) (c : Codec α) : Codec (Option (SMap α)) where
  enc := fun m => match m with
    | none => .null
    | some m => .obj (e.ord (m.map fun kv => (kv.1, c.enc kv.2)))
  dec := fun j => match j with
    | .null => some none
    | .obj l => (decEntries c l []).map some
    | _ => none

/-- encoding/json: a slice (`none`: nil). -/
def Codec.slice {α : Type} (c : Codec α) : Codec (Option (List α)) where
  enc := fun l => match l with
    | none => .null
    | some l => .arr (l.map c.enc)
  dec := fun j => match j with
    | .null => some none
    | .arr l => (l.mapM c.dec).map some
    | _ => none

/-- encoding/json: a field of a struct; if it is not there it keeps its zero value; of repeated keys the last counts.  (Keys that differ in
capitals are not considered.) -/
def Codec.field {α : Type} (c : Codec α) (zero : α) (key : Str) (l : List (Str × Json)) : Option α :=
  match SMap.get l.reverse key with
  | none => some zero
  | some j => c.dec j

/-- monzo.go:55-59 `MonzoData`, without the token. -/
structure MonzoState where
  transactions : Option (SMap (Option Rec))
  accounts : Option (SMap (Option Rec))

/-- monzo.go:55-59, as written and read. -/
def monzoCodec (e : JsonEnv) : Codec MonzoState :=
  let tc := Codec.map e (recCodec e monzoTransactionKeys).ptr
  let ac := Codec.map e (recCodec e monzoAccountKeys).ptr
  { enc := fun s => .obj [(b!"transactions", tc.enc s.transactions), (b!"accounts", ac.enc s.accounts)]
    dec := fun j => match j with
      | .obj l => (tc.field none b!"transactions" l).bind fun t => (ac.field none b!"accounts" l).map fun a => ⟨t, a⟩
      | .null => some ⟨none, none⟩
      | _ => none }

/-- starling.go:263-266 `Spaces` -/
structure SpacesState where
  savings : Option (List Rec)
  spending : Option (List Rec)

/-- starling.go:49-54 `StarlingAccountData` -/
structure StarlingAcctState where
  account : Option Rec
  spaces : Option SpacesState
  identifiers : Json
  feeditems : Option (SMap (Option (SMap (Option Rec))))

/-- starling.go:56-59 `StarlingData` -/
structure StarlingState where
  accounts : Option (SMap (Option StarlingAcctState))
  payees : Option (List Json)

/-- starling.go:263-266 -/
def spacesCodec (e : JsonEnv) : Codec SpacesState :=
  let gc := (recCodec e savingsGoalKeys).slice
  let sc := (recCodec e spendingSpaceKeys).slice
  { enc := fun s => .obj [(b!"savingsGoals", gc.enc s.savings), (b!"spendingSpaces", sc.enc s.spending)]
    dec := fun j => match j with
      | .obj l => (gc.field none b!"savingsGoals" l).bind fun g => (sc.field none b!"spendingSpaces" l).map fun s => ⟨g, s⟩
      | .null => some ⟨none, none⟩
      | _ => none }

/-- starling.go:49-54 -/
def starlingAcctCodec (e : JsonEnv) : Codec StarlingAcctState :=
  let ac := (recCodec e starlingAccountKeys).ptr
  let sc := (spacesCodec e).ptr
  let fc := Codec.map e (Codec.map e (recCodec e feedItemKeys).ptr)
  { enc := fun s => .obj [(b!"account", ac.enc s.account), (b!"spaces", sc.enc s.spaces), (b!"identifiers", textOf e s.identifiers),
      (b!"feeditems", fc.enc s.feeditems)]
    dec := fun j => match j with
      | .obj l => (ac.field none b!"account" l).bind fun a => (sc.field none b!"spaces" l).bind fun s =>
          ((anyCodec e).field .null b!"identifiers" l).bind fun i => (fc.field none b!"feeditems" l).map fun f => ⟨a, s, i, f⟩
      | .null => some ⟨none, none, .null, none⟩
      | _ => none }

/-- starling.go:56-59 -/
def starlingCodec (e : JsonEnv) : Codec StarlingState :=
  let ac := Codec.map e (starlingAcctCodec e).ptr
  let pc := (anyCodec e).slice
  { enc := fun s => .obj [(b!"accounts", ac.enc s.accounts), (b!"Payees", pc.enc s.payees)]
    dec := fun j => match j with
      | .obj l => (ac.field none b!"accounts" l).bind fun a => (pc.field none b!"Payees" l).map fun p => ⟨a, p⟩
      | .null => some ⟨none, none⟩
      | _ => none }

/-- nordigen.go:345-349 `NordigenAccount` -/
structure NordAcctState where
  basic : Json
  details : Json
  transactions : Option (SMap (Option Rec))

/-- nordigen.go:62-67 `NordigenData`, without the token. -/
structure NordState where
  accounts : Option (SMap (Option NordAcctState))
  institution : Option Rec
  requisition : Option ReqRec

/-- nordigen.go:345-349 -/
def nordAcctCodec (e : JsonEnv) : Codec NordAcctState :=
  let tc := Codec.map e (recCodec e nordigenTransactionKeys).ptr
  { enc := fun s => .obj [(b!"Basic", textOf e s.basic), (b!"Details", textOf e s.details), (b!"Transactions", tc.enc s.transactions)]
    dec := fun j => match j with
      | .obj l => ((anyCodec e).field .null b!"Basic" l).bind fun b => ((anyCodec e).field .null b!"Details" l).bind fun d =>
          (tc.field none b!"Transactions" l).map fun t => ⟨b, d, t⟩
      | .null => some ⟨.null, .null, none⟩
      | _ => none }

/-- nordigen.go:62-67 -/
def nordCodec (e : JsonEnv) : Codec NordState :=
  let ac := Codec.map e (nordAcctCodec e).ptr
  let ic := (recCodec e institutionKeys).ptr
  let rc := (requisitionCodec e).ptr
  { enc := fun s => .obj [(b!"Accounts", ac.enc s.accounts), (b!"Institution", ic.enc s.institution), (b!"Requisition", rc.enc s.requisition)]
    dec := fun j => match j with
      | .obj l => (ac.field none b!"Accounts" l).bind fun a => (ic.field none b!"Institution" l).bind fun i =>
          (rc.field none b!"Requisition" l).map fun r => ⟨a, i, r⟩
      | .null => some ⟨none, none, none⟩
      | _ => none }

/-- json.go:67-104 `LoadFromFile`, of a file that is there (`none` in the outer option: no file, the zero value). -/
def loadState {α : Type} (c : Codec α) (zero : α) : Option Json → Option α
  | none => some zero
  | some j => c.dec j

/-- nordigen.go:379-394 and net.go:64-90: the reply with the transactions of an account, booked and pending; unknown keys are an error
(and `null` a nil dereference, which counts as one here). -/
def nordReply (e : JsonEnv) (j : Json) : Option (List Rec × List Rec) :=
  let rc := (recCodec e nordigenTransactionKeys).slice
  match j with
  | .obj l =>
    if l.all (fun kv => decide (kv.1 = b!"transactions")) then
      match SMap.get l.reverse b!"transactions" with
      | none => some ([], [])
      | some .null => some ([], [])
      | some (.obj t) =>
        if t.all (fun kv => decide (kv.1 = b!"booked" ∨ kv.1 = b!"pending")) then
          (rc.field none b!"booked" t).bind fun b => (rc.field none b!"pending" t).map fun p => (b.getD [], p.getD [])
        else none
      | _ => none
    else none
  | _ => none

end Verif
