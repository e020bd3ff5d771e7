import Verif.Model.Import
import Verif.Model.CLIConfig

/-! # Data for scripts: /repo/script/convert.go, /repo/cmd/importer/import_op.go -/

namespace Verif

/-- A `float64`.  Finite ones are given by their exact value. -/
inductive Flt
  | fin (x : Rat) | nan | inf (neg : Bool)
  deriving DecidableEq

/-- What `json.Decode` produces for an `interface{}` (encoding/json): nil, bool, float64, string, `[]interface{}` or
`map[string]interface{}`.  A Go map is given as the list of its entries in the order in which `range` will visit them, which Go
chooses freely; its keys are distinct (`Json.Ok`). -/
inductive Json
  | null
  | bool (b : Bool)
  | num (x : Flt)
  | str (s : Str)
  | arr (l : List Json)
  | obj (l : List (Str × Json))

/-- Starlark values (those the program creates or looks at); a dictionary keeps its entries in order of insertion.  `other` stands
for any type the program does not handle. -/
inductive SVal
  | none
  | bool (b : Bool)
  | int (i : Int)
  | float (x : Flt)
  | str (s : Str)
  | list (l : List SVal)
  | dict (l : List (Str × SVal))
  | other

/-- `SetKey` of a Starlark dictionary with string keys: replaces the value of a key that is there, otherwise appends. -/
def setKey (k : Str) (v : SVal) : List (Str × SVal) → List (Str × SVal)
  | [] => [(k, v)]
  | e :: l => if e.1 = k then (k, v) :: l else e :: setKey k v l

/-- convert.go:43: `sv.Type() == starlark.None.Type()` -/
def SVal.isNone : SVal → Bool
  | .none => true
  | _ => false

mutual
/-- convert.go:14-55 `jsonToStarlark`.  (The errors of lines 31, 40, 48 and 53 cannot arise from decoded JSON.) -/
def toStarlark : Json → SVal
  | .null => .none
  | .bool b => .bool b
  | .num x => .float x
  | .str s => .str s
  | .arr l => .list (toStarlarkList l)
  | .obj l => .dict (toStarlarkObj l [])
/-- convert.go:27-34 -/
def toStarlarkList : List Json → List SVal
  | [] => []
  | j :: l => toStarlark j :: toStarlarkList l
/-- convert.go:37-50 -/
def toStarlarkObj : List (Str × Json) → List (Str × SVal) → List (Str × SVal)
  | [], d => d
  | (k, j) :: l, d => toStarlarkObj l (if (toStarlark j).isNone then d else setKey k (toStarlark j) d)
end

/-- convert.go:58-71 `ReadJSON`.  `decode` is `json.Decoder.Decode`: it reads one value from the front of the text, leaving the
rest unread; `none` = error. -/
def readJSON (decode : Str → Option (Json × Str)) (text : Str) : Option SVal := (decode text).map fun r => toStarlark r.1

/-- encoding/csv `FieldsPerRecord = 0`: all records must have as many fields as the first. -/
def sameFields : List (List Str) → Bool
  | [] => true
  | r :: rs => rs.all fun r' => decide (r'.length = r.length)

/-- convert.go:101-104: the fields of a record under their headings; `none` = index out of range. -/
def dictRow (hdr : List Str) : List Str → List (Str × SVal) → Option (List (Str × SVal))
  | [], d => some d
  | v :: vs, d =>
    match hdr with
    | [] => none
    | h :: hs => dictRow hs vs (setKey h (.str v) d)

/-- The result of reading: value, error or crash. -/
inductive ReadRes (α : Type)
  | ok (v : α) | err | panic
  deriving DecidableEq

/-- convert.go:96-113: the loop over the records. -/
def csvRows (header : Bool) (hdr : List Str) : List (List Str) → ReadRes (List SVal)
  | [] => .ok []
  | rec :: recs =>
    if header then
      if hdr.length < rec.length then .err
      else
        match dictRow hdr rec [] with
        | Option.none => .panic
        | some d =>
          match csvRows header hdr recs with
          | .ok l => .ok (.dict d :: l)
          | r => r
    else
      match csvRows header hdr recs with
      | .ok l => .ok (.list (rec.map .str) :: l)
      | r => r

/-- convert.go:73-117 `GetReadCSV`.  `split` is encoding/csv with the delimiter as separator: the records of the text, `none` = a
syntax error (or a delimiter it does not allow).  `delim` is a list of runes. -/
def readCSV (split : Nat → Str → Option (List (List Str))) (delim : Str) (header : Bool) (text : Str) : ReadRes SVal :=
  match delim with
  | [] => .panic                                           -- `[]rune(delim)[0]`
  | c :: _ =>
    match split c text with
    | Option.none => .err
    | some recs =>
      if sameFields recs then
        if header then
          match recs with
          | [] => .err                                     -- io.EOF
          | hdr :: rows =>
            match csvRows true hdr rows with
            | .ok l => .ok (.list l)
            | .err => .err
            | .panic => .panic
        else
          match csvRows false [] recs with
          | .ok l => .ok (.list l)
          | .err => .err
          | .panic => .panic
      else .err

/-- import_op.go:77-101 `NewBookImporterByConfig`, `NewCSVBookImporter`: the reader of a format; `none` = configuration error. -/
def importReader (decode : Str → Option (Json × Str)) (split : Nat → Str → Option (List (List Str))) (cfg : CLIConfig) :
    Option (Str → ReadRes SVal) :=
  if cfg.typ = [] then none
  else if cfg.typ = b!"csv" then
    if (cfg.str b!"delim" b!",").length ≠ 1 then none
    else
      match cfg.bool b!"header" false with
      | none => none
      | some header => some (readCSV split (cfg.str b!"delim" b!",") header)
  else if cfg.typ = b!"json" then
    some fun text =>
      match readJSON decode text with
      | some v => .ok v
      | none => .err
  else none

/-- convert.go:119-141 `GetBigRat`.  `setString` is `big.Rat.SetString`.  `SetFloat64` of a value that is not finite returns nil and
leaves the number unchanged, that is 0. -/
def getBigRat (setString : Str → Option Rat) : SVal → AmtArg
  | .none => .none
  | .float (.fin x) => .num x
  | .float _ => .num 0
  | .int i => .num i
  | .str s =>
    match setString s with
    | some r => .num r
    | Option.none => .bad
  | _ => .bad

/-- script/book.go:11-36 `Attr`: the amount (`amount`) or balance of a posting as a script sees it; `fl` is the rounding of
`big.Rat.Float64` (finite amounts). -/
def postingAmount (fl : Rat → Rat) (x : Rat) : SVal := .float (.fin (fl x))

end Verif
