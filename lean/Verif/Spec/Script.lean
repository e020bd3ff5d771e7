import Verif.Model.Script

/-! # Specification: data for scripts -/

namespace Verif.Spec

/-- A step into a value: an element of a list or an entry of an object. -/
inductive Step
  | idx (i : Nat) | key (k : Str)
  deriving DecidableEq

/-- What one sees at a place: a plain value, a list of so many elements, an object. -/
inductive Seen
  | null | bool (b : Bool) | num (x : Flt) | str (s : Str) | list (n : Nat) | obj
  deriving DecidableEq

/-- The value of the last entry of this key. -/
def entry {α : Type} (k : Str) : List (Str × α) → Option α
  | [] => none
  | (k', v) :: l => (entry k l).or (if k' = k then some v else none)

/-- What stands at a place of a JSON value. -/
def Json.look : Json → List Step → Option Seen
  | .null, [] => some .null
  | .bool b, [] => some (.bool b)
  | .num x, [] => some (.num x)
  | .str s, [] => some (.str s)
  | .arr l, [] => some (.list l.length)
  | .obj _, [] => some .obj
  | .arr l, .idx i :: p =>
    match l[i]? with
    | some j => Json.look j p
    | none => none
  | .obj l, .key k :: p =>
    match entry k l with
    | some j => Json.look j p
    | none => none
  | _, _ => none

/-- What a script sees at a place of its data. -/
def SVal.look : SVal → List Step → Option Seen
  | .none, [] => some .null
  | .bool b, [] => some (.bool b)
  | .float x, [] => some (.num x)
  | .str s, [] => some (.str s)
  | .list l, [] => some (.list l.length)
  | .dict _, [] => some .obj
  | .list l, .idx i :: p =>
    match l[i]? with
    | some j => SVal.look j p
    | none => none
  | .dict l, .key k :: p =>
    match entry k l with
    | some j => SVal.look j p
    | none => none
  | _, _ => none

/-- The place is an entry of an object (not the whole, not an element of a list). -/
def isEntry (p : List Step) : Bool :=
  match p.getLast? with
  | some (.key _) => true
  | _ => false

/-- The keys of a dictionary in the order a script's loop visits them. -/
def SVal.keys : SVal → List Str
  | .dict l => l.map (·.1)
  | _ => []

/-- Keys of objects are distinct, at every depth. -/
inductive Json.Ok : Json → Prop
  | null : Json.Ok .null
  | bool (b) : Json.Ok (.bool b)
  | num (x) : Json.Ok (.num x)
  | str (s) : Json.Ok (.str s)
  | arr (l) : (∀ j ∈ l, Json.Ok j) → Json.Ok (.arr l)
  | obj (l) : (l.map (·.1)).Nodup → (∀ e ∈ l, Json.Ok e.2) → Json.Ok (.obj l)

/-- The same JSON value with the entries of its objects, at every depth, in some other order. -/
inductive Reordered : Json → Json → Prop
  | refl (j) : Reordered j j
  | trans {j j' j''} : Reordered j j' → Reordered j' j'' → Reordered j j''
  | perm {l l'} : l.Perm l' → Reordered (.obj l) (.obj l')
  | elem (l1 l2) {j j'} : Reordered j j' → Reordered (.arr (l1 ++ j :: l2)) (.arr (l1 ++ j' :: l2))
  | val (l1 l2 k) {j j'} : Reordered j j' → Reordered (.obj (l1 ++ (k, j) :: l2)) (.obj (l1 ++ (k, j') :: l2))

end Verif.Spec
