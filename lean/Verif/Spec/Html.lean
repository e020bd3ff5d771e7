import Verif.Basic

/-! # Specification: what an HTML document shows -/

namespace Verif.Spec

/-- Reads an HTML text and lists, in order, the elements without inner elements: opening tag and text.  `tag` is the tag being read,
if any; `cur` the element opened last, if it has not been closed, with its text so far.  `none`: the text ends within a tag.  (Character
entities are not decoded.) -/
def readLeaves : Option Str → Option (Str × Str) → Str → Option (List (Str × Str))
  | none, _, [] => some []
  | some _, _, [] => none
  | none, cur, c :: s =>
    if c = 60 then readLeaves (some []) cur s
    else readLeaves none (cur.map fun e => (e.1, e.2 ++ [c])) s
  | some a, cur, c :: s =>
    if c = 62 then
      if a.head? = some 47 then (readLeaves none none s).map fun l => cur.toList ++ l
      else readLeaves none (some (a, [])) s
    else readLeaves (some (a ++ [c])) cur s

/-- The elements of an HTML document that hold text only. -/
def htmlLeaves (s : Str) : Option (List (Str × Str)) := readLeaves none none s

/-- The opening tag of a div of a class. -/
def divTag (c : Str) : Str := b!"div class=\"" ++ c ++ [34]

/-- How many `div` elements are open after a tag. -/
def tagDepth (a : Str) (d : Nat) : Option Nat :=
  if a = b!"/div" then (if d = 0 then none else some (d - 1))
  else if a.take 4 = b!"div " then some (d + 1) else some d

/-- Reads an HTML text and counts the `div` elements left open; `none`: the text ends within a tag, or closes a `div` that is not open. -/
def readDivs : Nat → Option Str → Str → Option Nat
  | d, none, [] => some d
  | _, some _, [] => none
  | d, none, c :: s => if c = 60 then readDivs d (some []) s else readDivs d none s
  | d, some a, c :: s =>
    if c = 62 then (tagDepth a d).bind fun d => readDivs d none s
    else readDivs d (some (a ++ [c])) s

/-- The `div` elements a document leaves open. -/
def leftOpen (s : Str) : Option Nat := readDivs 0 none s

end Verif.Spec
