import Verif.Model.Book

/-! # `RegexCCY` on the price map: /repo/book/book_utils.go:42-56

The loop inserts into and deletes from the map it ranges over.  Go's rule: entries present at
the start and not yet reached are produced unless deleted before; an entry created during the
loop may or may not be produced; the order is arbitrary.  A run is therefore a derivation of
`RangeRun`. -/

namespace Verif

/-- book_utils.go:44-50: the renamed pair. -/
def renamePair (mat : Str → Bool) (rep : Str → Str) (k : Str × Str) : Str × Str :=
  (if mat k.1 then rep k.1 else k.1, if mat k.2 then rep k.2 else k.2)

/-- Go `delete(m, k)`. -/
def PriceBook.del (b : PriceBook) (k : Str × Str) : PriceBook := b.filter fun kv => decide (kv.1 ≠ k)

/-- book_utils.go:51-55: the rest of the loop body. -/
def renameBody (ρ : Str × Str → Str × Str) (m : PriceBook) (k : Str × Str) (pl : PriceList) : PriceBook :=
  if ρ k = k then m else (m.set (ρ k) pl).del k

/-- The entries created by the loop and not yet produced, after the body ran on `k`. -/
def freshAfter (ρ : Str × Str → Str × Str) (m : PriceBook) (k : Str × Str) (fresh : List (Str × Str)) : List (Str × Str) :=
  if ρ k = k then fresh else if m.find (ρ k) = none then ρ k :: fresh else fresh

/-- Possible runs of the loop: `todo` are the original keys not yet reached, `fresh` the keys
created by the loop and not yet produced. -/
inductive RangeRun (ρ : Str × Str → Str × Str) : List (Str × Str) → List (Str × Str) → PriceBook → PriceBook → Prop
  | done (fresh m) : RangeRun ρ [] fresh m m
  | gone (k todo fresh m m') : k ∈ todo → m.find k = none →
      RangeRun ρ (todo.erase k) fresh m m' → RangeRun ρ todo fresh m m'
  | visit (k pl todo fresh m m') : k ∈ todo → m.find k = some pl →
      RangeRun ρ (todo.erase k) (freshAfter ρ m k fresh) (renameBody ρ m k pl) m' → RangeRun ρ todo fresh m m'
  | extra (k pl todo fresh m m') : k ∈ fresh → m.find k = some pl →
      RangeRun ρ todo (freshAfter ρ m k (fresh.erase k)) (renameBody ρ m k pl) m' → RangeRun ρ todo fresh m m'

/-- book_utils.go:42-56: `m'` is a possible result of the loop on `m`. -/
def RegexCCYPrices (mat : Str → Bool) (rep : Str → Str) (m m' : PriceBook) : Prop :=
  RangeRun (renamePair mat rep) (m.map (·.1)).dedup [] m m'

end Verif
