import Verif.Spec.Order
import Verif.Spec.Price

/-! # Specification: running a command again -/

namespace Verif.Spec

/-- A renaming of currencies is clear for a table of prices: no two pairs of currencies with prices get the same names, and the new names are not
renamed again. -/
structure ClearRename (f : Str → Str) (m : PriceBook) : Prop where
  inj : ∀ u c pl u' c' pl', m.find (u, c) = some pl → m.find (u', c') = some pl' → f u = f u' → f c = f c' → u = u' ∧ c = c'
  once : ∀ u c pl, m.find (u, c) = some pl → f (f u) = f u ∧ f (f c) = f c

/-- Every renaming of currencies among the operations, one after the other, is clear for the prices at that point. -/
def ClearOps (e : OpEnv) : List Str → PriceBook → Prop
  | [], _ => True
  | op :: ops, m =>
    match parsePrim e op with
    | some (.mapccy s r) => ClearRename (newName (e.mat s) (e.rep s r)) m ∧ ClearOps e ops (e.walk (e.mat s) (e.rep s r) m)
    | _ => ClearOps e ops m

end Verif.Spec

namespace Verif

/-- The same environment in another run: another sorting algorithm, and maps are walked in another order. -/
def OpEnv.again (e : OpEnv) (srt : List Posting → List Posting) (walk : (Str → Bool) → (Str → Str) → PriceBook → PriceBook) : OpEnv :=
  { e with srt := srt, walk := walk }

/-- The same files, with maps walked in another order. -/
def Env.again (le : Env) (ord : Builder → List (Str × Rat)) : Env := { le with ord := ord }

end Verif
