import Verif.Spec.Commands
import Verif.Spec.Accum
import Verif.Spec.Builder

/-! # Specification: the figures of a summary -/

namespace Verif.Spec

/-- The posting belongs to the column. -/
def InColumn (today : Int) (r : ReportConf) (d : Int) (py : Str) (p : Posting) : Prop := shownDate today r p = d ∧ shownPayee r p = py

instance (today r d py p) : Decidable (InColumn today r d py p) := inferInstanceAs (Decidable (_ ∧ _))

/-- The worth of one unit of a posting in a subtotal: the price, in the base currency, on the date shown. -/
def sumRate (prices : PriceBook) (today : Int) (base : Str) (r : ReportConf) (p : Posting) : Rat :=
  if shownCCY base r p = base then shownRate prices today base r p
  else ((prices.getPrice (shownDate today r p) p.ccy base).map (·.1)).getD 0

/-- What the postings add to an account and all accounts below it, in a column, in the base currency. -/
def columnTree (prices : PriceBook) (today : Int) (a : AppConf) (r : ReportConf) (d : Int) (py k : Str) (ps : List Posting) : Rat :=
  weighted (fun p => decide (InColumn today r d py p ∧ AtOrAbove a.divider k p.acct)) (sumRate prices today a.baseCCY r) ps

/-- What the postings add to an account itself, in a column and a currency. -/
def columnEntry (prices : PriceBook) (today : Int) (a : AppConf) (r : ReportConf) (d : Int) (py ac c : Str) (ps : List Posting) : Rat :=
  weighted (fun p => decide (InColumn today r d py p ∧ p.acct = ac ∧ shownCCY a.baseCCY r p = c)) (shownRate prices today a.baseCCY r) ps

/-- The book shows the account in the currency in some column. -/
def ShownAcct (prices : PriceBook) (today : Int) (a : AppConf) (r : ReportConf) (ps : List Posting) (ac c : Str) : Prop :=
  ∃ d py, columnEntry prices today a r d py ac c ps ≠ 0

/-- A column of a summary with the subtotal accounts `S`: under one date and payee; one row per subtotal account at its own level, in the base
currency, with what the book has on the account and all below it; a row for every account and
currency shown anywhere; every other row with what the book has on the account itself. -/
structure SumColumn (prices : PriceBook) (today : Int) (a : AppConf) (r : ReportConf) (S : List Str) (ps : List Posting) (g : Txn) : Prop where
  nonempty : g ≠ []
  key : ∀ x ∈ g, ∀ y ∈ g, x.date = y.date ∧ x.payee = y.payee
  sums : ∀ k ∈ S, ∃ x, g.filter (fun x => decide (x.acct = k ∧ x.acctlevel = (levelOf S a.divider k : Int))) = [x] ∧ x.ccy = a.baseCCY ∧
    x.val = columnTree prices today a r x.date x.payee k ps
  full : ∀ ac c, ShownAcct prices today a r ps ac c → ∃ x ∈ g, x.acct = ac ∧ x.ccy = c ∧ x.val = columnEntry prices today a r x.date x.payee ac c ps
  rows : ∀ x ∈ g, (x.acct ∈ S ∧ x.ccy = a.baseCCY ∧ x.val = columnTree prices today a r x.date x.payee x.acct ps) ∨
    x.val = columnEntry prices today a r x.date x.payee x.acct x.ccy ps

/-- The columns `gs` of a summary of the postings `ps` with the subtotal accounts `S`: one column after the other, in order of date and payee; what
is in no column is nothing; and (when no two account names part at the divider) the subtotal accounts are those with something in another currency
than the base currency and the deepest common accounts of what is shown. -/
structure SummaryOf (prices : PriceBook) (today : Int) (a : AppConf) (r : ReportConf) (ps : List Posting) (S : List Str) (gs : List Txn) : Prop where
  distinct : S.Nodup
  columns : ∀ g ∈ gs, SumColumn prices today a r S ps g
  order : gs.Pairwise (fun g g' => ∀ x ∈ g, ∀ y ∈ g', TxnBefore x y)
  complete : ∀ d py, (∀ g ∈ gs, ∀ x ∈ g, ¬ (x.date = d ∧ x.payee = py)) → ∀ ac c, columnEntry prices today a r d py ac c ps = 0
  which : ∀ x, a.divider = [x] →
    (∀ ac c ac' c', ShownAcct prices today a r ps ac c → ShownAcct prices today a r ps ac' c' → ¬ PartAtDivider x ac ac') → gs ≠ [] →
    ∀ k, k ∈ S ↔ (∃ c, ShownAcct prices today a r ps k c ∧ c ≠ a.baseCCY) ∨
      (k ≠ [] ∧ ∃ ac c ac' c', ShownAcct prices today a r ps ac c ∧ ShownAcct prices today a r ps ac' c' ∧ (ac, c) ≠ (ac', c') ∧
        DeepestCommon [x] ac ac' k)

/-- A posting as an entry of the ledger file. -/
def Entry.asPosting (e : Entry) : Posting := ⟨e.date, e.payee, [], e.acct, e.ccy, e.amt, [], 0, 0, [], []⟩

end Verif.Spec
