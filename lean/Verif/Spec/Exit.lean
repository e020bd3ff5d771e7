import Verif.Spec.MainImport

/-! # Specification: how the program ends -/

namespace Verif.Spec

/-- The commands that work on the ledger: the words that choose them (for this configuration file), the rest of the line, and their flags. -/
inductive LedgerCommand (keys : Keys) : List Str → CmdLine → Table → Prop
  | command (names : List Str) (t : Table) (name : Str) (l : CmdLine) (hc : (names, t) ∈ commandTables) (hn : name ∈ names) :
    LedgerCommand keys [name] l t
  | import (l : CmdLine) (hno : ∀ a ∈ l.text, ¬ Defined keys a) : LedgerCommand keys [b!"import"] l (importFlagTable plainDef)
  | importDef (n : Str) (l : CmdLine) (hd : Defined keys n) (hn : NameGood n) :
    LedgerCommand keys [b!"import", n] l (importFlagTable (defOf keys n))
  | generate (l : CmdLine) (hno : ∀ a ∈ l.text, ¬ GenDefined keys a) : LedgerCommand keys [b!"generate"] l (genFlagTable plainGen)
  | generateDef (n : Str) (l : CmdLine) (hd : GenDefined keys n) (hn : NameGood n) :
    LedgerCommand keys [b!"generate", n] l (genFlagTable (genOf keys n))

/-- No definition has a blank in its name. -/
def NoBlanks (keys : Keys) : Prop := (∀ m, Defined keys m → 32 ∉ m) ∧ ∀ m, GenDefined keys m → 32 ∉ m

/-- The program ends with this status, and has printed nothing. -/
def EndsSilently (status : Nat) (x : Exit) : Prop := ∃ out, x = .done status out ∧ ∀ p ∈ out, p = .text []

end Verif.Spec
