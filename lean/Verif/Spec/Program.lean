import Verif.Spec.MainImport
import Verif.Spec.ImportCmd

/-! # Specification: command lines of import, for the whole program -/

namespace Verif.Spec

/-- A command line of import that can be read and lacks nothing: the words that choose the command (for this configuration file), the rest of the line,
and the definition. -/
inductive ImportLine (fe : FlagEnv) (keys : Keys) : List Str → CmdLine → ImpDef → Prop
  | plain (l : CmdLine) (hno : ∀ a ∈ l.text, ¬ Defined keys a) (hl : l.Good fe (importFlagTable plainDef)) (hh : asksHelp (l.flags (importFlagTable plainDef)) = false)
    (ha : l.words ≠ []) (hc : Complete (l.flags (importFlagTable plainDef)) plainDef) : ImportLine fe keys [b!"import"] l plainDef
  | named (n : Str) (l : CmdLine) (hd : Defined keys n) (hn : NameGood n) (hl : l.Good fe (importFlagTable (defOf keys n)))
    (hh : asksHelp (l.flags (importFlagTable (defOf keys n))) = false) (ha : l.words ≠ [])
    (hc : Complete (l.flags (importFlagTable (defOf keys n))) (defOf keys n)) : ImportLine fe keys [b!"import", n] l (defOf keys n)

/-- A command line of generate that can be read and lacks nothing. -/
inductive GenerateLine (fe : FlagEnv) (keys : Keys) : List Str → CmdLine → GenDef → Prop
  | plain (l : CmdLine) (hno : ∀ a ∈ l.text, ¬ GenDefined keys a) (hl : l.Good fe (genFlagTable plainGen)) (hh : asksHelp (l.flags (genFlagTable plainGen)) = false)
    (ha : l.words = []) (hc : Given (l.flags (genFlagTable plainGen)) b!"code") : GenerateLine fe keys [b!"generate"] l plainGen
  | named (n : Str) (l : CmdLine) (hd : GenDefined keys n) (hn : NameGood n) (hl : l.Good fe (genFlagTable (genOf keys n)))
    (hh : asksHelp (l.flags (genFlagTable (genOf keys n))) = false) (ha : l.words = [])
    (hc : (genOf keys n).code = [] → Given (l.flags (genFlagTable (genOf keys n))) b!"code") : GenerateLine fe keys [b!"generate", n] l (genOf keys n)

end Verif.Spec

namespace Verif
open Spec

/-- The settings of an import, with the default currency for a definition without one. -/
def ImpDef.settled (a : AppConf) (d : ImpDef) : ImpDef := if d.ccy = [] then { d with ccy := a.baseCCY } else d

/-- The files with `more` added to the end of the ledger. -/
def World.appended (w : World) (f more : Str) : World := { w with files := appendTo w.files f more }

end Verif
