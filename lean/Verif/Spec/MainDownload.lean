import Verif.Spec.MainImport
import Verif.Model.MainDownload

/-! # Specification: the settings of the download commands -/

namespace Verif.Spec

/-- The flags of `download monzo`. -/
def monzoFlagTable : Table := [(b!"clientid", none, .text), (b!"clientsecret", none, .text), (b!"port", some 112, .number)] ++ appFlagTable

/-- The flags of `download starling`. -/
def starlingFlagTable : Table := [(b!"personalAccessToken", none, .text), (b!"alldata", none, .switch)] ++ appFlagTable

/-- The flags of `download nordigen`. -/
def nordigenFlagTable : Table := [(b!"Client ID", none, .text), (b!"Client Secret", none, .text)] ++ appFlagTable

/-- The port: 12345 if the file does not say one, or says 0. -/
def filePort (keys : Keys) : Int :=
  if fileInt keys [b!"download", b!"monzo", b!"port"] 0 = 0 then 12345 else fileInt keys [b!"download", b!"monzo", b!"port"] 0

/-- The settings of `download monzo`: the command line, or else the configuration file, or else what is built in. -/
def monzoOf (f : FlagEnv) (keys : Keys) (line : List (Str × Str)) : MonzoConf where
  clientID := lineStr line b!"clientid" (fileStr keys [b!"download", b!"monzo", b!"clientid"] [])
  clientSecret := lineStr line b!"clientsecret" (fileStr keys [b!"download", b!"monzo", b!"clientsecret"] [])
  port := lineInt f line b!"port" (filePort keys)

/-- The settings of `download starling`. -/
def starlingOf (keys : Keys) (line : List (Str × Str)) : StarlingConf where
  token := lineStr line b!"personalAccessToken" (fileStr keys [b!"download", b!"starling", b!"personalaccesstoken"] [])
  allData := lineBool line b!"alldata" (fileBool keys [b!"download", b!"starling", b!"alldata"] false)

/-- The settings of `download nordigen`. -/
def nordigenOf (keys : Keys) (line : List (Str × Str)) : NordigenConf where
  clientID := lineStr line b!"Client ID" (fileStr keys [b!"download", b!"nordigen", b!"clientid"] [])
  clientSecret := lineStr line b!"Client Secret" (fileStr keys [b!"download", b!"nordigen", b!"clientsecret"] [])

/-- The keys of the banks that take texts. -/
def bankTextKeys : List (List Str) := [
  [b!"download", b!"monzo", b!"clientid"], [b!"download", b!"monzo", b!"clientsecret"], [b!"download", b!"starling", b!"personalaccesstoken"],
  [b!"download", b!"nordigen", b!"clientid"], [b!"download", b!"nordigen", b!"clientsecret"]]

/-- What the file says in the table `download`: settings there are, with values of their kinds. -/
def BanksGood (keys : Keys) : Prop :=
  ∀ x ∈ keys, (x.1.map smallStr).head? = some b!"download" →
    (x.1.map smallStr ∈ bankTextKeys ∧ ∃ s, x.2 = .str s) ∨
    (x.1.map smallStr = [b!"download", b!"monzo", b!"port"] ∧ ∃ i, x.2 = .int i) ∨
    (x.1.map smallStr = [b!"download", b!"starling", b!"alldata"] ∧ ∃ b, x.2 = .bool b)

/-- The banks and their flags. -/
def bankTables : List (Str × Table) := [(b!"monzo", monzoFlagTable), (b!"starling", starlingFlagTable), (b!"nordigen", nordigenFlagTable)]

end Verif.Spec
