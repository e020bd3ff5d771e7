import Verif.Model.MainImport

/-! # The download commands: the settings and flags of /repo/cmd/download

What a download does with its settings is a parameter here (see Model/Download, Model/MonzoLogin, Model/Nordigen, Model/State).  The bank comes second
on the command line (cobra also looks for it behind flags). -/

namespace Verif

/-- monzo.go:16-20 `MonzoDownload` -/
structure MonzoConf where
  clientID : Str
  clientSecret : Str
  port : Int

/-- starling.go:16-19 `StarlingDownload` -/
structure StarlingConf where
  token : Str
  allData : Bool

/-- nordigen.go:17-20 `NordigenDownload` -/
structure NordigenConf where
  clientID : Str
  clientSecret : Str

/-- download.go:7-11 `Download` -/
structure DownConf where
  monzo : MonzoConf
  starling : StarlingConf
  nordigen : NordigenConf

/-- root.go:33-35: zero values. -/
def DownConf.zero : DownConf := ⟨⟨[], [], 0⟩, ⟨[], false⟩, ⟨[], []⟩⟩

/-- config.go:46-54: one key of the table `download`; `none` = there is no such field, or the value is of another type. -/
def downField (d : DownConf) (k : List Str) (v : TomlVal) : Option DownConf :=
  match k.map lowerStr, v with
  | [b, f], .str s =>
    if b = b!"monzo" then
      if f = b!"clientid" then some { d with monzo := { d.monzo with clientID := s } }
      else if f = b!"clientsecret" then some { d with monzo := { d.monzo with clientSecret := s } }
      else none
    else if b = b!"starling" then
      if f = b!"personalaccesstoken" then some { d with starling := { d.starling with token := s } } else none
    else if b = b!"nordigen" then
      if f = b!"clientid" then some { d with nordigen := { d.nordigen with clientID := s } }
      else if f = b!"clientsecret" then some { d with nordigen := { d.nordigen with clientSecret := s } }
      else none
    else none
  | [b, f], .bool x =>
    if b = b!"starling" ∧ f = b!"alldata" then some { d with starling := { d.starling with allData := x } } else none
  | [b, f], .int i =>
    if b = b!"monzo" ∧ f = b!"port" then some { d with monzo := { d.monzo with port := i } } else none
  | _, _ => none

/-- config.go:46-54: the table `download`; the other keys are read elsewhere. -/
def readDown : DownConf → List (List Str × TomlVal) → Option DownConf
  | d, [] => some d
  | d, ([], _) :: l => readDown d l
  | d, (t :: f, v) :: l =>
    if lowerStr t = b!"download" then (downField d f v).bind fun d => readDown d l else readDown d l

/-- monzo.go:25-27: the port, unless one is set. -/
def MonzoConf.added (c : MonzoConf) : MonzoConf := if c.port = 0 then { c with port := 12345 } else c

/-- monzo.go:35-37: the flags of `download monzo`, with those of the application. -/
def monzoFlags (f : FlagEnv) : List (FlagOf (CmdState MonzoConf)) :=
  [stringVar b!"clientid" none (·.d.clientID) fun s v => { s with d := { s.d with clientID := v } },
    stringVar b!"clientsecret" none (·.d.clientSecret) fun s v => { s with d := { s.d with clientSecret := v } },
    { intVar f.num b!"port" (·.d.port) fun s v => { s with d := { s.d with port := v } } with short := some 112 }] ++
  appFlags.map liftFlag

/-- starling.go:30-32: the flags of `download starling`. -/
def starlingFlags : List (FlagOf (CmdState StarlingConf)) :=
  [stringVar b!"personalAccessToken" none (·.d.token) fun s v => { s with d := { s.d with token := v } },
    boolVar b!"alldata" none (·.d.allData) fun s v => { s with d := { s.d with allData := v } }] ++
  appFlags.map liftFlag

/-- nordigen.go:31-32: the flags of `download nordigen`; their names have a blank. -/
def nordigenFlags : List (FlagOf (CmdState NordigenConf)) :=
  [stringVar b!"Client ID" none (·.d.clientID) fun s v => { s with d := { s.d with clientID := v } },
    stringVar b!"Client Secret" none (·.d.clientSecret) fun s v => { s with d := { s.d with clientSecret := v } }] ++
  appFlags.map liftFlag

/-- What the downloads do, with their settings and the name of the state file (the `RunE` of the commands and main.go:10-15). -/
structure BankWorld where
  monzo : MonzoConf → Str → Exit
  starling : StarlingConf → Str → Exit
  nordigen : NordigenConf → Str → Exit

/-- cobra `Command.execute` for a bank: flags, help, exactly one argument (monzo.go:38, starling.go:33, nordigen.go:33), run. -/
def downExecute {δ : Type} (w : World) (fs : List (FlagOf (CmdState δ))) (run : δ → Str → Exit) (name : Str) (d : δ) (args : List Str) (c : Conf) : Exit :=
  match parseArgs fs (args.length + 1) args ⟨c, d, []⟩ with
  | none => .done 1 []
  | some (s, args) =>
    if s.conf.help then .done 0 [.text (w.usage name)]
    else match args with
      | [f] => run s.d f
      | _ => .done 1 []

/-- download.go:13-25 `Add`: the command and its three banks. -/
def downMain (w : World) (bw : BankWorld) (d : DownConf) (other : List Str → Conf → Exit) (args : List Str) (c : Conf) : Exit :=
  match args with
  | cmd :: bank :: rest =>
    if cmd = b!"download" then
      if bank = b!"monzo" then downExecute w (monzoFlags w.flags) bw.monzo bank d.monzo.added rest c
      else if bank = b!"starling" then downExecute w starlingFlags bw.starling bank d.starling rest c
      else if bank = b!"nordigen" then downExecute w nordigenFlags bw.nordigen bank d.nordigen rest c
      else other args c
    else other args c
  | _ => other args c

/-- root.go:32-78 with the download commands. -/
def goledgerDown (w : World) (im : ImpWorld) (bw : BankWorld) (lang : Option Str) (keys : Option (List (List Str × TomlVal)))
    (other : List Str → Conf → Exit) (args : List Str) : Exit :=
  match keys.bind (readDown DownConf.zero) with
  | some d => goledgerMain w im lang keys (downMain w bw d other) args
  | none => .done 1 []

end Verif
