import Verif.Basic

/-! # The configuration file: /repo/cmd/config.go -/

namespace Verif

/-- What is found at a path: nothing, something that cannot be read, or a file. -/
inductive FileState where
  | absent
  | unreadable
  | file (contents : Str)
deriving DecidableEq, Repr

/-- The file system, by path. -/
abbrev FS := Str → FileState

/-- The surroundings of the program: `NAME_CONF`, `os.UserConfigDir`, `os.UserHomeDir`, `filepath.Join` and
whether creating the directory and writing the file succeed. -/
structure ConfEnv where
  conf : Option Str
  configDir : Option Str
  homeDir : Option Str
  join : List Str → Str
  mkdirOk : Bool
  writeOk : Bool

/-- config.go:14-36: the candidates, in order, and `writeDefault`. -/
def candidates (e : ConfEnv) (name : Str) : List Str × Bool :=
  match e.conf with
  | some (c :: cs) => ([c :: cs], true)
  | _ =>
    ((match e.configDir with
      | some d => [e.join [d, name, name ++ b!".toml"], e.join [d, name, name ++ b!".cfg"]]
      | none => []) ++
     (match e.homeDir with
      | some d => [e.join [d, name ++ b!".toml"], e.join [d, name ++ b!".cfg"], e.join [d, b!"." ++ name ++ b!".toml"],
          e.join [d, b!"." ++ name ++ b!".cfg"]]
      | none => []) ++
     [name ++ b!".toml", name ++ b!".cfg"], e.configDir.isSome)

/-- What `load` makes of the configuration: the contents it decoded, nothing at all (the built-in
settings stay), or an error. -/
inductive Loaded where
  | decoded (path contents : Str)
  | nothing
  | wroteDefault (path : Str)
  | failed
deriving DecidableEq, Repr

/-- config.go:38-57: the loop over the candidates; `some` ends `load`.  `decode` is `toml.Decode` into the `Config` structure and
`Undecoded`: `none` if the contents are not valid, otherwise the keys that have no place in the structure, which is an error here. -/
def readFirst (decode : Str → Option (List Str)) (fs : FS) : List Str → Option Loaded
  | [] => none
  | f :: rest =>
    match fs f with
    | .absent => readFirst decode fs rest
    | .unreadable => some .failed
    | .file c => some (if decode c = some [] then .decoded f c else .failed)

/-- config.go:13-84 `load`: the outcome and the file system afterwards.  `dflt` is `DEFAULT_CONFIG_FILE`,
whose leftover keys are ignored (config.go:76).  A write that fails may leave
an arbitrary part `torn` of the contents behind (`none`: nothing). -/
def loadConfig (decode : Str → Option (List Str)) (dflt : Str) (torn : Option Str) (e : ConfEnv) (name : Str) (fs : FS) : Loaded × FS :=
  let (files, writeDefault) := candidates e name
  match readFirst decode fs files with
  | some r => (r, fs)
  | none =>
    if writeDefault = false then (.nothing, fs)
    else
      match files with
      | [] => (.failed, fs)
      | f :: _ =>
        if e.mkdirOk = false then (.failed, fs)
        else if e.writeOk = false then
          (.failed, fun p => if p = f then (match torn with | some t => .file t | none => fs p) else fs p)
        else (if (decode dflt).isSome then .wroteDefault f else .failed, fun p => if p = f then .file dflt else fs p)

end Verif
