import Verif.Basic

/-! # The web server: /repo/cmd/web/web.go

`http.ListenAndServe` runs the handler of every request in a goroutine of its own; all of them share one `WebApp`. -/

namespace Verif

/-- The fields of `App`, `TransactionReport` and `RegisterReport` that have a command line flag (app.go:161-167,
report.go:73-82, register.go:52-61), by the name of the flag.  Values as text. -/
abbrev Settings := Str → Str

/-- One flag: pflag stores its value in the field it was registered for. -/
def Settings.assign (s : Settings) (kv : Str × Str) : Settings := fun k => if k = kv.1 then kv.2 else s k

/-- Several flags, in order. -/
def Settings.assigns (s : Settings) (l : List (Str × Str)) : Settings := l.foldl Settings.assign s

/-- The commands.  `parse` is pflag and cobra: the flags set, in order, and the command with its arguments (`none`: a flag or argument
error; the flags before it are set).  `run` is what the command prints with these settings: the commands load the ledger anew
(app.go:56-63) and keep nothing else. -/
structure WebCmds where
  parse : List Str → List (Str × Str) × Option (List Str)
  run : Settings → List Str → Str
  /-- web.go:91: `Error: …` -/
  error : List Str → Str

/-- Where the goroutine of a request is. -/
inductive Phase
  | fresh
  | opened
  | parsed (args : Option (List Str))
  | loaded (text : Str)
  | done
deriving DecidableEq

/-- The server: the shared settings, `app.Output` (the request whose response it is), the goroutines and the responses so far. -/
structure Web where
  settings : Settings
  output : Nat
  phase : Nat → Phase
  resp : Nat → Str

/-- Setting one entry of a table. -/
def setAt {α : Type} (f : Nat → α) (i : Nat) (x : α) : Nat → α := fun j => if j = i then x else f j

/-- A server just started. -/
def Web.start (base : Settings) : Web := ⟨base, 0, fun _ => .fresh, fun _ => []⟩

/-- One step of the goroutine of request `i`, whose query has the arguments `args`.
* `fresh`: web.go:98-111 and app.go:161-199: `app.Output` is set and the flags are registered, their defaults being the present values
  (so registering, which stores the default, changes nothing);
* `opened`: web.go:114-117: the arguments are parsed, which stores the flags in the shared structures;
* `parsed`: the command loads the ledger and computes its report (taken as one step) or reports the error on its own response
  (web.go:89-92; the usage text is left out);
* `loaded`: print.go:65: the report is written to `app.Output` (taken as one step). -/
def Web.step (c : WebCmds) (reqs : Nat → List Str) (w : Web) (i : Nat) : Web :=
  match w.phase i with
  | .fresh => { w with output := i, phase := setAt w.phase i .opened }
  | .opened =>
    { w with settings := w.settings.assigns (c.parse (reqs i)).1, phase := setAt w.phase i (.parsed (c.parse (reqs i)).2) }
  | .parsed none => { w with phase := setAt w.phase i .done, resp := setAt w.resp i (w.resp i ++ c.error (reqs i)) }
  | .parsed (some args) => { w with phase := setAt w.phase i (.loaded (c.run w.settings args)) }
  | .loaded text => { w with phase := setAt w.phase i .done, resp := setAt w.resp w.output (w.resp w.output ++ text) }
  | .done => w

/-- A schedule: which goroutine takes each step. -/
def Web.sched (c : WebCmds) (reqs : Nat → List Str) (w : Web) (l : List Nat) : Web := l.foldl (Web.step c reqs) w

end Verif
