import Verif.Basic
import Mathlib.Logic.Relation

/-! # Logging in to the bank: `CaptureCode` of /repo/cmd/download/net.go and `NewMonzoClient` of /repo/cmd/download/monzo.go

Every request to the local server is handled in its own goroutine; the handlers and the waiting program share the variables
`code`, `state` and `clientErr`, without a lock.  The model interleaves the single accesses to these variables. -/

namespace Verif

/-- net.go:103-105: what a request carries: the values of the query parameters `code` and `state`. -/
structure LoginReq where
  codes : List Str
  states : List Str
deriving DecidableEq

/-- net.go:96-98 and the goroutines at work.  A handler is given with its next step: 0 the first assignment, 1 the assignment to
`state`, 2 `server.Close`, 3 finished. -/
structure LoginState where
  code : Str
  state : Str
  err : Bool
  closed : Bool
  handlers : List (LoginReq × Nat)
deriving DecidableEq

/-- Where the waiting program is: in `ListenAndServe` (net.go:115), after the check of `clientErr` (120), after reading `code` (125),
or finished, with an error or with code and state. -/
inductive LoginMain
  | waiting
  | checked
  | hasCode (c : Str)
  | failed
  | done (c s : Str)
deriving DecidableEq

/-- net.go:96-98: at the start. -/
def loginInit : LoginState := ⟨[], [], false, false, []⟩

/-- net.go:102-114: one step of the handler of request `r`, from step `pc`; the new values of the variables and the next step. -/
def handlerStep (r : LoginReq) (pc : Nat) (s : LoginState) : LoginState × Nat :=
  match pc, r.codes, r.states with
  | 0, [c], [_] => ({ s with code := c }, 1)
  | 0, _, _ => ({ s with err := true }, 2)
  | 1, _, t :: _ => ({ s with state := t }, 2)
  | 1, _, [] => (s, 2)
  | _, _, _ => ({ s with closed := true }, 3)

/-- One step of the program as a whole: a request arrives (while the server is open), a handler goes on, or the waiting program does
(net.go:115-125). -/
inductive LoginStep : LoginState × LoginMain → LoginState × LoginMain → Prop
  | arrive {s m} (r : LoginReq) : s.closed = false → LoginStep (s, m) ({ s with handlers := s.handlers ++ [(r, 0)] }, m)
  | handle {s m} (i : Nat) (r : LoginReq) (pc : Nat) : s.handlers[i]? = some (r, pc) → pc < 3 →
      LoginStep (s, m) ({ (handlerStep r pc s).1 with handlers := s.handlers.set i (r, (handlerStep r pc s).2) }, m)
  | check {s} : s.closed = true → LoginStep (s, .waiting) (s, if s.err then .failed else .checked)
  | readCode {s} : LoginStep (s, .checked) (s, .hasCode s.code)
  | readState {s c} : LoginStep (s, .hasCode c) (s, .done c s.state)

/-- monzo.go:137-145: what follows: the code to be exchanged for a token, if the state is the one of this run. -/
def loginExchange (own : Str) : LoginMain → Option Str
  | .done c s => if s = own then some c else none
  | _ => none

end Verif
