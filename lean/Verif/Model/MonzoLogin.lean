import Verif.Basic

/-! # The Monzo login over many runs: `NewMonzoClient` of /repo/cmd/download/monzo.go and the client of golang.org/x/oauth2 v0.3.0

The library is represented by its contract: a token counts as expired ten seconds before its expiry; the client made by `conf.Client` renews an expired
token before a request and keeps the new one in memory.  Not modelled: the first login (C98), a token without expiry, failing files (C97). -/

namespace Verif

/-- `oauth2.Token`: access token, refresh token, expiry in seconds. -/
structure OToken where
  access : Str
  refresh : Str
  expiry : Int
deriving DecidableEq

/-- What the bank grants for a refresh token, given what it granted before and the time. -/
abbrev Grant := OToken → Int → OToken

/-- The bank accepts the refresh token it gave out last and no other; `none`: refused. -/
def bankRefresh (grant : Grant) (bank : OToken) (refresh : Str) (now : Int) : Option OToken :=
  if refresh = bank.refresh then some (grant bank now) else none

/-- `oauth2.Token.expired`: ten seconds early. -/
def OToken.expired (t : OToken) (now : Int) : Bool := decide (t.expiry - 10 < now)

/-- `reuseTokenSource.Token`: the token held, renewed if it has expired; the token and the bank's state. -/
def sourceToken (grant : Grant) (bank tok : OToken) (now : Int) : Option (OToken × OToken) :=
  if tok.expired now then (bankRefresh grant bank tok.refresh now).map fun n => (n, n) else some (tok, bank)

/-- How a run ends: the state file's token, the bank, for each request the time, the token sent and the bank's token then, whether all went well. -/
structure LoginEnd where
  file : OToken
  bank : OToken
  used : List (Int × OToken × OToken)
  ok : Bool

/-- The requests of `Sync` (monzo.go:68-100), at the times given: each with the token of `conf.Client` (monzo.go:187), which stays in memory.  At the
end (or not) the data is saved, with the token as it was when the client was made (monzo.go:102, 189). -/
def requests (grant : Grant) (file bank tok : OToken) : List Int → LoginEnd
  | [] => ⟨file, bank, [], true⟩
  | t :: ts =>
    match sourceToken grant bank tok t with
    | none => ⟨file, bank, [], false⟩
    | some (tok, bank) =>
      let r := requests grant file bank tok ts
      { r with used := (t, tok, bank) :: r.used }

/-- monzo.go:109-192 `NewMonzoClient` with a token in the state file, then the requests. -/
def monzoRun (grant : Grant) (file bank : OToken) (start : Int) (times : List Int) : LoginEnd :=
  if file.expiry < start then
    match sourceToken grant bank file start with
    | none => ⟨file, bank, [], false⟩
    | some (tok, bank) =>
      let file := if tok.access ≠ file.access then tok else file
      requests grant file bank file times
  else requests grant file bank file times

/-- Run after run, each with its start and the times of its requests. -/
def monzoRuns (grant : Grant) : OToken → OToken → List (Int × List Int) → List LoginEnd
  | _, _, [] => []
  | file, bank, (s, ts) :: rs =>
    let r := monzoRun grant file bank s ts
    r :: monzoRuns grant r.file r.bank rs

end Verif
