import Verif.Basic

/-! # Access tokens: `Token` of /repo/cmd/download/nordigen.go

`oauth2.Transport` asks for a token before every request (nordigen.go:147-149).  Times are instants on the clock, in seconds. -/

namespace Verif

/-- nordigen.go:69-74 `NordigenToken` -/
structure BankToken where
  access : Str
  accessExpires : Int
  refresh : Str
  refreshExpires : Int
deriving DecidableEq

/-- nordigen.go:85-90 `NordigenJSONToken`: the bank's answer; lifetimes in seconds, 0 if left out. -/
structure TokenAnswer where
  access : Str
  accessExpires : Int
  refresh : Str
  refreshExpires : Int
deriving DecidableEq

/-- What a call of `Token` meets: the clock at its readings (nordigen.go:95, 106, 108 and 110, 119) and the bank's answers to a
request for a new token (`none`: the request fails) and for a refreshed one. -/
structure TokenCall where
  t0 : Int
  t1 : Int
  t2 : Int
  fresh : Option TokenAnswer
  refreshed : Option TokenAnswer

/-- nordigen.go:83-130 `Token`: the access token and its expiry, unless the bank does not answer, and the token kept. -/
def tokenCall (c : TokenCall) (cur : Option BankToken) : Option (Str × Int) × Option BankToken :=
  let renew := match c.fresh with
    | none => (none, cur)
    | some a =>
      let k : BankToken := ⟨a.access, c.t1 + a.accessExpires, a.refresh, c.t2 + a.refreshExpires⟩
      (some (k.access, k.accessExpires), some k)
  match cur with
  | none => renew
  | some k =>
    if c.t0 > k.accessExpires then renew
    else if c.t1 > k.refreshExpires then
      match c.refreshed with
      | none => (none, cur)
      | some a =>
        let k := { k with refresh := a.refresh, refreshExpires := c.t2 + a.refreshExpires }
        (some (k.access, k.accessExpires), some k)
    else (some (k.access, k.accessExpires), cur)

/-- A run of requests, from the token in the state file: the answers in turn. -/
def tokenRun (cur : Option BankToken) : List TokenCall → List (Option (Str × Int))
  | [] => []
  | c :: cs => (tokenCall c cur).1 :: tokenRun (tokenCall c cur).2 cs

end Verif
