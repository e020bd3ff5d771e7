import Verif.Model.Download
import Verif.Model.Builder

/-! # The addresses of the requests: /repo/cmd/download

`net/url` and `golang.org/x/oauth2` v0.3.0 are modelled by their documented behaviour.  Texts are bytes. -/

namespace Verif

/-- `"0123456789ABCDEF"[n]` -/
def upperHex (n : Nat) : Nat := if n < 10 then 48 + n else 55 + n

/-- net/url `shouldEscape` for query components, negated: letters, digits, `-`, `_`, `.`, `~`. -/
def keepByte (c : Nat) : Bool :=
  decide ((65 ≤ c ∧ c ≤ 90) ∨ (97 ≤ c ∧ c ≤ 122) ∨ (48 ≤ c ∧ c ≤ 57) ∨ c = 45 ∨ c = 95 ∨ c = 46 ∨ c = 126)

/-- net/url `QueryEscape`. -/
def queryEscape : Str → Str
  | [] => []
  | c :: s =>
    if c = 32 then 43 :: queryEscape s
    else if keepByte c then c :: queryEscape s
    else 37 :: upperHex (c / 16) :: upperHex (c % 16) :: queryEscape s

/-- One key of `url.Values` with one value, in the order of the keys. -/
def insertValue (x : Str × Str) : List (Str × Str) → List (Str × Str)
  | [] => [x]
  | y :: l => if strBefore y.1 x.1 = true then y :: insertValue x l else x :: y :: l

/-- net/url `Values.Encode`, for keys with one value each. -/
def encodeValues (l : List (Str × Str)) : Str :=
  List.intercalate b!"&" ((l.foldr insertValue []).map fun x => queryEscape x.1 ++ b!"=" ++ queryEscape x.2)

/-- monzo.go:328-334 `getTransactions` (`LIMIT` is 100, monzo.go:256). -/
def monzoAddress (account since : Str) : Str :=
  b!"https://api.monzo.com/transactions?" ++
    encodeValues [(b!"since", since), (b!"limit", b!"100"), (b!"account_id", account), (b!"expand[]", b!"merchant")]

/-- monzo.go:125, 58-61: `RedirectURL`; net.go:99 listens on the same port. -/
def monzoReturn (port : Int) : Str := b!"http://localhost:" ++ intDec port ++ b!"/"

/-- monzo.go:115-141: `conf.AuthCodeURL(state, oauth2.AccessTypeOffline)`, without scopes; the state is a number and not empty. -/
def monzoLink (clientID : Str) (port : Int) (state : Str) : Str :=
  b!"https://auth.monzo.com/?" ++
    encodeValues [(b!"response_type", b!"code"), (b!"client_id", clientID), (b!"redirect_uri", monzoReturn port), (b!"state", state),
      (b!"access_type", b!"offline")]

/-- starling.go:132: the address of a feed. -/
def starlingAddress (account category since : Str) : Str :=
  b!"https://api.starlingbank.com/api/v2/feed/account/" ++ account ++ b!"/category/" ++ category ++ b!"?changesSince=" ++ since

/-- nordigen.go:330-337: the address of the institutions of a country. -/
def nordigenAddress (country : Str) : Str :=
  b!"https://ob.nordigen.com/api/v2/institutions?payments_enabled=true&country=" ++ country

/-- nordigen.go:98-101: the form posted for a new token (`PostForm` sends `Values.Encode`). -/
def nordigenNewForm (clientID clientSecret : Str) : Str := encodeValues [(b!"secret_id", clientID), (b!"secret_key", clientSecret)]

/-- nordigen.go:114-116: the form posted to refresh a token. -/
def nordigenRefreshForm (refresh : Str) : Str := encodeValues [(b!"refresh", refresh)]

/-- nordigen.go:194-197: the form posted for a requisition. -/
def nordigenRequisitionForm (institution : Str) : Str :=
  encodeValues [(b!"redirect", b!"http://localhost:8080/"), (b!"institution_id", institution)]

/-- nordigen.go:338 -/
def nordigenRequisition (id : Str) : Str := b!"https://ob.nordigen.com/api/v2/requisitions/" ++ id ++ b!"/"

/-- nordigen.go:369 -/
def nordigenBasic (id : Str) : Str := b!"https://ob.nordigen.com/api/v2/accounts/" ++ id ++ b!"/"

/-- nordigen.go:375 -/
def nordigenDetails (id : Str) : Str := b!"https://ob.nordigen.com/api/v2/accounts/" ++ id ++ b!"/details"

/-- nordigen.go:392 -/
def nordigenTransactions (id : Str) : Str := b!"https://ob.nordigen.com/api/v2/accounts/" ++ id ++ b!"/transactions"

/-- starling.go:184 -/
def starlingIdentifiers (id : Str) : Str := b!"https://api.starlingbank.com/api/v2/accounts/" ++ id ++ b!"/identifiers"

/-- starling.go:194 -/
def starlingSpaces (id : Str) : Str := b!"https://api.starlingbank.com/api/v2/account/" ++ id ++ b!"/spaces"

end Verif
