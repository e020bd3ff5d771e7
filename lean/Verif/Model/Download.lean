import Verif.Basic

/-! # Downloading and saving

/repo/cmd/download/{monzo,starling,nordigen,net}.go and /repo/cmd/utils/json.go.  Servers are arbitrary
functions of the number of requests made so far, so that every history of replies is covered. -/

namespace Verif

/-- A Go `map[string]α`. -/
abbrev SMap (α : Type) := List (Str × α)

/-- `m[k]` -/
def SMap.get {α : Type} (m : SMap α) (k : Str) : Option α :=
  match m with
  | [] => none
  | (k', v) :: m => if k' = k then some v else SMap.get m k

/-- `m[k] = v` -/
def SMap.put {α : Type} (m : SMap α) (k : Str) (v : α) : SMap α :=
  match m with
  | [] => [(k, v)]
  | (k', v') :: m => if k' = k then (k, v) :: m else (k', v') :: SMap.put m k v

/-! ## Monzo -/

/-- monzo.go:217-221 `Transaction`: `created` is what `time.Parse(time.RFC3339, t.Created)` gives, in
nanoseconds since the zero `time.Time` (`none`: it does not parse). -/
structure MonzoTxn where
  id : Str
  created : Option Int
  data : Str
deriving DecidableEq, Repr

/-- What a request for transactions returns: a decoded reply, status 403, or any other error. -/
inductive MonzoReply where
  | ok (trans : List MonzoTxn)
  | forbidden
  | failed

/-- monzo.go:256 `LIMIT` -/
def monzoLimit : Nat := 100

/-- The server, as a function of the number of earlier requests, the account and `since` (`none`
stands for the empty string, otherwise whole seconds). -/
abbrev MonzoServer := Nat → Str → Option Int → MonzoReply

/-- monzo.go:287-297: store the transactions of one reply and find the latest `created`; `none` if a
timestamp does not parse. -/
def storeAll (m : SMap MonzoTxn) (created : Int) : List MonzoTxn → Option (SMap MonzoTxn × Int)
  | [] => some (m, created)
  | t :: ts =>
    match t.created with
    | none => none
    | some c => storeAll (m.put t.id t) (if created < c then c else created) ts

/-- `created.Add(-1 * time.Second * 60).Format(time.RFC3339)`: whole seconds, cut off.  (`created` is
at or after the zero time, so cutting off is rounding down unless it is within the first minute.) -/
def sinceOf (created : Int) : Int := (created - 60 * 1000000000) / 1000000000

/-- What happens to a download: it ends, it returns an error, or it is still running after the
given number of rounds. -/
inductive DL (α : Type) where
  | done (a : α)
  | failed
  | running

/-- monzo.go:258-311 `GetAllTransactions`.  `ago` is `time.Now()` minus 89 days, as a function of the
number of requests.  `n` counts the requests and `log` records the transactions the server
delivered, in order. -/
def getAll (srv : MonzoServer) (ago : Nat → Int) (acct : Str) :
    (fuel : Nat) → (since : Option Int) → (n : Nat) → (log : List MonzoTxn) → (m : SMap MonzoTxn) →
      DL (Nat × List MonzoTxn × SMap MonzoTxn)
  | 0, _, _, _, _ => .running
  | fuel + 1, since, n, log, m =>
    let first := srv n acct since
    let (n, reply) :=
      match since, first with
      | none, .forbidden => (n + 2, srv (n + 1) acct (some (ago n)))
      | _, r => (n + 1, r)
    match reply with
    | .forbidden => .failed
    | .failed => .failed
    | .ok ts =>
      if ts = [] then .done (n, log, m)
      else
        match storeAll m 0 ts with
        | none => .failed
        | some (m, created) =>
          if ts.length < monzoLimit then .done (n, log ++ ts, m)
          else getAll srv ago acct fuel (some (sinceOf created)) n (log ++ ts) m

/-- monzo.go:54-58 `MonzoData`, without the token. -/
structure MonzoData where
  trans : SMap MonzoTxn
  accts : SMap Str
deriving DecidableEq, Repr

/-- monzo.go:91-95: all accounts, in the order in which the map is walked. -/
def monzoAccounts (srv : MonzoServer) (ago : Nat → Int) (fuel : Nat) :
    List Str → (n : Nat) → (log : List MonzoTxn) → SMap MonzoTxn → DL (List MonzoTxn × SMap MonzoTxn)
  | [], _, log, m => .done (log, m)
  | a :: as, n, log, m =>
    match getAll srv ago a fuel none n log m with
    | .done (n, log, m) => monzoAccounts srv ago fuel as n log m
    | .failed => .failed
    | .running => .running

/-- monzo.go:67-104 `Sync`, up to saving: `whoami` is the outcome of `VerifyAuthenticated`, `accounts`
the reply to the account request (ids and data), `ord` the order in which the map is walked. -/
def monzoSync (whoami : Bool) (accounts : Option (List (Str × Str))) (ord : List Str → List Str)
    (srv : MonzoServer) (ago : Nat → Int) (fuel : Nat) (d : MonzoData) : DL (List MonzoTxn × MonzoData) :=
  if whoami = false then .failed
  else match accounts with
    | none => .failed
    | some as =>
      let accts := as.foldl (fun m a => m.put a.1 a.2) d.accts
      match monzoAccounts srv ago fuel (ord (accts.map (·.1))) 0 [] d.trans with
      | .done (log, m) => .done (log, ⟨m, accts⟩)
      | .failed => .failed
      | .running => .running

/-! ## Starling -/

/-- starling.go:309-314 `FeedItem` -/
structure FeedItem where
  uid : Str
  updatedAt : Str
  data : Str
deriving DecidableEq, Repr

/-- starling.go:231-236 `StarlingAccount` -/
structure StAccount where
  uid : Str
  defaultCat : Str
  createdAt : Str
deriving DecidableEq, Repr

/-- starling.go:48-53 `StarlingAccountData`, without the identifiers and spaces. -/
structure StData where
  account : Option StAccount
  feed : SMap (SMap FeedItem)
deriving DecidableEq, Repr

/-- The Starling server; the first argument is the number of earlier requests, `none` is any error. -/
structure StServer where
  accounts : Option (List StAccount)
  identifiers : Nat → Str → Bool
  feed : Nat → (acct cat since : Str) → Option (List FeedItem)
  spaces : Nat → Str → Option (List Str × List Str)
  payees : Nat → Bool

/-- What has been delivered: account, category and items of each feed reply. -/
abbrev StLog := List (Str × Str × List FeedItem)

/-- Times as texts: `time.Parse(time.RFC3339, s)`, in nanoseconds from some moment, and
`t.AddDate(0, 0, -20).Format(time.RFC3339)`. -/
structure TimeText where
  parse : Str → Option Int
  back : Int → Str

/-- Go's `a < b` on strings. -/
def strBefore : Str → Str → Bool
  | [], [] => false
  | [], _ :: _ => true
  | _ :: _, [] => false
  | a :: as, b :: bs => if a < b then true else if b < a then false else strBefore as bs

/-- starling.go:102-107: the greatest `UpdatedAt`.  (The map is walked in any order, here in that of the list.) -/
def recentTime (feed : SMap FeedItem) : Str :=
  feed.foldl (fun r i => if r = [] ∨ strBefore r i.2.updatedAt = true then i.2.updatedAt else r) []

/-- starling.go:89, 99-121: the time from which on a feed is asked for (`none`: the time does not parse). -/
def starlingSince (tt : TimeText) (allData : Bool) (a : StAccount) (feed : SMap FeedItem) : Option Str :=
  if allData = false ∧ feed ≠ [] then
    match tt.parse (recentTime feed) with
    | none => none
    | some t => some (if strBefore a.createdAt (tt.back t) = true then tt.back t else a.createdAt)
  else some a.createdAt

/-- starling.go:87-153 `syncFeed`; `since` is the time asked for (lines 99-120, `none` if the latest time
does not parse).  `none`: error, or the nil `acct.Account` of a damaged state file. -/
def syncFeed (srv : StServer) (since : StAccount → SMap FeedItem → Option Str) (id cat : Str)
    (s : Nat × StLog × StData) : Option (Nat × StLog × StData) :=
  match s.2.2.account with
  | none => none
  | some a =>
    let feed := (s.2.2.feed.get cat).getD []
    match since a feed with
    | none => none
    | some t =>
      match srv.feed s.1 a.uid cat t with
      | none => none
      | some items =>
        some (s.1 + 1, s.2.1 ++ [(id, cat, items)],
          { s.2.2 with feed := s.2.2.feed.put cat (items.foldl (fun f i => f.put i.uid i) feed) })

/-- The loops of starling.go:202-213. -/
def syncFeeds (srv : StServer) (since : StAccount → SMap FeedItem → Option Str) (id : Str) :
    List Str → Nat × StLog × StData → Option (Nat × StLog × StData)
  | [], s => some s
  | c :: cs, s =>
    match syncFeed srv since id c s with
    | none => none
    | some s => syncFeeds srv since id cs s

/-- starling.go:184-214: one account. -/
def syncAcct (srv : StServer) (since : StAccount → SMap FeedItem → Option Str) (id : Str)
    (s : Nat × StLog × StData) : Option (Nat × StLog × StData) :=
  if srv.identifiers s.1 id = false then none
  else match s.2.2.account with
    | none => none
    | some a =>
      match syncFeed srv since id a.defaultCat (s.1 + 1, s.2.1, s.2.2) with
      | none => none
      | some s =>
        match srv.spaces s.1 id with
        | none => none
        | some (savings, spending) =>
          match syncFeeds srv since id savings (s.1 + 1, s.2.1, s.2.2) with
          | none => none
          | some s => syncFeeds srv since id spending s

/-- starling.go:183-215: the loop over the accounts, in the order in which the map is walked. -/
def syncAccts (srv : StServer) (since : StAccount → SMap FeedItem → Option Str) :
    List Str → Nat × StLog × SMap StData → Option (Nat × StLog × SMap StData)
  | [], s => some s
  | id :: ids, (n, log, m) =>
    match m.get id with
    | none => syncAccts srv since ids (n, log, m)
    | some d =>
      match syncAcct srv since id (n, log, d) with
      | none => none
      | some (n, log, d) => syncAccts srv since ids (n, log, m.put id d)

/-- starling.go:173-179: the accounts of the reply are entered. -/
def addAccount (m : SMap StData) (a : StAccount) : SMap StData :=
  match m.get a.uid with
  | none => m.put a.uid ⟨some a, []⟩
  | some d => m.put a.uid { d with account := some a }

/-- starling.go:156-229 `Sync`, up to saving. -/
def starlingSync (srv : StServer) (since : StAccount → SMap FeedItem → Option Str) (ord : List Str → List Str)
    (m : SMap StData) : Option (StLog × SMap StData) :=
  match srv.accounts with
  | none => none
  | some as =>
    let m := as.foldl addAccount m
    match syncAccts srv since (ord (m.map (·.1))) (0, [], m) with
    | none => none
    | some (n, log, m) => if srv.payees n = false then none else some (log, m)

/-! ## Nordigen -/

/-- nordigen.go:282-285 `NordigenTransaction` -/
structure NordTxn where
  id : Str
  data : Str
deriving DecidableEq, Repr

/-- The Nordigen server; `none` is any error.  `requisition`: the account ids it lists;
`trans`: the booked and the pending transactions. -/
structure NordServer where
  requisition : Option (List Str)
  basic : Nat → Str → Bool
  details : Nat → Str → Bool
  trans : Nat → Str → Option (List NordTxn × List NordTxn)

/-- nordigen.go:374-416: the loop over the accounts of the requisition.  The log records account and
booked transactions of every reply. -/
def nordAccts (srv : NordServer) : List Str → Nat × List (Str × List NordTxn) × SMap (SMap NordTxn) →
    Option (Nat × List (Str × List NordTxn) × SMap (SMap NordTxn))
  | [], s => some s
  | a :: as, (n, log, m) =>
    if srv.basic n a = false then none
    else if srv.details (n + 1) a = false then none
    else match srv.trans (n + 2) a with
      | none => none
      | some (booked, _) =>
        nordAccts srv as (n + 3, log ++ [(a, booked)],
          m.put a (booked.foldl (fun f t => f.put t.id t) ((m.get a).getD [])))

/-- nordigen.go:306-323 `Sync`, up to saving. -/
def nordigenSync (srv : NordServer) (m : SMap (SMap NordTxn)) : Option (List (Str × List NordTxn) × SMap (SMap NordTxn)) :=
  match srv.requisition with
  | none => none
  | some as => (nordAccts srv as (0, [], m)).map (·.2)

/-! ## Throttling -/

/-- net.go:19-31: one call of the throttler.  `last` is `lasttime`, `now` is `time.Now()`; the result is the
new `lasttime`, which is also the earliest time at which the call returns. -/
def throttle (min last now : Int) : Int :=
  let delay := last + min - now
  if delay > 0 then now + delay else now

/-! ## Saving -/

/-- What the operating system and the encoders do during one `SaveToFile`: whether `MkdirAll` and
`OpenFile` succeed, the JSON text (`none`: marshalling fails), for a .gz file what the compressor
sends to the file on `Write` and on `Close`, and how many bytes of each write reach the file
(`none`: all of them and no error).  What the operating system does with the bytes after they were
accepted (power failure before they reach the disk, errors of closing the file) is not modelled. -/
structure SaveEnv where
  mkdirOk : Bool
  openOk : Bool
  json : Option Str
  gz : Option (Str → Str × Str)
  cut1 : Option Nat
  cut2 : Option Nat

/-- The contents of a file while the bytes `w` are being appended to `c`: a crash may happen after any
byte. -/
def appending (c : Str) (w : Str) : List (Option Str) :=
  (List.range (w.length + 1)).map fun i => some (c ++ w.take i)

/-- The bytes of a write that reach the file. -/
def written (cut : Option Nat) (w : Str) : Str :=
  match cut with
  | none => w
  | some k => w.take k

/-- What `SaveToFile` does: the contents of the file at every moment (`none`: no file), the contents
it ends with and whether it reports success. -/
structure Saved where
  states : List (Option Str)
  final : Option Str
  success : Bool

/-- json.go:101-158 `SaveToFile`, with `old` the contents of the file before.  Opening with `O_TRUNC`
empties the file; the deferred functions run the compressor's `Close` and then the file's; they
report their errors only if there is an error already (lines 119, 131), so success is decided by
lines 138-149 alone.  On an error of marshalling (line 140) or writing (line 146) the compressor is
still closed; what it then writes after a failed `Write` is nothing (it keeps the error). -/
def saveToFile (e : SaveEnv) (old : Option Str) : Saved :=
  if e.mkdirOk = false then ⟨[old], old, false⟩
  else if e.openOk = false then ⟨[old], old, false⟩
  else
    match e.json with
    | none =>
      match e.gz with
      | none => ⟨[old, some []], some [], false⟩
      | some f =>
        let w2 := written e.cut2 (f []).2
        ⟨[old] ++ appending [] w2, some w2, false⟩
    | some b =>
      match e.gz with
      | none =>
        let w1 := written e.cut1 b
        ⟨[old] ++ appending [] w1, some w1, e.cut1.isNone⟩
      | some f =>
        let w1 := written e.cut1 (f b).1
        let w2 := if e.cut1.isSome then [] else written e.cut2 (f b).2
        ⟨[old] ++ appending [] w1 ++ appending w1 w2, some (w1 ++ w2), e.cut1.isNone⟩

end Verif
