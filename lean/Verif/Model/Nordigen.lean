import Verif.Model.State

/-! # `goledger download nordigen`: /repo/cmd/download/nordigen.go, from the state file to the state file

One run loads the state, sets up the bank if there is none yet, or fetches what is new, and saves the state.  Not modelled: the token (C99), the pauses
between requests (C70), a file that is written in part (C67), what is printed besides the link. -/

namespace Verif

/-- The requests of a run, in order. -/
inductive NordReq
  | institutions (country : Str)
  | create (institution : Str)
  | requisition (id : Str)
  | basic (account : Str)
  | details (account : Str)
  | transactions (account : Str)
deriving DecidableEq

/-- What happens in a run: what the user types (`none`: nothing that can be read), the JSON the bank answers to each request (`none`: any failure),
and whether the file can be written. -/
structure NordDay where
  country : Option Str
  choice : Option Int
  answer : NordReq → Option Json
  writes : Bool

/-- How a run ends: with the link to visit, with the data saved, with an error, with a crash. -/
inductive NordFin
  | link (l : Str)
  | synced
  | failed
  | crash
deriving DecidableEq

/-- The state file after a run, the requests of the run, and how it ended. -/
structure NordEnd where
  file : Option Json
  asked : List NordReq
  fin : NordFin

/-- nordigen.go:213-216, 317-320: `SaveToFile`, and then the end. -/
def nordSave (e : JsonEnv) (day : NordDay) (file : Option Json) (asked : List NordReq) (s : NordState) (fin : NordFin) : NordEnd :=
  if day.writes then ⟨some ((nordCodec e).enc s), asked, fin⟩ else ⟨file, asked, .failed⟩

/-- nordigen.go:161-218: the part of `Init` for a state without an institution. -/
def nordSetup (e : JsonEnv) (day : NordDay) (file : Option Json) (s : NordState) : NordEnd :=
  match day.country with
  | none => ⟨file, [], .failed⟩
  | some c =>
    match (day.answer (.institutions c)).bind (recCodec e institutionKeys).slice.dec with
    | none => ⟨file, [.institutions c], .failed⟩
    | some vals =>
      match day.choice with
      | none => ⟨file, [.institutions c], .failed⟩
      | some k =>
        if k < 0 ∨ (vals.getD []).length ≤ k then ⟨file, [.institutions c], .failed⟩
        else
          match (vals.getD [])[k.toNat]? with
          | none => ⟨file, [.institutions c], .crash⟩
          | some i =>
            let id := i.fields.headD []
            match (day.answer (.create id)).bind (requisitionCodec e).dec with
            | none => ⟨file, [.institutions c, .create id], .failed⟩
            | some r => nordSave e day file [.institutions c, .create id] { s with institution := some i, requisition := some r } (.link r.link)

/-- nordigen.go:403-412: the booked transactions are entered under their ids. -/
def nordBook (booked : List Rec) (m : SMap (Option Rec)) : SMap (Option Rec) :=
  booked.foldl (fun m r => SMap.put m (r.fields.headD []) (some r)) m

/-- nordigen.go:360-365: the data of an account, new if there is none; `none` is a nil pointer. -/
def nordAcct (m : SMap (Option NordAcctState)) (a : Str) : Option NordAcctState :=
  match SMap.get m a with
  | none => some ⟨.null, .null, none⟩
  | some x => x

/-- How the loop over the accounts ends: the accounts, an error, a crash. -/
inductive NordGot
  | got (m : SMap (Option NordAcctState))
  | failed
  | crash

/-- nordigen.go:356-415: the loop over the accounts, with the requests made.  The reply `null` to the request for the transactions leaves a nil
pointer, which is dereferenced. -/
def nordFetch (e : JsonEnv) (day : NordDay) : List Str → SMap (Option NordAcctState) → List NordReq × NordGot
  | [], m => ([], .got m)
  | a :: as, m =>
    match nordAcct m a with
    | none => ([], .crash)
    | some acct =>
      match (day.answer (.basic a)).bind (goValue e) with
      | none => ([NordReq.basic a], .failed)
      | some b =>
        match (day.answer (.details a)).bind (goValue e) with
        | none => ([NordReq.basic a, .details a], .failed)
        | some d =>
          match day.answer (.transactions a) with
          | some .null => ([NordReq.basic a, .details a, .transactions a], .crash)
          | answer =>
            match answer.bind (nordReply e) with
            | none => ([NordReq.basic a, .details a, .transactions a], .failed)
            | some (booked, _) =>
              let rest := nordFetch e day as (SMap.put m a (some ⟨b, d, some (nordBook booked (acct.transactions.getD []))⟩))
              ([NordReq.basic a, .details a, .transactions a] ++ rest.1, rest.2)

/-- nordigen.go:306-323 `Sync`, 337-343 `RefreshRequisition`, 350-418 `RefreshAccounts`. -/
def nordSyncRun (e : JsonEnv) (day : NordDay) (file : Option Json) (s : NordState) : NordEnd :=
  match s.requisition with
  | none => ⟨file, [], .crash⟩
  | some r =>
    match (day.answer (.requisition r.id)).bind (requisitionCodec e).dec with
    | none => ⟨file, [.requisition r.id], .failed⟩
    | some r' =>
      let got := nordFetch e day r'.accounts (s.accounts.getD [])
      match got.2 with
      | .crash => ⟨file, .requisition r.id :: got.1, .crash⟩
      | .failed => ⟨file, .requisition r.id :: got.1, .failed⟩
      | .got m => nordSave e day file (.requisition r.id :: got.1) ⟨some m, s.institution, some r'⟩ .synced

/-- nordigen.go:33-52, 132-159: a run on a state file (`none`: there is none). -/
def nordRun (e : JsonEnv) (file : Option Json) (day : NordDay) : NordEnd :=
  match loadState (nordCodec e) ⟨none, none, none⟩ file with
  | none => ⟨file, [], .failed⟩
  | some s =>
    match s.institution with
    | none => nordSetup e day file s
    | some _ => nordSyncRun e day file s

end Verif
