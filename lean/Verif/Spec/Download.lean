import Verif.Model.Download

/-! # Specification of downloading (C67-C70) -/

namespace Verif.Spec

/-- The last element of `log` that satisfies `p`. -/
def lastSuch {α : Type} (p : α → Bool) (log : List α) : Option α := log.reverse.find? p

/-- The time of a transaction in nanoseconds. -/
def time (t : MonzoTxn) : Int := t.created.getD 0

/-- `t` is not before `since` (in whole seconds). -/
def notBefore (since : Option Int) (t : MonzoTxn) : Bool :=
  match since with
  | none => true
  | some s => decide (s * 1000000000 ≤ time t)

/-- A server that holds the transactions `items`, oldest first, and answers with the oldest hundred that are not before
`since`. -/
def serve (items : List MonzoTxn) : MonzoServer := fun _ _ since => .ok ((items.filter (notBefore since)).take 100)

/-- A bank: the transactions of every account, oldest first, as they are when the `n`-th request is answered, and the
second from which on transactions may be asked for (`none`: all of them). -/
structure Bank where
  holds : Nat → Str → List MonzoTxn
  limit : Option Int

/-- The bank does not answer requests that reach back too far. -/
def Bank.allows (b : Bank) (since : Option Int) : Prop := ∀ l, b.limit = some l → ∃ s, since = some s ∧ l ≤ s

open Classical in
/-- How a bank answers: with the oldest hundred transactions that are not before `since`. -/
noncomputable def Bank.answers (b : Bank) : MonzoServer := fun n acct since =>
  if b.allows since then .ok (((b.holds n acct).filter (notBefore since)).take 100) else .forbidden

/-- What may be expected of a bank: its transactions have a time and are listed oldest first.  (They may be changed, and
new ones may come in, at any time.) -/
structure Bank.Ok (b : Bank) : Prop where
  parses : ∀ n a, ∀ t ∈ b.holds n a, t.created ≠ none
  order : ∀ n a, (b.holds n a).Pairwise fun x y => time x ≤ time y

/-- The account `a` has, from the first request on, a transaction with this id and time. -/
def Bank.has (b : Bank) (a id : Str) (at_ : Int) : Prop := ∀ n, ∃ t ∈ b.holds n a, t.id = id ∧ time t = at_

/-- The transactions of the 61 seconds that start with second `s`. -/
def inWindow (items : List MonzoTxn) (s : Int) : List MonzoTxn :=
  items.filter fun t => decide (s * 1000000000 ≤ time t ∧ time t < (s + 61) * 1000000000)

/-- What the bank has on record for the feeds of its customers: for every account and category the versions of its items
in the order in which they were made, and how many of them there are when the `n`-th request is answered. -/
structure Feeds where
  versions : (acct cat : Str) → List FeedItem
  known : Nat → (acct cat : Str) → Nat

/-- The versions at the time of the `n`-th request. -/
def Feeds.upTo (b : Feeds) (n : Nat) (acct cat : Str) : List FeedItem := (b.versions acct cat).take (b.known n acct cat)

/-- `v` is the last version of its item. -/
def Current (l : List FeedItem) (v : FeedItem) : Prop := lastSuch (fun i => decide (i.uid = v.uid)) l = some v

/-- Later versions have later times, and nothing is forgotten. -/
structure Feeds.Ok (b : Feeds) (tt : TimeText) : Prop where
  times : ∀ a c, ∀ v ∈ b.versions a c, ∃ t, tt.parse v.updatedAt = some t ∧ 0 ≤ t
  order : ∀ a c, (b.versions a c).Pairwise fun v w => ∀ s t, tt.parse v.updatedAt = some s → tt.parse w.updatedAt = some t → s ≤ t
  grows : ∀ n n' a c, n ≤ n' → b.known n a c ≤ b.known n' a c

/-- The server answers a request for changes with all items that were last changed at or after that time. -/
def Feeds.answers (b : Feeds) (tt : TimeText) (srv : StServer) : Prop :=
  ∀ n a c since items, srv.feed n a c since = some items →
    ∃ s, tt.parse since = some s ∧ ∀ v, v ∈ items ↔ Current (b.upTo n a c) v ∧ ∃ t, tt.parse v.updatedAt = some t ∧ s ≤ t

/-- An account was opened before anything happened on it. -/
def Feeds.opened (b : Feeds) (tt : TimeText) (a : StAccount) : Prop :=
  ∀ s, tt.parse a.createdAt = some s → ∀ c, ∀ v ∈ b.versions a.uid c, ∀ t, tt.parse v.updatedAt = some t → s ≤ t

/-- Twenty days before a time is not after it. -/
def SoundTimes (tt : TimeText) : Prop := ∀ t, 0 ≤ t → ∀ s, tt.parse (tt.back t) = some s → s ≤ t

/-- The stored feed is that of the first `k` versions: every item, in its last version, under its id. -/
def AsOf (f : SMap FeedItem) (l : List FeedItem) : Prop :=
  (f.map (·.1)).Nodup ∧ ∀ uid, f.get uid = lastSuch (fun i => decide (i.uid = uid)) l

/-- A state file: every account under its id, and every feed as the bank had it at some time, at the latest when the
`n`-th request was answered. -/
structure Synced (b : Feeds) (tt : TimeText) (n : Nat) (m : SMap StData) : Prop where
  accounts : ∀ id d a, m.get id = some d → d.account = some a → a.uid = id ∧ b.opened tt a
  feeds : ∀ id d c f, m.get id = some d → d.feed.get c = some f → ∃ k ≤ b.known n id c, AsOf f ((b.versions id c).take k)

/-- What can have happened to a state file: it is new, or a sync succeeded, or it failed and left the file as it was.
`u` bounds the number of versions the bank had when the last sync ended. -/
inductive StHistory (tt : TimeText) (versions : (acct cat : Str) → List FeedItem) : (u : Str → Str → Nat) → SMap StData → Prop
  | new : StHistory tt versions (fun _ _ => 0) []
  | sync (u u' : Str → Str → Nat) (m m' : SMap StData) (b : Feeds) (srv : StServer) (allData : Bool) (ord : List Str → List Str)
      (delivered : StLog) (h : StHistory tt versions u m) (hv : b.versions = versions) (hb : b.Ok tt) (hs : b.answers tt srv)
      (hacc : ∀ as, srv.accounts = some as → ∀ a ∈ as, b.opened tt a) (hord : ∀ l, (ord l).Perm l)
      (hu : ∀ a c, u a c ≤ b.known 0 a c) (hu' : ∀ n a c, b.known n a c ≤ u' a c)
      (hrun : starlingSync srv (starlingSince tt allData) ord m = some (delivered, m')) : StHistory tt versions u' m'

/-- A throttled request: when the throttler was called, the time slot it computed, and when the request went
out. -/
structure Req where
  now : Int
  slot : Int
  sent : Int

/-- A history of requests, one after the other: the slot is what the throttler computes, `time.Sleep` sleeps
at least as long as asked, and the next call is made after the request was sent. -/
inductive History (min : Int) : (last from_ : Int) → List Req → Prop
  | nil (last from_ : Int) : History min last from_ []
  | cons (last from_ : Int) (r : Req) (rs : List Req) (h1 : from_ ≤ r.now) (h2 : r.slot = throttle min last r.now)
      (h3 : r.slot ≤ r.sent) (h4 : History min r.slot r.sent rs) : History min last from_ (r :: rs)

/-- The contents `SaveToFile` is meant to leave behind. -/
def newContents (e : SaveEnv) : Option Str :=
  match e.json, e.gz with
  | none, _ => none
  | some b, none => some b
  | some b, some f => some ((f b).1 ++ (f b).2)

end Verif.Spec
