import Verif.Model.MonzoLogin

/-! # Specification: a login that lasts -/

namespace Verif.Spec

/-- The bank: a new access token every time, valid for at least `life` seconds. -/
structure Grants (grant : Grant) (life : Int) : Prop where
  fresh : ∀ o t, (grant o t).access ≠ o.access
  lasts : ∀ o t, t + life ≤ (grant o t).expiry

/-- Each refresh token is good for one use. -/
def Rotates (grant : Grant) : Prop := ∀ o t, (grant o t).refresh ≠ o.refresh

/-- A run: its requests come one after the other, the last within `span` seconds of the start. -/
def Within (span start : Int) (times : List Int) : Prop := ∀ t ∈ times, start ≤ t ∧ t ≤ start + span

/-- The token has not expired when the run starts and expires, or is about to (ten seconds), by one of its requests. -/
def Overtaken (expiry start : Int) (times : List Int) : Prop := start ≤ expiry ∧ ∃ t ∈ times, expiry - 10 < t

/-- All requests went out, each with a token that had not expired. -/
def Sent (r : LoginEnd) (n : Nat) : Prop := r.ok = true ∧ r.used.length = n ∧ ∀ x ∈ r.used, x.1 + 10 ≤ x.2.1.expiry

/-- All requests went out, each with the bank's token of that time, which had not expired. -/
def Served (r : LoginEnd) (n : Nat) : Prop := Sent r n ∧ ∀ x ∈ r.used, x.2.1 = x.2.2

end Verif.Spec
