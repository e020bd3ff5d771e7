import Verif.Model.Token
import Mathlib.Data.List.Forall2
import Mathlib.Tactic.Linarith

/-! # C99: requests carry an access token that has not expired -/

namespace Verif

/-- The clock does not go back, and lifetimes are not negative. -/
structure TokenCall.Sane (c : TokenCall) : Prop where
  clock : c.t0 ≤ c.t1 ∧ c.t1 ≤ c.t2
  fresh : ∀ a, c.fresh = some a → 0 ≤ a.accessExpires

/-- The token is one the bank gave: the one in the state file, or one given in one of the calls; it expires when the bank said. -/
def Issued (start : Option BankToken) (calls : List TokenCall) (access : Str) (expires : Int) : Prop :=
  (∃ k, start = some k ∧ k.access = access ∧ k.accessExpires = expires) ∨
    ∃ c ∈ calls, ∃ a, c.fresh = some a ∧ a.access = access ∧ expires = c.t1 + a.accessExpires

theorem tokenCall_spec {c : TokenCall} (hc : c.Sane) {cur : Option BankToken} {a : Str} {e : Int} (h : (tokenCall c cur).1 = some (a, e)) :
    c.t0 ≤ e ∧ Issued cur [c] a e := by
  have renew : ∀ x, c.fresh = some x → (some (x.access, c.t1 + x.accessExpires) : Option (Str × Int)) = some (a, e) →
      c.t0 ≤ e ∧ Issued cur [c] a e := by
    intro x hx he
    simp only [Option.some.injEq, Prod.mk.injEq] at he
    obtain ⟨rfl, rfl⟩ := he
    have := hc.fresh x hx
    have := hc.clock.1
    exact ⟨by linarith, .inr ⟨c, by simp, x, hx, rfl, rfl⟩⟩
  unfold tokenCall at h
  cases cur with
  | none =>
    cases hx : c.fresh with
    | none => simp [hx] at h
    | some x => simp only [hx] at h; exact renew x hx h
  | some k =>
    simp only at h
    split at h
    · cases hx : c.fresh with
      | none => simp [hx] at h
      | some x => simp only [hx] at h; exact renew x hx h
    · rename_i hle
      split at h
      · cases hx : c.refreshed with
        | none => simp [hx] at h
        | some x =>
          simp only [hx, Option.some.injEq, Prod.mk.injEq] at h
          obtain ⟨rfl, rfl⟩ := h
          exact ⟨by omega, .inl ⟨k, rfl, rfl, rfl⟩⟩
      · simp only [Option.some.injEq, Prod.mk.injEq] at h
        obtain ⟨rfl, rfl⟩ := h
        exact ⟨by omega, .inl ⟨k, rfl, rfl, rfl⟩⟩

theorem tokenCall_keeps (c : TokenCall) (cur : Option BankToken) : ∀ k, (tokenCall c cur).2 = some k →
    Issued cur [c] k.access k.accessExpires := by
  intro k h
  have renew : ∀ x, c.fresh = some x → k = ⟨x.access, c.t1 + x.accessExpires, x.refresh, c.t2 + x.refreshExpires⟩ →
      Issued cur [c] k.access k.accessExpires := by
    rintro x hx rfl
    exact .inr ⟨c, by simp, x, hx, rfl, rfl⟩
  unfold tokenCall at h
  cases cur with
  | none =>
    cases hx : c.fresh with
    | none => simp [hx] at h
    | some x => simp only [hx, Option.some.injEq] at h; exact renew x hx h.symm
  | some k' =>
    simp only at h
    split at h
    · cases hx : c.fresh with
      | none => simp only [hx, Option.some.injEq] at h; subst h; exact .inl ⟨_, rfl, rfl, rfl⟩
      | some x => simp only [hx, Option.some.injEq] at h; exact renew x hx h.symm
    · split at h
      · cases hx : c.refreshed with
        | none => simp only [hx, Option.some.injEq] at h; subst h; exact .inl ⟨_, rfl, rfl, rfl⟩
        | some x => simp only [hx, Option.some.injEq] at h; subst h; exact .inl ⟨_, rfl, rfl, rfl⟩
      · simp only [Option.some.injEq] at h; subst h; exact .inl ⟨_, rfl, rfl, rfl⟩

theorem issued_trans {start cur : Option BankToken} {pre : List TokenCall} {c : TokenCall} {a : Str} {e : Int}
    (hcur : ∀ k, cur = some k → Issued start pre k.access k.accessExpires) (h : Issued cur [c] a e) : Issued start (pre ++ [c]) a e := by
  rcases h with ⟨k, hk, rfl, rfl⟩ | ⟨d, hd, x, hx⟩
  · rcases hcur k hk with h | ⟨d, hd, x⟩
    · exact .inl h
    · exact .inr ⟨d, List.mem_append_left _ hd, x⟩
  · exact .inr ⟨d, List.mem_append_right _ hd, x, hx⟩

theorem tokenRun_spec (start : Option BankToken) (cs : List TokenCall) (hs : ∀ c ∈ cs, c.Sane) : ∀ (pre : List TokenCall) (cur : Option BankToken),
    (∀ k, cur = some k → Issued start pre k.access k.accessExpires) →
    List.Forall₂ (fun c r => ∀ a e, r = some (a, e) → c.t0 ≤ e ∧ Issued start (pre ++ cs) a e) cs (tokenRun cur cs) := by
  induction cs with
  | nil => intro pre cur _; exact .nil
  | cons c cs ih =>
    intro pre cur hcur
    have hk : ∀ k, (tokenCall c cur).2 = some k → Issued start (pre ++ [c]) k.access k.accessExpires :=
      fun k hk => issued_trans hcur (tokenCall_keeps c cur k hk)
    refine .cons ?_ ?_
    · intro a e h
      obtain ⟨h1, h2⟩ := tokenCall_spec (hs c (by simp)) h
      refine ⟨h1, ?_⟩
      rcases issued_trans hcur h2 with h | ⟨d, hd, x⟩
      · exact .inl h
      · exact .inr ⟨d, by rcases List.mem_append.1 hd with h | h <;> simp_all, x⟩
    · have := ih (fun c hc => hs c (List.mem_cons_of_mem _ hc)) (pre ++ [c]) (tokenCall c cur).2 hk
      simpa using this

/-- C99: in every run of requests, whatever the bank answers, the access token sent with a request is one that the bank gave (or the one in
the state file) and has not expired at the time of the request. -/
theorem c99_not_expired (start : Option BankToken) (cs : List TokenCall) (hs : ∀ c ∈ cs, c.Sane) :
    List.Forall₂ (fun c r => ∀ a e, r = some (a, e) → c.t0 ≤ e ∧ Issued start cs a e) cs (tokenRun start cs) := by
  have := tokenRun_spec start cs hs [] start (fun k hk => .inl ⟨k, hk, rfl, rfl⟩)
  simpa using this

/-- C99: the bank is asked for a new token only if there is none or the old one has expired: otherwise the token kept is sent, even if the
bank would answer nothing. -/
theorem c99_kept (c : TokenCall) (k : BankToken) (h : c.t0 ≤ k.accessExpires) (hr : c.t1 ≤ k.refreshExpires) :
    tokenCall c (some k) = (some (k.access, k.accessExpires), some k) := by
  simp only [tokenCall]
  rw [if_neg (by omega), if_neg (by omega)]

/-- A run: no token, then the token kept, then expired. -/
def demoTokenCalls : List TokenCall :=
  [⟨100, 101, 101, some ⟨b!"A", 50, b!"R", 500⟩, none⟩, ⟨140, 140, 140, none, none⟩, ⟨152, 153, 153, some ⟨b!"B", 50, b!"S", 500⟩, none⟩]

/-- Non-vacuity: three requests, of which the first and the third fetch a token. -/
example : (∀ c ∈ demoTokenCalls, c.Sane) ∧ tokenRun none demoTokenCalls = [some (b!"A", 151), some (b!"A", 151), some (b!"B", 203)] := by
  refine ⟨?_, by decide⟩
  intro c hc
  simp only [demoTokenCalls, List.mem_cons, List.not_mem_nil, or_false] at hc
  rcases hc with rfl | rfl | rfl <;> exact ⟨by decide, by simp⟩

end Verif
