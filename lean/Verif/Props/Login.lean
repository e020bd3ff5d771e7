import Verif.Model.Login

/-! # C98: a login code is used only if it came with the state of this run -/

namespace Verif

/-- The states of the program that can be reached, whatever requests come in and however the goroutines are scheduled. -/
def LoginRun (p : LoginState × LoginMain) : Prop := Relation.ReflTransGen LoginStep (loginInit, .waiting) p

/-- The request asks for the code `c` under the state `t`. -/
def Carries (r : LoginReq) (c t : Str) : Prop := r.codes = [c] ∧ r.states = [t]

/-- At most one request is being handled. -/
def OneAtWork (s : LoginState) : Prop := (s.handlers.filter fun h => decide (h.2 < 3)).length ≤ 1

/-- Runs in which at no time two requests are being handled. -/
def QuietRun (p : LoginState × LoginMain) : Prop :=
  Relation.ReflTransGen (fun a b => LoginStep a b ∧ OneAtWork b.1) (loginInit, .waiting) p

/-! ## Whatever the schedule -/

/-- What holds in every run: the values seen are none or come from requests with one code and one state. -/
structure LoginInv (p : LoginState × LoginMain) : Prop where
  code : p.1.code = [] ∨ ∃ h ∈ p.1.handlers, ∃ t, Carries h.1 p.1.code t
  state : p.1.state = [] ∨ ∃ h ∈ p.1.handlers, ∃ c, Carries h.1 c p.1.state
  pc : ∀ h ∈ p.1.handlers, h.2 = 1 → ∃ c t, Carries h.1 c t
  hasCode : ∀ c, p.2 = .hasCode c → c = [] ∨ ∃ h ∈ p.1.handlers, ∃ t, Carries h.1 c t
  done : ∀ c s, p.2 = .done c s → (c = [] ∨ ∃ h ∈ p.1.handlers, ∃ t, Carries h.1 c t) ∧
    (s = [] ∨ ∃ h ∈ p.1.handlers, ∃ c, Carries h.1 c s)

theorem mem_set_fst {l : List (LoginReq × Nat)} {i : Nat} {r : LoginReq} {pc pc' : Nat} (hi : l[i]? = some (r, pc))
    {h : LoginReq × Nat} (hm : h ∈ l) : ∃ h' ∈ l.set i (r, pc'), h'.1 = h.1 := by
  obtain ⟨j, hj, rfl⟩ := List.getElem_of_mem hm
  obtain ⟨hi', he⟩ := List.getElem?_eq_some_iff.1 hi
  by_cases hij : i = j
  · subst hij
    exact ⟨(r, pc'), List.mem_set hj _, by rw [he]⟩
  · refine ⟨l[j], ?_, rfl⟩
    rw [List.mem_iff_getElem]
    exact ⟨j, by simpa using hj, by simp [hij]⟩

theorem loginInv {p : LoginState × LoginMain} (h : LoginRun p) : LoginInv p := by
  induction h with
  | refl => exact ⟨.inl rfl, .inl rfl, by simp [loginInit], by simp, by simp⟩
  | tail _ hs ih =>
    cases hs with
    | arrive r hc =>
      rename_i s m _
      obtain ⟨i1, i2, i3, i4, i5⟩ := ih
      have up : ∀ P : LoginReq → Prop, (∃ h ∈ s.handlers, P h.1) → ∃ h ∈ s.handlers ++ [(r, 0)], P h.1 :=
        fun P ⟨h, hm, hp⟩ => ⟨h, List.mem_append_left _ hm, hp⟩
      refine ⟨i1.imp_right (up fun r => ∃ t, Carries r s.code t), i2.imp_right (up fun r => ∃ c, Carries r c s.state), ?_, fun c hc => (i4 c hc).imp_right (up fun r => ∃ t, Carries r c t), fun c s hc => ?_⟩
      · intro h hm h1
        rcases List.mem_append.1 hm with hm | hm
        · exact i3 h hm h1
        · simp only [List.mem_singleton] at hm
          subst hm
          simp at h1
      · exact ⟨((i5 c s hc).1).imp_right (up fun r => ∃ t, Carries r c t), ((i5 c s hc).2).imp_right (up fun r => ∃ c, Carries r c s)⟩
    | handle i r pc hi hpc =>
      rename_i s m _
      obtain ⟨i1, i2, i3, i4, i5⟩ := ih
      have hmem := List.mem_of_getElem? hi
      have up : ∀ P : LoginReq → Prop, (∃ h ∈ s.handlers, P h.1) → ∃ h ∈ s.handlers.set i (r, (handlerStep r pc s).2), P h.1 := by
        rintro P ⟨h, hm, hp⟩
        obtain ⟨h', hm', e⟩ := mem_set_fst hi (pc' := (handlerStep r pc s).2) hm
        exact ⟨h', hm', by rw [e]; exact hp⟩
      have self : ∃ h ∈ s.handlers.set i (r, (handlerStep r pc s).2), h.1 = r := by
        obtain ⟨h', hm', e⟩ := mem_set_fst hi (pc' := (handlerStep r pc s).2) hmem
        exact ⟨h', hm', e⟩
      have hpcs : (handlerStep r pc s).2 = 1 → ∃ c t, Carries r c t := by
        unfold handlerStep
        split <;> simp
        rename_i c t h1 h2
        exact ⟨c, t, h1, h2⟩
      have hcode : (handlerStep r pc s).1.code = s.code ∨ ∃ c t, Carries r c t ∧ (handlerStep r pc s).1.code = c := by
        unfold handlerStep
        split <;> simp
        rename_i c t h1 h2
        exact .inr ⟨t, h1, h2⟩
      have hstate : (handlerStep r pc s).1.state = s.state ∨ ∃ c t, Carries r c t ∧ (handlerStep r pc s).1.state = t := by
        unfold handlerStep
        split <;> simp
        rename_i t l h2
        obtain ⟨c, t', h3, h4⟩ := i3 _ hmem rfl
        simp only at h3 h4
        rw [h2] at h4
        simp only [List.cons.injEq] at h4
        exact .inr ⟨c, h3, by rw [h2, h4.2]⟩
      refine ⟨?_, ?_, ?_, fun c hc => (i4 c hc).imp_right (up fun r => ∃ t, Carries r c t), fun c s' hc => ?_⟩
      · rcases hcode with e | ⟨c, t, h1, e⟩
        · simp only [e]
          exact i1.imp_right (up fun r => ∃ t, Carries r s.code t)
        · obtain ⟨h', hm', e'⟩ := self
          exact .inr ⟨h', hm', t, by simp only [e, e']; exact h1⟩
      · rcases hstate with e | ⟨c, t, h1, e⟩
        · simp only [e]
          exact i2.imp_right (up fun r => ∃ c, Carries r c s.state)
        · obtain ⟨h', hm', e'⟩ := self
          exact .inr ⟨h', hm', c, by simp only [e, e']; exact h1⟩
      · intro h hm h1
        rcases List.mem_or_eq_of_mem_set hm with hm | rfl
        · exact i3 h hm h1
        · exact hpcs h1
      · exact ⟨((i5 c s' hc).1).imp_right (up fun r => ∃ t, Carries r c t), ((i5 c s' hc).2).imp_right (up fun r => ∃ c, Carries r c s')⟩
    | check hc =>
      obtain ⟨i1, i2, i3, i4, i5⟩ := ih
      refine ⟨i1, i2, i3, ?_, ?_⟩ <;> (intros; simp only at *; split at * <;> simp_all)
    | readCode =>
      obtain ⟨i1, i2, i3, i4, i5⟩ := ih
      refine ⟨i1, i2, i3, ?_, by simp⟩
      intro c hc
      simp only [LoginMain.hasCode.injEq] at hc
      subst hc
      exact i1
    | readState =>
      obtain ⟨i1, i2, i3, i4, i5⟩ := ih
      refine ⟨i1, i2, i3, by simp, ?_⟩
      intro c s hc
      simp only [LoginMain.done.injEq] at hc
      obtain ⟨rfl, rfl⟩ := hc
      exact ⟨i4 _ rfl, i2⟩

/-- C98, for every schedule: no code is exchanged unless a request carried the state of this run, and the code exchanged is empty or came
with some request that has one code and one state. -/
theorem c98_needs_state {s : LoginState} {m : LoginMain} {own c : Str} (h : LoginRun (s, m)) (hown : own ≠ [])
    (he : loginExchange own m = some c) :
    (∃ r ∈ s.handlers.map Prod.fst, ∃ c', Carries r c' own) ∧ (c = [] ∨ ∃ r ∈ s.handlers.map Prod.fst, ∃ t, Carries r c t) := by
  have inv := loginInv h
  cases m with
  | done c' s' =>
    simp only [loginExchange] at he
    split at he
    · rename_i e
      simp only [Option.some.injEq] at he
      subst e he
      obtain ⟨h1, h2⟩ := inv.done _ _ rfl
      constructor
      · obtain ⟨x, hx, c', hc⟩ := h2.resolve_left hown
        exact ⟨x.1, List.mem_map_of_mem hx, c', hc⟩
      · refine h1.imp_right ?_
        rintro ⟨x, hx, t, ht⟩
        exact ⟨x.1, List.mem_map_of_mem hx, t, ht⟩
    · cases he
  | waiting => cases he
  | checked => cases he
  | hasCode _ => cases he
  | failed => cases he

/-! ## One request at a time -/

/-- Without overlap there is only one request: its handler closes the server. -/
inductive QuietInv : LoginState × LoginMain → Prop
  | none : QuietInv (loginInit, .waiting)
  | start (r : LoginReq) : QuietInv (⟨[], [], false, false, [(r, 0)]⟩, .waiting)
  | one {r c t} : Carries r c t → QuietInv (⟨c, [], false, false, [(r, 1)]⟩, .waiting)
  | two {r c t} : Carries r c t → QuietInv (⟨c, t, false, false, [(r, 2)]⟩, .waiting)
  | bad (r : LoginReq) : QuietInv (⟨[], [], true, false, [(r, 2)]⟩, .waiting)
  | badEnd (r : LoginReq) (m : LoginMain) : m = .waiting ∨ m = .failed → QuietInv (⟨[], [], true, true, [(r, 3)]⟩, m)
  | good {r c t} (m : LoginMain) : Carries r c t → m = .waiting ∨ m = .checked ∨ m = .hasCode c ∨ m = .done c t →
      QuietInv (⟨c, t, false, true, [(r, 3)]⟩, m)

theorem single_get {x : LoginReq × Nat} {i : Nat} {y : LoginReq × Nat} (h : [x][i]? = some y) : i = 0 ∧ y = x := by
  cases i with
  | zero => simp at h; exact ⟨rfl, h.symm⟩
  | succ i => simp at h

theorem quietInv {p : LoginState × LoginMain} (h : QuietRun p) : QuietInv p := by
  induction h with
  | refl => exact .none
  | tail _ hs ih =>
    obtain ⟨hs, hq⟩ := hs
    cases ih with
    | none =>
      cases hs with
      | arrive r hc => exact .start r
      | handle i r pc hi hpc => simp [loginInit] at hi
      | check hc => simp [loginInit] at hc
    | start r =>
      cases hs with
      | arrive r' hc => simp [OneAtWork] at hq
      | handle i r' pc hi hpc =>
        obtain ⟨rfl, e⟩ := single_get hi
        cases e
        unfold handlerStep
        split
        · rename_i c t _ h1 h2
          exact .one ⟨h1, h2⟩
        · exact .bad r
        all_goals simp at *
      | check hc => cases hc
    | @one r c t hr =>
      cases hs with
      | arrive r' hc => simp [OneAtWork] at hq
      | handle i r' pc hi hpc =>
        obtain ⟨rfl, e⟩ := single_get hi
        cases e
        simp only [handlerStep, hr.2]
        exact .two hr
      | check hc => cases hc
    | @two r c t hr =>
      cases hs with
      | arrive r' hc => simp [OneAtWork] at hq
      | handle i r' pc hi hpc =>
        obtain ⟨rfl, e⟩ := single_get hi
        cases e
        simp only [handlerStep]
        exact .good _ hr (.inl rfl)
      | check hc => cases hc
    | bad r =>
      cases hs with
      | arrive r' hc => simp [OneAtWork] at hq
      | handle i r' pc hi hpc =>
        obtain ⟨rfl, e⟩ := single_get hi
        cases e
        simp only [handlerStep]
        exact .badEnd _ _ (.inl rfl)
      | check hc => cases hc
    | badEnd r m hm =>
      cases hs with
      | arrive r' hc => cases hc
      | handle i r' pc hi hpc =>
        obtain ⟨rfl, e⟩ := single_get hi
        cases e
        omega
      | check hc => exact .badEnd _ _ (.inr rfl)
      | readCode => simp at hm
      | readState => simp at hm
    | @good r c t m hr hm =>
      cases hs with
      | arrive r' hc => cases hc
      | handle i r' pc hi hpc =>
        obtain ⟨rfl, e⟩ := single_get hi
        cases e
        omega
      | check hc => exact .good _ hr (.inr (.inl rfl))
      | readCode => exact .good _ hr (.inr (.inr (.inl rfl)))
      | readState =>
        simp only [reduceCtorEq, LoginMain.hasCode.injEq, false_or, or_false] at hm
        subst hm
        exact .good _ hr (.inr (.inr (.inr rfl)))

/-- C98, the part that holds: if requests are not handled at the same time, the code exchanged came in a request together with the state
of this run. -/
theorem c98_same_request_partial {s : LoginState} {m : LoginMain} {own c : Str} (h : QuietRun (s, m)) (he : loginExchange own m = some c) :
    ∃ r ∈ s.handlers.map Prod.fst, Carries r c own := by
  have inv := quietInv h
  cases m with
  | done c' s' =>
    simp only [loginExchange] at he
    split at he
    · rename_i e
      simp only [Option.some.injEq] at he
      subst e he
      cases inv with
      | badEnd r m hm => simp at hm
      | @good r c t m hr hm =>
        simp only [reduceCtorEq, LoginMain.done.injEq, false_or] at hm
        obtain ⟨rfl, rfl⟩ := hm
        exact ⟨r, by simp, hr⟩
    · cases he
  | waiting => cases he
  | checked => cases he
  | hasCode _ => cases he
  | failed => cases he

/-- Non-vacuity: the bank's redirect arrives and the login goes on. -/
example : ∃ s, QuietRun (s, .done b!"abc" b!"42") ∧ loginExchange b!"42" (.done b!"abc" b!"42") = some b!"abc" := by
  refine ⟨⟨b!"abc", b!"42", false, true, [(⟨[b!"abc"], [b!"42"]⟩, 3)]⟩, ?_, by decide⟩
  let r : LoginReq := ⟨[b!"abc"], [b!"42"]⟩
  let Q : LoginState × LoginMain → LoginState × LoginMain → Prop := fun a b => LoginStep a b ∧ OneAtWork b.1
  have q (a b : LoginState × LoginMain) (h : LoginStep a b) (ho : OneAtWork b.1) : Q a b := ⟨h, ho⟩
  have s1 := q (loginInit, .waiting) (⟨[], [], false, false, [(r, 0)]⟩, .waiting) (.arrive r rfl) (by unfold OneAtWork; decide)
  have s2 := q (⟨[], [], false, false, [(r, 0)]⟩, .waiting) (⟨b!"abc", [], false, false, [(r, 1)]⟩, .waiting)
    (.handle 0 r 0 rfl (by decide)) (by unfold OneAtWork; decide)
  have s3 := q (⟨b!"abc", [], false, false, [(r, 1)]⟩, .waiting) (⟨b!"abc", b!"42", false, false, [(r, 2)]⟩, .waiting)
    (.handle 0 r 1 rfl (by decide)) (by unfold OneAtWork; decide)
  have s4 := q (⟨b!"abc", b!"42", false, false, [(r, 2)]⟩, .waiting) (⟨b!"abc", b!"42", false, true, [(r, 3)]⟩, .waiting)
    (.handle 0 r 2 rfl (by decide)) (by unfold OneAtWork; decide)
  have s5 := q (⟨b!"abc", b!"42", false, true, [(r, 3)]⟩, .waiting) (⟨b!"abc", b!"42", false, true, [(r, 3)]⟩, .checked)
    (.check rfl) (by unfold OneAtWork; decide)
  have s6 := q (⟨b!"abc", b!"42", false, true, [(r, 3)]⟩, .checked) (⟨b!"abc", b!"42", false, true, [(r, 3)]⟩, .hasCode b!"abc")
    .readCode (by unfold OneAtWork; decide)
  have s7 := q (⟨b!"abc", b!"42", false, true, [(r, 3)]⟩, .hasCode b!"abc") (⟨b!"abc", b!"42", false, true, [(r, 3)]⟩, .done b!"abc" b!"42")
    .readState (by unfold OneAtWork; decide)
  exact ((((((Relation.ReflTransGen.refl.tail s1).tail s2).tail s3).tail s4).tail s5).tail s6).tail s7

/-! ## Overlapping requests -/

/-- The bank's redirect and a request made by another page. -/
def ownReq : LoginReq := ⟨[b!"good"], [b!"42"]⟩
def foreignReq : LoginReq := ⟨[b!"evil"], [b!"7"]⟩

/-- C98 is false of the code: when two requests overlap, the code of the one can be taken with the state of the other. -/
theorem c98_mixed_requests_fails : ¬ ∀ (s : LoginState) (m : LoginMain) (own c : Str), LoginRun (s, m) → own ≠ [] →
    loginExchange own m = some c → ∃ r ∈ s.handlers.map Prod.fst, Carries r c own := by
  intro h
  have run : LoginRun (⟨b!"evil", b!"42", false, true, [(ownReq, 3), (foreignReq, 1)]⟩, .done b!"evil" b!"42") := by
    have s1 : LoginStep (loginInit, .waiting) (⟨[], [], false, false, [(ownReq, 0)]⟩, .waiting) := .arrive ownReq rfl
    have s2 : LoginStep (⟨[], [], false, false, [(ownReq, 0)]⟩, .waiting) (⟨[], [], false, false, [(ownReq, 0), (foreignReq, 0)]⟩, .waiting) :=
      .arrive foreignReq rfl
    have s3 : LoginStep (⟨[], [], false, false, [(ownReq, 0), (foreignReq, 0)]⟩, .waiting)
        (⟨b!"good", [], false, false, [(ownReq, 1), (foreignReq, 0)]⟩, .waiting) := .handle 0 ownReq 0 rfl (by decide)
    have s4 : LoginStep (⟨b!"good", [], false, false, [(ownReq, 1), (foreignReq, 0)]⟩, .waiting)
        (⟨b!"evil", [], false, false, [(ownReq, 1), (foreignReq, 1)]⟩, .waiting) := .handle 1 foreignReq 0 rfl (by decide)
    have s5 : LoginStep (⟨b!"evil", [], false, false, [(ownReq, 1), (foreignReq, 1)]⟩, .waiting)
        (⟨b!"evil", b!"42", false, false, [(ownReq, 2), (foreignReq, 1)]⟩, .waiting) := .handle 0 ownReq 1 rfl (by decide)
    have s6 : LoginStep (⟨b!"evil", b!"42", false, false, [(ownReq, 2), (foreignReq, 1)]⟩, .waiting)
        (⟨b!"evil", b!"42", false, true, [(ownReq, 3), (foreignReq, 1)]⟩, .waiting) := .handle 0 ownReq 2 rfl (by decide)
    exact ((((((((Relation.ReflTransGen.refl.tail s1).tail s2).tail s3).tail s4).tail s5).tail s6).tail (.check rfl)).tail .readCode).tail .readState
  obtain ⟨r, hr, h1, h2⟩ := h _ _ b!"42" b!"evil" run (by decide) (by decide)
  simp only [List.map_cons, List.map_nil, List.mem_cons, List.not_mem_nil, or_false] at hr
  rcases hr with rfl | rfl <;> revert h1 h2 <;> decide

end Verif
