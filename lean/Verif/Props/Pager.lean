import Verif.Model.Pager
import Verif.Spec.Pager
import Verif.Props.RegisterCmd
import Verif.Props.RegText
import Verif.Props.ExportCmd

/-! # C114: the pager -/

namespace Verif
open Spec

theorem write_none (s : Screen) (x : Str) (h : s.pager = none) : s.write x = { s with direct := s.direct ++ x } := by
  unfold Screen.write; rw [h]

theorem write_some (s : Screen) (x y : Str) (h : s.pager = some y) : s.write x = { s with pager := some (y ++ x) } := by
  unfold Screen.write; rw [h]

/-- Once the pager runs, everything goes there. -/
theorem prints_pager (t : Term) : ∀ (os : List Out) (s : Screen) (y : Str), s.pager = some y →
    os.foldl (Screen.print t) s = { s with pager := some (y ++ saidAll os) } := by
  intro os
  induction os with
  | nil => intro s y h; cases s; simp only at h; subst h; simp [saidAll]
  | cons o os ih =>
    intro s y h
    have h1 : s.print t o = { s with pager := some (y ++ said o) } := by
      cases o with
      | text x => exact write_some s x y h
      | table n x =>
        show (if t.height < (n : Int) then s.less t else s).write x = _
        have : s.less t = s := by unfold Screen.less; rw [h]; rfl
        rw [this, ite_self]
        exact write_some s x y h
    rw [List.foldl_cons, h1, ih _ (y ++ said o) rfl]
    simp [saidAll]

/-- What `print` does before the pager runs. -/
theorem print_before (t : Term) (s : Screen) (h : s.pager = none) (o : Out) :
    (∃ k, s.print t o = ⟨s.direct ++ said o, none, k⟩) ∨ (Tall t o ∧ ∃ k, s.print t o = ⟨s.direct, some (said o), k⟩) := by
  cases o with
  | text x => exact .inl ⟨s.tried, by show s.write x = _; rw [write_none s x h]; simp [said, h]⟩
  | table n x =>
    show (∃ k, (if t.height < (n : Int) then s.less t else s).write x = _) ∨ (t.height < (n : Int) ∧ ∃ k, (if t.height < (n : Int) then s.less t else s).write x = _)
    by_cases hn : t.height < (n : Int)
    · rw [if_pos hn]
      unfold Screen.less
      rw [h]
      simp only [Option.isSome_none, Bool.false_eq_true, if_false]
      split
      · exact .inl ⟨s.tried, by rw [write_none s x h]; simp [said, h]⟩
      · split
        · exact .inr ⟨hn, s.tried + 1, by rw [write_some _ x [] rfl]; simp [said]⟩
        · exact .inl ⟨s.tried + 1, by rw [write_none _ x rfl]; rfl⟩
    · rw [if_neg hn]
      exact .inl ⟨s.tried, by rw [write_none s x h]; simp [said, h]⟩

/-- **C114**: whatever is printed, and whenever `less` can be started: what went to the terminal directly followed by what the pager got is all that was
printed, in order; the pager gets a last part of it, beginning with a table that does not fit the terminal. -/
theorem c114_everything_in_order (t : Term) (os : List Out) :
    ((Screen.prints t os).pager = none ∧ (Screen.prints t os).direct = saidAll os) ∨
    ∃ before o after, os = before ++ o :: after ∧ Tall t o ∧
      (Screen.prints t os).direct = saidAll before ∧ (Screen.prints t os).pager = some (saidAll (o :: after)) := by
  have key : ∀ (os : List Out) (s : Screen), s.pager = none →
      ((os.foldl (Screen.print t) s).pager = none ∧ (os.foldl (Screen.print t) s).direct = s.direct ++ saidAll os) ∨
      ∃ before o after, os = before ++ o :: after ∧ Tall t o ∧
        (os.foldl (Screen.print t) s).direct = s.direct ++ saidAll before ∧ (os.foldl (Screen.print t) s).pager = some (saidAll (o :: after)) := by
    intro os
    induction os with
    | nil => intro s h; exact .inl ⟨h, by simp [saidAll]⟩
    | cons o os ih =>
      intro s h
      rw [List.foldl_cons]
      rcases print_before t s h o with ⟨k, hk⟩ | ⟨ht, k, hk⟩
      · rw [hk]
        rcases ih ⟨s.direct ++ said o, none, k⟩ rfl with ⟨h1, h2⟩ | ⟨bef, o', aft, h1, h2, h3, h4⟩
        · exact .inl ⟨h1, by rw [h2]; simp [saidAll]⟩
        · exact .inr ⟨o :: bef, o', aft, by rw [h1]; rfl, h2, by rw [h3]; simp [saidAll], h4⟩
      · rw [hk, prints_pager t os _ (said o) rfl]
        exact .inr ⟨[], o, os, rfl, ht, by simp [saidAll], by simp [saidAll]⟩
  rcases key os ⟨[], none, 0⟩ rfl with h | ⟨bef, o, aft, h1, h2, h3, h4⟩
  · exact .inl ⟨h.1, by have := h.2; simpa [Screen.prints] using this⟩
  · exact .inr ⟨bef, o, aft, h1, h2, by simpa [Screen.prints] using h3, h4⟩

/-- **C114**: on a terminal, with `less`, the pager starts with the first table that does not fit. -/
theorem c114_first_tall (t : Term) (ht : CanPage t) (before : List Out) (o : Out) (after : List Out) (hb : ∀ x ∈ before, ¬ Tall t x) (ho : Tall t o) :
    (Screen.prints t (before ++ o :: after)).direct = saidAll before ∧
    (Screen.prints t (before ++ o :: after)).pager = some (saidAll (o :: after)) := by
  have hbefore : ∀ (l : List Out) (s : Screen), s.pager = none → (∀ x ∈ l, ¬ Tall t x) →
      ∃ k, l.foldl (Screen.print t) s = ⟨s.direct ++ saidAll l, none, k⟩ := by
    intro l
    induction l with
    | nil => intro s h _; exact ⟨s.tried, by cases s; simp only at h; subst h; simp [saidAll]⟩
    | cons x l ih =>
      intro s h hl
      rcases print_before t s h x with ⟨k, hk⟩ | ⟨hx, _⟩
      · obtain ⟨k', hk'⟩ := ih ⟨s.direct ++ said x, none, k⟩ rfl (fun y hy => hl y (List.mem_cons_of_mem _ hy))
        exact ⟨k', by rw [List.foldl_cons, hk, hk']; simp [saidAll]⟩
      · exact absurd hx (hl x (by simp))
  unfold Screen.prints
  obtain ⟨k, hk⟩ := hbefore before ⟨[], none, 0⟩ rfl hb
  rw [List.foldl_append, List.foldl_cons, hk]
  cases o with
  | text x => exact absurd ho id
  | table n x =>
    have hn : t.height < (n : Int) := ho
    have h1 : Screen.print t ⟨[] ++ saidAll before, none, k⟩ (.table n x) = ⟨saidAll before, some x, k + 1⟩ := by
      show (if t.height < (n : Int) then Screen.less t ⟨[] ++ saidAll before, none, k⟩ else _).write x = _
      rw [if_pos hn]
      unfold Screen.less
      simp [ht.1, ht.2.1, ht.2.2 k, Screen.write]
    rw [h1, prints_pager t after _ x rfl]
    exact ⟨rfl, by simp [saidAll, said]⟩

/-- **C114**: if the output is no terminal, or everything fits, there is no pager. -/
theorem c114_no_pager (t : Term) (os : List Out) (h : t.isStdout = false ∨ t.width = -1 ∨ ∀ o ∈ os, ¬ Tall t o) :
    (Screen.prints t os).pager = none ∧ (Screen.prints t os).direct = saidAll os := by
  have key : ∀ (l : List Out) (s : Screen), s.pager = none → (t.isStdout = false ∨ t.width = -1 ∨ ∀ o ∈ l, ¬ Tall t o) →
      (l.foldl (Screen.print t) s).pager = none ∧ (l.foldl (Screen.print t) s).direct = s.direct ++ saidAll l := by
    intro l
    induction l with
    | nil => intro s h _; exact ⟨h, by simp [saidAll]⟩
    | cons x l ih =>
      intro s hs hl
      have h1 : ∃ k, s.print t x = ⟨s.direct ++ said x, none, k⟩ := by
        rcases print_before t s hs x with h1 | ⟨hx, k, hk⟩
        · exact h1
        · rcases hl with hl | hl | hl
          · cases x with
            | text x => exact absurd hx id
            | table n x =>
              exfalso
              have : s.print t (.table n x) = s.write x := by
                show (if t.height < (n : Int) then s.less t else s).write x = _
                have : s.less t = s := by unfold Screen.less; simp [hs, hl]
                rw [this, ite_self]
              rw [this, write_none s x hs] at hk
              have := congrArg Screen.pager hk
              simp [hs] at this
          · cases x with
            | text x => exact absurd hx id
            | table n x =>
              exfalso
              have : s.print t (.table n x) = s.write x := by
                show (if t.height < (n : Int) then s.less t else s).write x = _
                have : s.less t = s := by unfold Screen.less; simp [hs, hl]
                rw [this, ite_self]
              rw [this, write_none s x hs] at hk
              have := congrArg Screen.pager hk
              simp [hs] at this
          · exact absurd hx (hl x (by simp))
      obtain ⟨k, hk⟩ := h1
      rw [List.foldl_cons, hk]
      obtain ⟨i1, i2⟩ := ih ⟨s.direct ++ said x, none, k⟩ rfl (hl.imp_right (·.imp_right fun h o ho => h o (List.mem_cons_of_mem _ ho)))
      exact ⟨i1, by rw [i2]; simp [saidAll]⟩
  have := key os ⟨[], none, 0⟩ rfl h
  exact ⟨this.1, by simpa [Screen.prints] using this.2⟩

/-- **C114** (partial: commands that end without an error): on a terminal, with `less`, the pager is closed and waited for exactly if something did
not fit. -/
theorem c114_waits_partial (t : Term) (ht : CanPage t) (os : List Out) : (programEnd t os (.ok ())).waited = true ↔ ∃ o ∈ os, Tall t o := by
  show (Screen.prints t os).pager.isSome = true ↔ _
  constructor
  · intro h
    by_contra hno
    have := (c114_no_pager t os (.inr (.inr fun o ho hT => hno ⟨o, ho, hT⟩))).1
    rw [this] at h
    cases h
  · rintro ⟨o, ho, hT⟩
    have : ∃ before o after, os = before ++ o :: after ∧ (∀ x ∈ before, ¬ Tall t x) ∧ Tall t o := by
      clear ht
      induction os with
      | nil => cases ho
      | cons x os ih =>
        by_cases hx : Tall t x
        · exact ⟨[], x, os, rfl, by simp, hx⟩
        · rcases List.mem_cons.1 ho with rfl | ho
          · exact absurd hT hx
          · obtain ⟨bef, o', aft, e, h1, h2⟩ := ih ho
            refine ⟨x :: bef, o', aft, by rw [e]; rfl, ?_, h2⟩
            intro y hy
            rcases List.mem_cons.1 hy with rfl | hy
            · exact hx
            · exact h1 y hy
    obtain ⟨bef, o', aft, rfl, h1, h2⟩ := this
    rw [(c114_first_tall t ht bef o' aft h1 h2).2]
    rfl

theorem andThen_ok (os : List Out) (q : Prints) : Prints.andThen ⟨os, .ok ()⟩ q = ⟨os ++ q.outs, q.fin⟩ := rfl

theorem saidAll_append (a b : List Out) : saidAll (a ++ b) = saidAll a ++ saidAll b := by simp [saidAll]

/-- The text of a register table, as one piece of output. -/
theorem registerTextOut_eq (prt : Nat → Bool) (w : Int) (f : Fmt) (colour withAcct withBal : Bool) (rows : List (Option RegEntry)) :
    match registerText prt w f colour withAcct withBal rows with
    | some lines => registerTextOut prt w f colour withAcct withBal rows = ⟨[.table (rows.length + 1) lines.flatten], .ok ()⟩
    | none => (registerTextOut prt w f colour withAcct withBal rows).fin = .crash := by
  unfold registerText registerTextOut
  cases h : rows.mapM fun (e : Option RegEntry) => e.bind (registerRow f colour withAcct withBal) with
  | none => rfl
  | some rs =>
    have hlen : ∀ (rows : List (Option RegEntry)) rs, rows.mapM (fun (e : Option RegEntry) => e.bind (registerRow f colour withAcct withBal)) = some rs →
        rs.length = rows.length := by
      intro rows
      induction rows with
      | nil => intro rs h; simp at h; subst h; rfl
      | cons r rows ih =>
        intro rs h
        rw [List.mapM_cons] at h
        obtain ⟨a, _, h2⟩ := Option.bind_eq_some_iff.1 h
        obtain ⟨l, h3, h4⟩ := Option.bind_eq_some_iff.1 h2
        cases h4
        simp [ih l h3]
    simp only [Option.bind_some]
    cases h2 : printColumns prt w ((registerHead colour withAcct withBal :: rs).map some) (registerShrink withAcct withBal) with
    | none => rfl
    | some lines => simp only; rw [hlen rows rs h]

theorem registerSectionsOut_eq (prt : Nat → Bool) (w : Int) (f : Fmt) (colour : Bool) (e : OpEnv) (a : AppConf) (r : RegisterConf) (b : Book) :
    ∀ (accts : List Str) (secs : List (Str × List (Option RegEntry))), registerSections e a r b accts = .ok secs →
    match registerSectionsText prt w f colour secs with
    | some lines => (registerSectionsOut prt w f colour e a r b accts).fin = .ok () ∧
        saidAll (registerSectionsOut prt w f colour e a r b accts).outs = lines.flatten
    | none => (registerSectionsOut prt w f colour e a r b accts).fin = .crash := by
  intro accts
  induction accts with
  | nil => intro secs h; cases h; exact ⟨rfl, rfl⟩
  | cons acct accts ih =>
    intro secs h
    unfold registerSections at h
    simp only at h
    split at h
    · rename_i hv
      obtain ⟨rows, h1, h2⟩ := bind_ok h
      obtain ⟨rest, h3, h4⟩ := bind_ok h2
      cases h4
      have hi := ih rest h3
      unfold registerSectionsOut registerSectionsText registerRowsOut
      simp only
      rw [if_pos hv, h1, andThen_ok]
      simp only
      have ht := registerTextOut_eq prt w f colour false true rows
      cases htx : registerText prt w f colour false true rows with
      | none =>
        rw [htx] at ht
        simp only [Option.bind_none]
        unfold Prints.andThen
        rw [ht]
      | some lines =>
        rw [htx] at ht
        simp only [Option.bind_some]
        simp only at ht
        rw [ht, andThen_ok]
        cases hsx : registerSectionsText prt w f colour rest with
        | none =>
          rw [hsx] at hi
          exact hi
        | some ls =>
          rw [hsx] at hi
          simp only [Option.map_some]
          refine ⟨hi.1, ?_⟩
          simp only [saidAll_append, hi.2]
          simp [saidAll, said]
    · cases h

/-- **C114** for the register: the text of the sections (which C89 relates to the ledger file) is what comes out, on the terminal and in the pager
together, and the command then waits for the pager. -/
theorem c114_register (le : Env) (depth : Nat) (e : OpEnv) (fuel : Nat) (a : AppConf) (r : RegisterConf) (lang : Lang) (x : PrintEnv) (prt : Nat → Bool)
    (t : Term) (colour : Bool) (args : List Str) (arg : Str) (hr : r.combined = false) (secs : List (Str × List (Option RegEntry)))
    (h : registerCmd le depth e fuel a r args arg = .ok secs) :
    ∃ b0 b1 b, loadCmd le depth e.srt a = .ok b0 ∧ convertCmd a r.convert b0 = .ok b1 ∧ (args = [] → b = b1) ∧ (args ≠ [] → opsCmd e fuel a args b1 = .ok b) ∧
    ∀ lines, registerSectionsText prt t.width (bookFmt lang x b) colour secs = some lines →
      let p := registerOut le depth e fuel a r lang x prt t.width colour args arg
      let s := (programEnd t p.outs p.fin).screen
      p.fin = .ok () ∧ s.direct ++ s.pager.getD [] = lines.flatten ∧ (programEnd t p.outs p.fin).waited = s.pager.isSome := by
  unfold registerCmd at h
  obtain ⟨b, h1, h2⟩ := bind_ok h
  obtain ⟨b1, h3, h4⟩ := bind_ok h1
  obtain ⟨b0, h5, h6⟩ := bind_ok h3
  refine ⟨b0, b1, b, h5, h6, ?_, ?_, fun lines hl => ?_⟩
  · intro ha
    rw [if_pos ha] at h4
    cases h4
    rfl
  · intro ha
    rw [if_neg ha] at h4
    exact h4
  rw [hr] at h2
  simp only [Bool.false_eq_true, if_false] at h2
  split at h2
  · rename_i hv
    have := registerSectionsOut_eq prt t.width (bookFmt lang x b) colour e a r b _ secs h2
    rw [hl] at this
    simp only at this
    have hp : registerOut le depth e fuel a r lang x prt t.width colour args arg =
        registerSectionsOut prt t.width (bookFmt lang x b) colour e a r b (b.accounts (e.mat arg) (!a.all)) := by
      unfold registerOut
      rw [h1]
      simp [hr, hv]
    simp only
    rw [hp]
    refine ⟨this.1, ?_, ?_⟩
    · rw [← this.2]
      show (Screen.prints t _).direct ++ (Screen.prints t _).pager.getD [] = _
      rcases c114_everything_in_order t (registerSectionsOut prt t.width (bookFmt lang x b) colour e a r b (b.accounts (e.mat arg) (!a.all))).outs with
        ⟨k1, k2⟩ | ⟨bef, o, aft, k1, _, k3, k4⟩
      · rw [k1, k2]; simp
      · rw [k3, k4, k1, saidAll_append]; rfl
    · rw [this.1]; rfl
  · cases h2

/-- The engine refuses the expression `^Z($`. -/
def parenOps : OpEnv := { dotOps with valid := fun s => decide (s ≠ b!"^Z($") }

/-- A terminal of two lines. -/
def smallTerm : Term := ⟨true, 80, 1, fun _ => true⟩

/-- **C114** fails when a command ends with an error after its output has begun: the pager is neither closed nor waited for.  Here the second account
has, after `map`, a name that is no regular expression. -/
theorem c114_waits_fails : ¬ ∀ (le : Env) (depth : Nat) (e : OpEnv) (_ : IsSort e.srt) (fuel : Nat) (a : AppConf) (r : RegisterConf) (lang : Lang)
    (x : PrintEnv) (prt : Nat → Bool) (t : Term) (colour : Bool) (args : List Str) (arg : Str),
    let p := registerOut le depth e fuel a r lang x prt t.width colour args arg
    (programEnd t p.outs p.fin).screen.pager.isSome = true → (programEnd t p.outs p.fin).waited = true := by
  intro h
  have h1 := h (demoEnv [(b!"a", dotFile)]) 1 parenOps insSort_isSort 1 demoApp demoRegister .english demoPrint asciiPrt smallTerm false
    [b!"map=/^C$/Z(/"] b!"."
  revert h1
  decide +kernel

example : (registerOut (demoEnv [(b!"a", dotFile)]) 1 parenOps 1 demoApp demoRegister .english demoPrint asciiPrt 80 false [b!"map=/^C$/Z(/"] b!".").outs.length =
    5 := by decide +kernel

example : (Screen.prints smallTerm (registerOut (demoEnv [(b!"a", dotFile)]) 1 dotOps 1 demoApp demoRegister .english demoPrint asciiPrt 80 false [] b!"^A$").outs).direct =
    b!"\nA\n" := by decide +kernel

end Verif
