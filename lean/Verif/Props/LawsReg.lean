import Verif.Props.MapMove
import Verif.Props.OrderReg
import Verif.Props.RegisterCmd

/-! # C158: operations that come to the same, in the register -/

namespace Verif
open Spec

theorem opsCmd_nil (e : OpEnv) (fuel : Nat) (a : AppConf) (b : Book) : opsCmd e fuel a [] b = .ok b := rfl

theorem register_ops (e : OpEnv) (fuel : Nat) (a : AppConf) (args : List Str) (b : Book) :
    (if args = [] then CmdEnd.ok b else opsCmd e fuel a args b) = opsCmd e fuel a args b := by
  split
  · rename_i h; rw [h]; rfl
  · rfl

/-- Combined registers of books with the same totals. -/
theorem register_totals {e : OpEnv} (hs : IsSort e.srt) (a : AppConf) {r : RegisterConf} (hc : r.combined = true) (arg : Str) {b b' : Book} (h : SameTotals b b') :
    EndsLike SameSections (registerShow e a r arg b) (registerShow e a r arg b') := by
  unfold registerShow
  rw [hc, if_pos rfl, if_pos rfl]
  split
  · have hal := compact_alike hs hs h
    have htx : List.Forall₂ (List.Forall₂ Alike) (b.transactions e.srt) (b'.transactions e.srt) := hal.2.2.trans
    refine EndsLike.bind (registerRows_like (e := e) (e' := e) rfl rfl r _ htx (by rw [h.prices])) fun rows rows' hr => ?_
    show SameSections _ _
    unfold SameSections
    simp only [List.map_cons, List.map_nil, hr]
  · trivial

/-- What is between two lists of operations that lead to the same totals. -/
theorem registers_middle (le : Env) (depth : Nat) {e : OpEnv} (hs : IsSort e.srt) (fuel : Nat) (a : AppConf) {r : RegisterConf} (hc : r.combined = true)
    (before after xs ys : List Str) (arg : Str)
    (h : ∀ b : Book, b.Good → EndsLike SameTotals (opsCmd e fuel a xs b) (opsCmd e fuel a ys b)) :
    EndsLike SameSections (registerCmd le depth e fuel a r (before ++ (xs ++ after)) arg) (registerCmd le depth e fuel a r (before ++ (ys ++ after)) arg) := by
  unfold registerCmd
  simp only [register_ops]
  cases h0 : loadCmd le depth e.srt a with
  | ok b0 =>
    show EndsLike _ ((((convertCmd a r.convert b0)).bind _).bind _) ((((convertCmd a r.convert b0)).bind _).bind _)
    have hg0 := good_load hs h0
    cases h1 : convertCmd a r.convert b0 with
    | ok b1 =>
      have hg1 := good_convert hs hg0 h1
      refine EndsLike.bind (R := SameTotals) ?_ fun c c' hcc => register_totals hs a hc arg hcc
      show EndsLike SameTotals (opsCmd e fuel a _ b1) (opsCmd e fuel a _ b1)
      rw [opsCmd_append, opsCmd_append]
      cases h2 : opsCmd e fuel a before b1 with
      | ok b2 =>
        show EndsLike SameTotals (opsCmd e fuel a _ b2) (opsCmd e fuel a _ b2)
        rw [opsCmd_append, opsCmd_append]
        exact EndsLike.bind (h b2 (good_ops hs hg1 h2)) fun c c' hcc => ops_totals hs fuel a after hcc
      | _ => trivial
    | _ => trivial
  | _ => trivial

/-- **C158**, combined registers: moving all of the matching accounts to an account is renaming them to it. -/
theorem c158_move_all_partial (le : Env) (depth : Nat) (fuel : Nat) (h0 : 0 < fuel) (e : OpEnv) (hs : IsSort e.srt) (hn : NoMatchStays e)
    (a : AppConf) (x y s r : Str) (hx : a.macros x = none) (hy : a.macros y = none) (hp : parsePrim e x = some (.move s r 1))
    (hq : parsePrim e y = some (.map s r [])) (hv : e.valid s = true) (rc : RegisterConf) (hc : rc.combined = true) (before after : List Str)
    (arg : Str) :
    EndsLike SameSections (registerCmd le depth e fuel a rc (before ++ [x] ++ after) arg) (registerCmd le depth e fuel a rc (before ++ [y] ++ after) arg) := by
  rw [List.append_assoc, List.append_assoc]
  exact registers_middle le depth hs fuel a hc before after [x] [y] arg fun b hg => same_mid hs h0 (same_move_all e hn a x y s r hx hy hp hq hv) hg

/-- **C158**, combined registers: moving a part, and then a part of what is left, is one move of the two parts together. -/
theorem c158_moves_partial (le : Env) (depth : Nat) (fuel : Nat) (h0 : 0 < fuel) (e : OpEnv) (hs : IsSort e.srt) (a : AppConf) (x y z s r : Str)
    (f g h : Rat) (hx : a.macros x = none) (hy : a.macros y = none) (hz : a.macros z = none) (hp : parsePrim e x = some (.move s r f))
    (hq : parsePrim e y = some (.move s r g)) (hr : parsePrim e z = some (.move s r h)) (hfg : 1 - h = (1 - f) * (1 - g)) (hv : e.valid s = true)
    (haway : ∀ A, e.mat s A = true → e.mat s (e.rep s r A) = false) (rc : RegisterConf) (hc : rc.combined = true) (before after : List Str)
    (arg : Str) :
    EndsLike SameSections (registerCmd le depth e fuel a rc (before ++ [x, y] ++ after) arg) (registerCmd le depth e fuel a rc (before ++ [z] ++ after) arg) := by
  rw [List.append_assoc, List.append_assoc]
  exact registers_middle le depth hs fuel a hc before after [x, y] [z] arg fun b hg => same_mid hs h0 (same_moves e a x y z s r f g h hx hy hz hp hq hr hfg hv haway) hg

/-- **C158**, combined registers: moving nothing changes nothing. -/
theorem c158_move_none_partial (le : Env) (depth : Nat) (fuel : Nat) (h0 : 0 < fuel) (e : OpEnv) (hs : IsSort e.srt) (a : AppConf) (x s r : Str)
    (hx : a.macros x = none) (hp : parsePrim e x = some (.move s r 0)) (hv : e.valid s = true) (rc : RegisterConf) (hc : rc.combined = true)
    (before after : List Str) (arg : Str) :
    EndsLike SameSections (registerCmd le depth e fuel a rc (before ++ [x] ++ after) arg) (registerCmd le depth e fuel a rc (before ++ after) arg) := by
  rw [List.append_assoc]
  exact registers_middle le depth hs fuel a hc before after [x] [] arg fun b hg => same_mid hs h0 (same_move_none e a x s r hx hp hv) hg

/-- **C158**, combined registers: one renaming after another is the renaming that takes every account where the two take it. -/
theorem c158_maps_partial (le : Env) (depth : Nat) (fuel : Nat) (h0 : 0 < fuel) (e : OpEnv) (hs : IsSort e.srt) (hn : NoMatchStays e) (a : AppConf)
    (x y z s r alt s' r' alt' s'' r'' alt'' : Str) (hx : a.macros x = none) (hy : a.macros y = none) (hz : a.macros z = none)
    (hp : parsePrim e x = some (.map s r alt)) (hq : parsePrim e y = some (.map s' r' alt')) (hr : parsePrim e z = some (.map s'' r'' alt''))
    (hv : e.valid s = true) (hv' : e.valid s' = true) (hv'' : e.valid s'' = true) (h : ∀ A, mapped e s' r' alt'
    (mapped e s r alt A) = mapped e s'' r'' alt'' A) (rc : RegisterConf) (hc : rc.combined = true) (before after : List Str) (arg : Str) :
    EndsLike SameSections (registerCmd le depth e fuel a rc (before ++ [x, y] ++ after) arg) (registerCmd le depth e fuel a rc (before ++ [z] ++ after) arg) := by
  rw [List.append_assoc, List.append_assoc]
  exact registers_middle le depth hs fuel a hc before after [x, y] [z] arg fun b hg => same_mid hs h0 (same_maps e hn a x y z s r alt s' r' alt' s'' r'' alt'' hx hy hz hp hq hr hv hv' hv'' h) hg

/-- **C158**, combined registers: two renamings that take every account back where it was change nothing. -/
theorem c158_back_partial (le : Env) (depth : Nat) (fuel : Nat) (h0 : 0 < fuel) (e : OpEnv) (hs : IsSort e.srt) (hn : NoMatchStays e) (a : AppConf)
    (x y s r alt s' r' alt' : Str) (hx : a.macros x = none) (hy : a.macros y = none) (hp : parsePrim e x = some (.map s r alt))
    (hq : parsePrim e y = some (.map s' r' alt')) (hv : e.valid s = true) (hv' : e.valid s' = true) (h : ∀ A, mapped e s' r' alt'
    (mapped e s r alt A) = A) (rc : RegisterConf) (hc : rc.combined = true) (before after : List Str) (arg : Str) :
    EndsLike SameSections (registerCmd le depth e fuel a rc (before ++ [x, y] ++ after) arg) (registerCmd le depth e fuel a rc (before ++ after) arg) := by
  rw [List.append_assoc]
  exact registers_middle le depth hs fuel a hc before after [x, y] [] arg fun b hg => same_mid hs h0 (same_back e hn a x y s r alt s' r' alt' hx hy hp hq hv hv' h) hg

/-- **C158**, combined registers: a depreciation, all amounts then brought to one day, is none. -/
theorem c158_depreciate_partial (le : Env) (depth : Nat) (fuel : Nat) (h0 : 0 < fuel) (e : OpEnv) (hs : IsSort e.srt) (a : AppConf) (x y s r : Str)
    (n : Int) (h1 : 1 ≤ n) (hx : a.macros x = none) (hy : a.macros y = none) (hp : parsePrim e x = some (.depreciate s r n))
    (hq : parsePrim e y = some (.combine b!"today")) (hv : e.valid s = true) (rc : RegisterConf) (hc : rc.combined = true) (before after : List Str)
    (arg : Str) :
    EndsLike SameSections (registerCmd le depth e fuel a rc (before ++ [x, y] ++ after) arg) (registerCmd le depth e fuel a rc (before ++ [y] ++ after) arg) := by
  rw [List.append_assoc, List.append_assoc]
  exact registers_middle le depth hs fuel a hc before after [x, y] [y] arg fun b hg => same_mid hs h0 (same_depreciate e a x y s r n h1 hx hy hp hq hv) hg

/-- **C158**, combined registers: two operations that concern different things can be given in either order. -/
theorem c158_swap_partial (le : Env) (depth : Nat) (fuel : Nat) (e : OpEnv) (hs : IsSort e.srt) (a : AppConf) (x y : Str)
    (hx : a.macros x = none) (hy : a.macros y = none) (p q : Prim) (hp : parsePrim e x = some p) (hq : parsePrim e y = some q) (h : Independent p q)
    (rc : RegisterConf) (hc : rc.combined = true) (before after : List Str) (arg : Str) :
    EndsLike SameSections (registerCmd le depth e fuel a rc (before ++ [x, y] ++ after) arg)
      (registerCmd le depth e fuel a rc (before ++ [y, x] ++ after) arg) := by
  rw [List.append_assoc, List.append_assoc]
  exact registers_middle le depth hs fuel a hc before after [x, y] [y, x] arg fun b hg => swap_mid hs fuel hx hy hp hq h hg

/-- **C158**, combined registers: of two end dates (two start dates) the stricter one counts. -/
theorem c158_dates_partial (le : Env) (depth : Nat) (fuel : Nat) (e : OpEnv) (hs : IsSort e.srt) (a : AppConf) (x y : Str)
    (hx : a.macros x = none) (hy : a.macros y = none) (p q : Prim) (hp : parsePrim e x = some p) (hq : parsePrim e y = some q) (d d' : Int)
    (h : (p = .asof d ∧ q = .asof d' ∧ d ≤ d') ∨ (p = .since d ∧ q = .since d' ∧ d' ≤ d))
    (rc : RegisterConf) (hc : rc.combined = true) (before after : List Str) (arg : Str) :
    EndsLike SameSections (registerCmd le depth e fuel a rc (before ++ [x, y] ++ after) arg)
      (registerCmd le depth e fuel a rc (before ++ [x] ++ after) arg) := by
  rw [List.append_assoc, List.append_assoc]
  exact registers_middle le depth hs fuel a hc before after [x, y] [x] arg fun b hg => dates_mid hs fuel hx hy hp hq d d' h hg

/-- Five euros bought from `B` in 2020 and sold again in 2021. -/
def backFile21 : Str := b!"2020/01/01 Shop\n  A 5 E\n  B -5 E\n2021/01/01 Shop\n  A -5 E\n  B 5 E\n"

def lawRegister (combined : Bool) : RegisterConf := { demoRegister with combined := combined }

def lawRows (combined : Bool) (args : List Str) : Option (List (Str × List (Option Str))) :=
  (registerCmd (demoEnv [(b!"a", backFile21)]) 1 dotOps 1 demoApp (lawRegister combined) args b!".").sections

theorem dot_words : parsePrim dotOps b!"since=2021-01-01" = some (.since 20210101) ∧ parsePrim dotOps b!"map=/Q/R/" = some (.map b!"Q" b!"R" []) := by
  decide +kernel

/-- Non-vacuity: two operations that can be exchanged; the combined register has the entries of 2021 of both accounts. -/
example : Independent (.since 20210101) (.map b!"Q" b!"R" []) ∧ (lawRegister true).combined = true ∧
    lawRows true [b!"since=2021-01-01", b!"map=/Q/R/"] = some [([], [some b!"A", some b!"B"])] ∧
    lawRows true [b!"map=/Q/R/", b!"since=2021-01-01"] = some [([], [some b!"A", some b!"B"])] ∧
    lawRows true [b!"move=/^A$/Z/1/"] = lawRows true [b!"map=/^A$/Z/"] ∧ lawRows true [b!"move=/^A$/Z/1/"] ≠ lawRows true [] :=
  ⟨.daysAccounts (.since _) (.map _ _ _), rfl, by decide +kernel, by decide +kernel, by decide +kernel, by decide +kernel⟩

/-- **C158** is false of a register with a section for each account: the accounts with nothing in them are left out by the balances that the book had when
it was last compacted.  Renaming compacts, `since` does not: after `map=/Q/R/ since=2021-01-01` the balances of all time count (zero here, so that nothing is
shown), after `since=2021-01-01 map=/Q/R/` those of 2021. -/
theorem c158_sections_fails : ¬ ∀ (le : Env) (depth : Nat) (fuel : Nat) (e : OpEnv) (_ : IsSort e.srt) (a : AppConf) (x y : Str)
    (_ : a.macros x = none) (_ : a.macros y = none) (p q : Prim) (_ : parsePrim e x = some p) (_ : parsePrim e y = some q) (_ : Independent p q)
    (rc : RegisterConf) (before after : List Str) (arg : Str),
    EndsLike SameSections (registerCmd le depth e fuel a rc (before ++ [x, y] ++ after) arg)
      (registerCmd le depth e fuel a rc (before ++ [y, x] ++ after) arg) := by
  intro h
  have h := h (demoEnv [(b!"a", backFile21)]) 1 1 dotOps insSort_isSort demoApp b!"since=2021-01-01" b!"map=/Q/R/" rfl rfl _ _ dot_words.1 dot_words.2
    (.daysAccounts (.since _) (.map _ _ _)) (lawRegister false) [] [] b!"."
  have h1 : lawRows false [b!"since=2021-01-01", b!"map=/Q/R/"] = some [(b!"A", [some b!"A"]), (b!"B", [some b!"B"])] := by decide +kernel
  have h2 : lawRows false [b!"map=/Q/R/", b!"since=2021-01-01"] = some [] := by decide +kernel
  unfold lawRows at h1 h2
  rw [show ([] : List Str) ++ [b!"since=2021-01-01", b!"map=/Q/R/"] ++ [] = [b!"since=2021-01-01", b!"map=/Q/R/"] from rfl,
    show ([] : List Str) ++ [b!"map=/Q/R/", b!"since=2021-01-01"] ++ [] = [b!"map=/Q/R/", b!"since=2021-01-01"] from rfl] at h
  generalize registerCmd (demoEnv [(b!"a", backFile21)]) 1 dotOps 1 demoApp (lawRegister false) [b!"since=2021-01-01", b!"map=/Q/R/"] b!"." = u at h h1
  generalize registerCmd (demoEnv [(b!"a", backFile21)]) 1 dotOps 1 demoApp (lawRegister false) [b!"map=/Q/R/", b!"since=2021-01-01"] b!"." = v at h h2
  cases u with
  | ok u => cases v with
    | ok v =>
      have e1 : v = [] := by
        have := Option.some.inj h2
        exact List.map_eq_nil_iff.1 this
      have e2 : u.length = 2 := by
        have := congrArg List.length (Option.some.inj h1)
        simpa using this
      have h3 : u.length = v.length := by
        have := congrArg List.length (show u.map _ = v.map _ from h)
        simpa using this
      rw [e2, e1] at h3
      cases h3
    | _ => cases h2
  | _ => cases h1

end Verif
