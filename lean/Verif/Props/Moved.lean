import Verif.Spec.Moved
import Verif.Model.MainImport
import Verif.Props.Zero
import Verif.Props.Included

/-! # C148: a ledger and its included files moved elsewhere -/

namespace Verif
open Spec

/-- The name of an included file is a part of the text still to be read. -/
theorem unquote_infix {s g : Str} (h : unquote s = some g) : g <:+: s := by
  unfold unquote at h
  split at h
  · cases h
  · rename_i c r
    split at h
    · split at h
      · cases h
      · cases h
        exact (List.dropLast_prefix r).isInfix.trans (List.suffix_cons c r).isInfix
    · cases h; exact List.infix_rfl

theorem parseToEOL_infix (s : Reader) : (parseToEOL s).1 <:+: s :=
  (List.takeWhile_prefix _).isInfix.trans (consumeWS_suf s).isInfix

theorem step_name {e : Env} {b : Builder} {als : Aliases} {s t : Reader} {g : Str} (h : parseStep e b als s = .incl g t) : g <:+: s := by
  unfold parseStep at h
  simp only at h
  repeat' split at h
  all_goals try cases h
  rename_i hu
  exact (unquote_infix hu).trans ((parseToEOL_infix _).trans ((parseIdentifier_suf e _).isInfix.trans (consumeWS_suf s).isInfix))

theorem step_moved {φ : Str → Str} {P : Str → Prop} {e e' : Env} (h : MovedTo φ P e e') (b : Builder) (als : Aliases) (s : Reader) :
    parseStep e' b als s = parseStep e b als s := by
  obtain ⟨-, -, h1, h2, h3⟩ := h
  cases e'
  cases e
  simp only at h1 h2 h3
  subst h1 h2 h3
  rfl

theorem file_moved {φ : Str → Str} {P : Str → Prop} {e e' : Env} (h : MovedTo φ P e e') :
    ∀ (depth : Nat) (b : Builder) (als : Aliases) (f : Str), P f → parseFileLocal e' depth b als (φ f) = parseFileLocal e depth b als f := by
  intro depth
  induction depth with
  | zero => intro b als f _; rfl
  | succ depth ih =>
    intro b als f hf
    rw [parseFileLocal, parseFileLocal, h.texts f hf]
    cases ht : e.files f with
    | none => rfl
    | some text =>
      simp only
      have loop : ∀ n b als (s : Reader), s <:+ text →
          parseLoop e' (φ f) (parseFileLocal e' depth) n b als s = parseLoop e f (parseFileLocal e depth) n b als s := by
        intro n
        induction n with
        | zero => intro b als s _; rfl
        | succ n ihn =>
          intro b als s hs
          rw [parseLoop, parseLoop, step_moved h]
          split
          · rfl
          · have hsuf := parseStep_suf e b als s
            cases hstep : parseStep e b als s with
            | stop => rfl
            | go b' als' t =>
              rw [hstep] at hsuf
              exact ihn b' als' t (List.IsSuffix.trans hsuf hs)
            | incl g t =>
              rw [hstep] at hsuf
              obtain ⟨hP, hj⟩ := h.names f text g hf ht ((step_name hstep).trans hs.isInfix)
              simp only
              rw [hj, ih b als _ hP]
              cases parseFileLocal e depth b als (e.join f g) with
              | ok b' _ => exact ihn b' als t (List.IsSuffix.trans hsuf hs)
              | err => rfl
              | fatal => rfl
              | running => rfl
      exact loop _ b als text (List.suffix_refl _)

/-- C148: the moved ledger loads as the other one did: to the same book, with the same kind of failure, or without end. -/
theorem c148_load {φ : Str → Str} {P : Str → Prop} {e e' : Env} (h : MovedTo φ P e e') (srt : List Posting → List Posting) (depth : Nat) (f : Str)
    (hf : P f) : loadBook srt e' depth (φ f) = loadBook srt e depth f := by
  unfold loadBook parseFile
  rw [file_moved h depth _ _ f hf]

theorem loadCmd_moved {φ : Str → Str} {P : Str → Prop} {e e' : Env} (h : MovedTo φ P e e') (srt : List Posting → List Posting) (depth : Nat) (a a' : AppConf)
    (hf : P a.ledger) (ha : a'.ledger = φ a.ledger) : loadCmd e' depth srt a' = loadCmd e depth srt a := by
  unfold loadCmd
  rw [ha, c148_load h srt depth a.ledger hf]

theorem sections_moved (e : OpEnv) (a : AppConf) (f : Str) (r : RegisterConf) (l : Lang) (x : PrintEnv) (sc : ScreenEnv) (typ : Str) (b : Book) :
    ∀ accts, registerFullSections e (a.reading f) r l x sc typ b accts = registerFullSections e a r l x sc typ b accts := by
  intro accts
  induction accts with
  | nil => rfl
  | cons acct accts ih =>
    simp only [registerFullSections]
    rw [ih]
    rfl

/-- C148: every command on the ledger does the same, given the new name. -/
theorem c148_command {φ : Str → Str} {P : Str → Prop} (w : World) (e' : Env) (h : MovedTo φ P w.files e') (c : Conf) (hf : P c.app.ledger) (args : List Str)
    (k : Cmd) : k.run { w with files := e' } { c with app := c.app.reading (φ c.app.ledger) } args = k.run w c args := by
  have hl := loadCmd_moved h w.ops.srt w.depth c.app (c.app.reading (φ c.app.ledger)) hf rfl
  cases k
  · simp only [Cmd.run, reportFull]; rw [hl]; rfl
  · simp only [Cmd.run, registerFull, sections_moved]; rw [hl]; rfl
  · simp only [Cmd.run, exportCmd]; rw [hl]; rfl
  · simp only [Cmd.run, acctsCmd]; rw [hl]; rfl
  · simp only [Cmd.run, ccyCmd]; rw [hl]

/-- C148: so does importing into it. -/
theorem c148_import {φ : Str → Str} {P : Str → Prop} (w : World) (e' : Env) (h : MovedTo φ P w.files e') (im : ImpWorld) (a : AppConf) (hf : P a.ledger)
    (lang : Str) (d : ImpDef) (args : List Str) :
    importFull { w with files := e' } im (a.reading (φ a.ledger)) lang d args = importFull w im a lang d args := by
  have hl := loadCmd_moved h w.ops.srt w.depth a (a.reading (φ a.ledger)) hf rfl
  unfold importFull
  simp only [importCmd]
  rw [hl]
  rfl

/-- C148: and generating from it. -/
theorem c148_generate {φ : Str → Str} {P : Str → Prop} (w : World) (e' : Env) (h : MovedTo φ P w.files e') (im : ImpWorld) (a : AppConf) (hf : P a.ledger)
    (lang : Str) (d : GenDef) :
    generateFull { w with files := e' } im (a.reading (φ a.ledger)) lang d = generateFull w im a lang d := by
  have hl := loadCmd_moved h w.ops.srt w.depth a (a.reading (φ a.ledger)) hf rfl
  unfold generateFull generateCmd
  simp only
  rw [hl]

/-- The directory of a file, with its slash. -/
def dirPart (f : Str) : Str := (f.reverse.dropWhile fun c => decide (c ≠ 47)).reverse

theorem dirPart_under (d f : Str) : dirPart (d ++ [47] ++ f) = d ++ [47] ++ dirPart f := by
  unfold dirPart
  rw [List.reverse_append, List.dropWhile_append]
  split
  · rename_i h
    rw [List.isEmpty_iff] at h
    rw [h]
    simp
  · simp

/-- Some files, named from a directory. -/
def treeEnv (dir : Str) (files : List (Str × Str)) : Env :=
  { demoEnv (files.map fun x => (dir ++ [47] ++ x.1, x.2)) with join := fun f g => dirPart f ++ g }

def treeFiles : List (Str × Str) := [(b!"main", b!"include in/a\n2020/01/02 Q\n  A 2 E\n  C -2 E\n"),
  (b!"in/a", b!"include b\n"), (b!"in/b", b!"2020/01/01 P\n  A 1 E\n  C -1 E\n")]

/-- Files that are moved from `home` to `new/home`. -/
theorem tree_moved : MovedTo (fun f => b!"new" ++ [47] ++ f) (fun _ => True) (treeEnv b!"home" treeFiles) (treeEnv b!"new/home" treeFiles) where
  texts := by
    intro f _
    simp only [treeEnv, demoEnv, List.find?_map, Option.map_map]
    have : ((fun x : Str × Str => decide (x.1 = b!"new" ++ [47] ++ f)) ∘ fun x : Str × Str => (b!"new/home" ++ [47] ++ x.1, x.2)) =
        ((fun x : Str × Str => decide (x.1 = f)) ∘ fun x : Str × Str => (b!"home" ++ [47] ++ x.1, x.2)) := by
      funext x
      simp only [Function.comp]
      congr 1
      apply propext
      constructor
      · intro h
        exact List.append_cancel_left (as := b!"new" ++ [47]) h
      · rintro rfl; rfl
    rw [this]
    rfl
  names := fun f text g _ _ _ => ⟨trivial, by
    show dirPart (b!"new" ++ [47] ++ f) ++ g = b!"new" ++ [47] ++ (dirPart f ++ g)
    rw [dirPart_under, List.append_assoc]⟩
  letter := rfl
  upper := rfl
  ord := rfl

/-- The ledger loads; it has four postings. -/
example : (match loadBook insSort (treeEnv b!"home" treeFiles) 3 b!"home/main" with
    | .ok b => b.post.length
    | _ => 0) = 4 := by decide +kernel

example (depth : Nat) (srt : List Posting → List Posting) :
    loadBook srt (treeEnv b!"new/home" treeFiles) depth b!"new/home/main" = loadBook srt (treeEnv b!"home" treeFiles) depth b!"home/main" :=
  c148_load tree_moved srt depth b!"home/main" trivial

/-- `accounts` of the moved ledger. -/
example (c : Conf) (hc : c.app.ledger = b!"home/main") (args : List Str) (k : Cmd) :
    k.run { { zeroWorld with files := treeEnv b!"home" treeFiles } with files := treeEnv b!"new/home" treeFiles } { c with app := c.app.reading b!"new/home/main" } args =
      k.run { zeroWorld with files := treeEnv b!"home" treeFiles } c args := by
  have h := c148_command { zeroWorld with files := treeEnv b!"home" treeFiles } _ tree_moved c trivial args k
  rwa [hc] at h

end Verif
