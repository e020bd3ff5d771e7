import Verif.Spec.Moved
import Verif.Props.Included
import Verif.Props.Exit

/-! # C147: a ledger whose includes do not end -/

namespace Verif
open Spec

/-- A reading of a file: the includes of its lines end. -/
theorem reading_ends {fs : Str → Option (List FileLine)} {join : Str → Str → Str} {fn : Str} {als : List (Str × Str)} {pre : List Call}
    {ls : List FileLine} {cs : List Call} (h : FileSays fs join fn als pre ls cs) :
    ∀ sp q n, FileLine.incl sp q n ∈ ls → IncludesEnd fs join (join fn n) := by
  induction h with
  | nil => intro sp q n h; cases h
  | blank _ _ _ _ _ _ _ ih => intro sp q n h; rcases List.mem_cons.1 h with h | h; (· cases h); exact ih _ _ _ h
  | comment _ _ _ _ _ _ _ _ ih => intro sp q n h; rcases List.mem_cons.1 h with h | h; (· cases h); exact ih _ _ _ h
  | unused _ _ _ _ _ _ _ _ ih => intro sp q n h; rcases List.mem_cons.1 h with h | h; (· cases h); exact ih _ _ _ h
  | txn _ _ _ _ _ _ _ ih => intro sp q n h; rcases List.mem_cons.1 h with h | h; (· cases h); exact ih _ _ _ h
  | posting _ _ _ _ _ _ _ ih => intro sp q n h; rcases List.mem_cons.1 h with h | h; (· cases h); exact ih _ _ _ h
  | rest _ _ _ _ _ _ _ _ _ _ ih => intro sp q n h; rcases List.mem_cons.1 h with h | h; (· cases h); exact ih _ _ _ h
  | price _ _ _ _ _ _ _ ih => intro sp q n h; rcases List.mem_cons.1 h with h | h; (· cases h); exact ih _ _ _ h
  | short _ _ _ _ _ _ _ _ _ _ _ _ ih => intro sp q n h; rcases List.mem_cons.1 h with h | h; (· cases h); exact ih _ _ _ h
  | incl fn als pre sp q f ls' cs' ls cs hf _ _ ih1 ih2 =>
    intro sp' q' n h
    rcases List.mem_cons.1 h with h | h
    · injection h with _ _ h
      subst h
      refine .intro _ ?_
      rintro g ⟨l2, sp2, q2, n2, h1, h2, rfl⟩
      rw [hf] at h1
      injection h1 with h1
      subst h1
      exact ih1 _ _ _ h2
    · exact ih2 _ _ _ h

/-- For every posting without an amount there are the amounts it stands for. -/
theorem rest_amounts (pre : List Call) : ∃ adds : List (Str × Rat), (adds.map (·.1)).Nodup ∧
    ∀ c v, (c, v) ∈ adds ↔ net c (openAmounts pre) ≠ 0 ∧ v = -net c (openAmounts pre) := by
  classical
  refine ⟨((((openAmounts pre).map (·.1)).dedup.filter fun c => decide (net c (openAmounts pre) ≠ 0)).map fun c => (c, -net c (openAmounts pre))), ?_, ?_⟩
  · rw [List.map_map]
    have : (fun x : Str × Rat => x.1) ∘ (fun c => (c, -net c (openAmounts pre))) = id := rfl
    rw [this, List.map_id]
    exact (List.nodup_dedup _).filter _
  · intro c v
    simp only [List.mem_map, List.mem_filter, List.mem_dedup, decide_eq_true_eq, Prod.mk.injEq]
    constructor
    · rintro ⟨c, ⟨-, h⟩, rfl, rfl⟩; exact ⟨h, rfl⟩
    · rintro ⟨h, rfl⟩
      refine ⟨c, ⟨?_, h⟩, rfl, rfl⟩
      by_contra hno
      apply h
      unfold net
      rw [List.filter_eq_nil_iff.2]
      · rfl
      · intro x hx
        simp only [decide_eq_true_eq, beq_iff_eq] at *
        intro hc
        exact hno ⟨x, hx, hc⟩

/-- Where the includes end, the lines stand for some bookings. -/
theorem reading_exists {fs : Str → Option (List FileLine)} {join : Str → Str → Str}
    (hd : ∀ f ls, fs f = some ls → ∀ sp q n, FileLine.incl sp q n ∈ ls → (fs (join f n)).isSome = true) {f : Str}
    (h : IncludesEnd fs join f) : ∀ (ls : List FileLine), fs f = some ls → ∀ (als : List (Str × Str)) (pre : List Call), ∃ cs, FileSays fs join f als pre ls cs := by
  induction h with
  | intro f _ ih =>
    intro ls hf als pre
    have hin : ∀ sp q n, FileLine.incl sp q n ∈ ls → (∃ ls', fs (join f n) = some ls') ∧
        ∀ ls', fs (join f n) = some ls' → ∀ als pre, ∃ cs, FileSays fs join (join f n) als pre ls' cs := by
      intro sp q n hm
      refine ⟨Option.isSome_iff_exists.1 (hd f ls hf sp q n hm), fun ls' h' als pre => ih (join f n) ⟨ls, sp, q, n, hf, hm, rfl⟩ ls' h' als pre⟩
    clear hf ih
    induction ls generalizing als pre with
    | nil => exact ⟨_, .nil _ _ _⟩
    | cons l ls ihl =>
      have ihl := fun als pre => ihl als pre fun sp q n hm => hin sp q n (List.mem_cons_of_mem _ hm)
      cases l with
      | blank sp => obtain ⟨cs, h⟩ := ihl als pre; exact ⟨_, .blank _ _ _ _ _ _ h⟩
      | comment sp s => obtain ⟨cs, h⟩ := ihl als pre; exact ⟨_, .comment _ _ _ _ _ _ _ h⟩
      | unused c s => obtain ⟨cs, h⟩ := ihl als pre; exact ⟨_, .unused _ _ _ _ _ _ _ h⟩
      | txn t => obtain ⟨cs, h⟩ := ihl als _; exact ⟨_, .txn _ _ _ _ _ _ h⟩
      | posting l => obtain ⟨cs, h⟩ := ihl als _; exact ⟨_, .posting _ _ _ _ _ _ h⟩
      | rest r =>
        obtain ⟨adds, h1, h2⟩ := rest_amounts pre
        obtain ⟨cs, h⟩ := ihl als _
        exact ⟨_, .rest _ _ _ _ adds _ _ h1 h2 h⟩
      | price p => obtain ⟨cs, h⟩ := ihl als _; exact ⟨_, .price _ _ _ _ _ _ h⟩
      | short sp1 s sp2 sp3 l sp4 => obtain ⟨cs, h⟩ := ihl (als ++ [(s, l)]) pre; exact ⟨_, .short _ _ _ _ _ _ _ _ _ _ _ h⟩
      | incl sp q n =>
        obtain ⟨⟨ls', h1⟩, h2⟩ := hin sp q n (by simp)
        obtain ⟨cs', h3⟩ := h2 ls' h1 als pre
        obtain ⟨cs, h⟩ := ihl als _
        exact ⟨_, .incl _ _ _ _ _ _ ls' cs' _ _ h1 h3 h⟩

/-- C147: a ledger of valid lines loads exactly if its includes end and what it says balances. -/
theorem c147_loads {le : Env} (he : le.Ok) (hl : PlainLetters le) {fs : Str → Option (List FileLine)} (hdisk : OnDisk le fs) {f : Str} {ls : List FileLine}
    (hf : fs f = some ls) (srt : List Posting → List Posting) :
    Loads srt le f ↔ IncludesEnd fs le.join f ∧ ∀ cs, FileSays fs le.join f [] [] ls cs → ∀ s ∈ segments [] cs, SegBalanced s := by
  constructor
  · intro hload
    obtain ⟨depth, bk, h⟩ := id hload
    obtain ⟨ds, s1, -, hb⟩ := c96_loaded_book he hl hdisk hf h
    refine ⟨.intro _ ?_, fun cs hcs => (loads_iff he hl hdisk hf hcs srt).1 hload⟩
    rintro g ⟨l2, sp2, q2, n2, h1, h2, rfl⟩
    rw [hf] at h1
    injection h1 with h1
    subst h1
    exact reading_ends s1 _ _ _ h2
  · rintro ⟨hend, hb⟩
    obtain ⟨cs, hcs⟩ := reading_exists (fun f ls hf sp q n hm => (hdisk f ls hf).2 _ hm |>.2 sp q n rfl) hend ls hf [] []
    exact (loads_iff he hl hdisk hf hcs srt).2 (hb cs hcs)

/-- Includes that end do not come back. -/
theorem ends_no_cycle {fs : Str → Option (List FileLine)} {join : Str → Str → Str} {f g : Str}
    (hfg : Relation.ReflTransGen (Includes fs join) f g) (hgg : Relation.TransGen (Includes fs join) g g) : ¬ IncludesEnd fs join f := by
  intro h
  have hg : IncludesEnd fs join g := by
    clear hgg
    induction hfg with
    | refl => exact h
    | tail _ hbc ih => exact ih.inv hbc
  have ht : Acc (Relation.TransGen fun g f => Includes fs join f g) g := Acc.transGen hg
  have hgg : Relation.TransGen (fun g f => Includes fs join f g) g g := (Relation.transGen_swap (r := Includes fs join)).2 hgg
  have hno : ∀ x, Acc (Relation.TransGen fun g f => Includes fs join f g) x → ¬ Relation.TransGen (fun g f => Includes fs join f g) x x := by
    intro x hx
    induction hx with
    | intro x _ ih => intro hxx; exact ih x hxx hxx
  exact hno g ht hgg

/-- C147: a ledger that comes, through includes, to a file that comes back to itself does not load, however long one waits. -/
theorem c147_cycle {le : Env} (he : le.Ok) (hl : PlainLetters le) {fs : Str → Option (List FileLine)} (hdisk : OnDisk le fs) {f g : Str} {ls : List FileLine}
    (hf : fs f = some ls) (hfg : Relation.ReflTransGen (Includes fs le.join) f g) (hgg : Relation.TransGen (Includes fs le.join) g g)
    (srt : List Posting → List Posting) : ¬ Loads srt le f :=
  fun h => ends_no_cycle hfg hgg ((c147_loads he hl hdisk hf srt).1 h).1

/-- C147: no command that works on such a ledger ends with status 0. -/
theorem c147_command (w : World) (im : ImpWorld) (env : Option Str) (keys : Keys) (other : List Str → Conf → Exit) (hw : WalksMap im)
    (hfile : FileGood keys) (hb : NoBlanks keys) (head : List Str) (l : CmdLine) (t : Table) (hc : LedgerCommand keys head l t) (hg : l.Good w.flags t)
    (hh : asksHelp (l.flags t) = false) (he : w.files.Ok) (hl : PlainLetters w.files) {fs : Str → Option (List FileLine)} (hdisk : OnDisk w.files fs)
    {g : Str} {ls : List FileLine} (hf : fs (appOf keys (l.flags t)).ledger = some ls)
    (hfg : Relation.ReflTransGen (Includes fs w.files.join) (appOf keys (l.flags t)).ledger g) (hgg : Relation.TransGen (Includes fs w.files.join) g g)
    (out : List Exported) : goledgerMain w im env (some keys) other (head ++ l.text) ≠ .done 0 out := by
  intro h
  obtain ⟨bk, hbk⟩ := c140_done w im env keys other hw hfile hb head l t hc hg hh out h
  exact c147_cycle he hl hdisk hf hfg hgg w.ops.srt ⟨_, bk, hbk⟩

/-- Two files that include each other after some transactions. -/
def cycleFiles : List (Str × List FileLine) := [
  (b!"nowhere", [.blank []] ++ (partOne ++ [partIncl b!"other"])), (b!"other", [partIncl b!"nowhere"])]

def cycleDisk (f : Str) : Option (List FileLine) := (cycleFiles.find? fun x => decide (x.1 = f)).map (·.2)

def cycleEnv : Env := demoEnv (cycleFiles.map fun x => (x.1, fileText x.2))

theorem cycle_disk : OnDisk cycleEnv cycleDisk := by
  intro f ls hf
  have hx : (f, ls) ∈ cycleFiles := by
    unfold cycleDisk at hf
    cases h : cycleFiles.find? fun x => decide (x.1 = f) with
    | none => rw [h] at hf; cases hf
    | some x =>
      rw [h] at hf
      have h1 := List.find?_some h
      have h2 := List.mem_of_find?_eq_some h
      simp only [decide_eq_true_eq] at h1
      simp only [Option.map_some, Option.some.injEq] at hf
      rw [← h1, ← hf]
      exact h2
  constructor
  · have : ∀ x ∈ cycleFiles, cycleEnv.files x.1 = some (fileText x.2) := by decide +kernel
    exact this _ hx
  · have hl : ∀ l ∈ ls, l ∈ partOne ∨ l = .blank [] ∨ l = partIncl b!"other" ∨ l = partIncl b!"nowhere" := by
      simp only [cycleFiles, List.mem_cons, List.not_mem_nil, or_false] at hx
      intro l hl
      rcases hx with h | h <;> injection h with _ h <;> subst h <;> simp only [List.mem_append, List.mem_cons, List.not_mem_nil, or_false] at hl <;> tauto
    intro l hm
    rcases hl l hm with h | rfl | rfl | rfl
    · obtain ⟨h1, h2, -⟩ := quote_line l (.inr h)
      exact ⟨h1, fun sp q g e => absurd e (h2 sp q g)⟩
    · exact ⟨(by intro c hc; cases hc), fun sp q g e => by cases e⟩
    · refine ⟨⟨by decide, by decide, by decide, by decide, by rintro ⟨⟩⟩, fun sp q g e => ?_⟩
      unfold partIncl at e
      cases e
      rfl
    · refine ⟨⟨by decide, by decide, by decide, by decide, by rintro ⟨⟩⟩, fun sp q g e => ?_⟩
      unfold partIncl at e
      cases e
      rfl

theorem cycle_back : Relation.TransGen (Includes cycleDisk cycleEnv.join) b!"nowhere" b!"nowhere" :=
  .tail (.single ⟨_, [32], true, b!"other", rfl, by unfold partIncl; simp, rfl⟩) ⟨_, [32], true, b!"nowhere", rfl, by unfold partIncl; simp, rfl⟩

/-- Two files that include each other: no sort and no depth makes the ledger load. -/
example (srt : List Posting → List Posting) : ¬ Loads srt cycleEnv b!"nowhere" :=
  c147_cycle (demoEnv_ok _) (demo_letters _) cycle_disk rfl .refl cycle_back srt

/-- And `ccy -l nowhere` does not end with status 0. -/
example (depth : Nat) (out : List Exported) : goledgerMain { zeroWorld with files := cycleEnv, depth := depth } bankWorld none (some rentToml) (fun _ _ => .never)
    [b!"ccy", b!"-l", b!"nowhere"] ≠ .done 0 out := by
  have hl : (appOf rentToml (nowhereLine.flags appFlagTable)).ledger = b!"nowhere" := by decide +kernel
  exact c147_command { zeroWorld with files := cycleEnv, depth := depth } bankWorld none rentToml (fun _ _ => .never) bank_walks rentToml_good rent_noBlanks
    [b!"ccy"] nowhereLine appFlagTable (.command [b!"ccy"] appFlagTable b!"ccy" _ (by simp [commandTables]) (by simp)) nowhereLine_good (by decide +kernel)
    (demoEnv_ok _) (demo_letters _) cycle_disk (g := b!"nowhere") (by rw [hl]; rfl) (by rw [hl]) cycle_back out

/-- The includes of the ledger `main` of C143 end. -/
example : IncludesEnd inclDisk inclEnv.join b!"main" := by
  have h : (match loadBook insSort inclEnv 5 b!"main" with
      | .ok _ => true
      | _ => false) = true := by decide +kernel
  have hl : Loads insSort inclEnv b!"main" := by
    split at h <;> try cases h
    rename_i bk hbk
    exact ⟨5, bk, hbk⟩
  exact ((c147_loads (demoEnv_ok _) (demo_letters _) incl_disk rfl insSort).1 hl).1

end Verif
