import Verif.Proofs.Float
import Verif.Model.Html
import Verif.Props.Accum4

/-! # C64: HTML reports -/

namespace Verif
namespace Spec

/-- Reading the document with `d` divs open: how many are open at the end; `none` if a `</div>`
has nothing to close. -/
def openDivs : Nat → List Piece → Option Nat
  | d, [] => some d
  | d, .text _ :: l => openDivs d l
  | d, .opn _ :: l => openDivs (d + 1) l
  | 0, .cls :: _ => none
  | d + 1, .cls :: l => openDivs d l

/-- Every div is closed, and every `</div>` closes one. -/
def DivsBalanced (l : List Piece) : Prop := openDivs 0 l = some 0

/-- The level of the last posting of a transaction. -/
def lastLevel (t : Txn) : Nat := (List.getLast? t).elim 0 fun p => p.acctlevel.toNat

end Spec
open Spec

theorem openDivs_append (d : Nat) (a b : List Piece) :
    openDivs d (a ++ b) = (openDivs d a).bind fun d' => openDivs d' b := by
  induction a generalizing d with
  | nil => rfl
  | cons x a ih =>
    cases x with
    | text s => simp only [List.cons_append, openDivs]; exact ih d
    | opn c => simp only [List.cons_append, openDivs]; exact ih _
    | cls =>
      cases d with
      | zero => rfl
      | succ d => simp only [List.cons_append, openDivs]; exact ih d

theorem openDivs_openBoxes (n : Nat) (i : Int) (d : Nat) : openDivs d (openBoxes n i) = some (d + n) := by
  induction n generalizing i d with
  | zero => rfl
  | succ n ih => simp only [openBoxes, openDivs, ih]; congr 1; omega

theorem openDivs_closeBoxes (n : Nat) (i : Int) (d : Nat) : openDivs (d + n) (closeBoxes n i) = some d := by
  induction n generalizing i d with
  | zero => rfl
  | succ n ih =>
    rw [show d + (n + 1) = (d + n) + 1 by omega]
    simp only [closeBoxes, openDivs, ih]

theorem openDivs_post {f : Fmt} {last : Nat} {p : Posting} {l : List Piece} (hp : 0 ≤ p.acctlevel)
    (h : htmlPost f last p = some l) (d : Nat) : openDivs (d + last) l = some (d + p.acctlevel.toNat) := by
  unfold htmlPost at h
  simp only [Option.map_eq_some_iff] at h
  obtain ⟨sym, _, rfl⟩ := h
  rw [openDivs_append]
  by_cases h1 : p.acctlevel > last
  · rw [if_pos h1, openDivs_openBoxes]
    simp only [Option.bind_some, openDivs]
    congr 1; omega
  · rw [if_neg h1]
    by_cases h2 : p.acctlevel < last
    · rw [if_pos h2]
      have : d + last = (d + p.acctlevel.toNat) + ((last : Int) - p.acctlevel).toNat := by omega
      rw [this, openDivs_closeBoxes]
      simp only [Option.bind_some, openDivs]
    · rw [if_neg h2]
      simp only [openDivs, Option.bind_some]
      congr 1; omega

theorem openDivs_posts {f : Fmt} {t : List Posting} (last : Nat) {l : List Piece} (hp : ∀ p ∈ t, 0 ≤ p.acctlevel)
    (h : htmlPosts f last t = some l) (d : Nat) :
    openDivs (d + last) l = some (d + (if t = [] then last else lastLevel t)) := by
  induction t generalizing last l with
  | nil => simp only [htmlPosts, Option.some.injEq] at h; subst h; simp [openDivs]
  | cons p t ih =>
    simp only [htmlPosts, Option.bind_eq_some_iff, Option.map_eq_some_iff] at h
    obtain ⟨a, ha, b, hb, rfl⟩ := h
    have h0 : 0 ≤ p.acctlevel := hp p (by simp)
    rw [openDivs_append, openDivs_post h0 ha, Option.bind_some]
    obtain ⟨n, hn⟩ := Int.eq_ofNat_of_zero_le h0
    rw [hn] at hb ⊢
    rw [show (n : Int).toNat = n from rfl, ih n (fun q hq => hp q (by simp [hq])) hb]
    cases t with
    | nil => simp [lastLevel, hn]
    | cons q t => simp [lastLevel]

theorem openDivs_txn {f : Fmt} {t : Txn} {l : List Piece} (hp : ∀ p ∈ t, 0 ≤ p.acctlevel)
    (h : htmlTxn f t = some l) (d : Nat) : openDivs d l = some (d + lastLevel t) := by
  cases t with
  | nil => simp [htmlTxn] at h
  | cons p t =>
    simp only [htmlTxn, Option.map_eq_some_iff] at h
    obtain ⟨posts, hposts, rfl⟩ := h
    have hh : openDivs d ([.opn b!"report", .text [10], .opn b!"header", .text [10],
       .text b!"  ", .opn b!"date", .text (dateString p.date), .cls, .text [10]] ++
      (if p.payee = [] then [] else [.text b!"  ", .opn b!"payee", .text p.payee, .cls, .text [10]]) ++
      [.cls, .text [10], .opn b!"posts", .text [10]]) = some (d + 2) := by
      split <;> simp [openDivs]
    rw [openDivs_append, openDivs_append, hh]
    have := openDivs_posts (f := f) 0 hp (by simpa using hposts) (d + 2)
    simp only [Nat.add_zero] at this
    rw [Option.bind_some, this]
    simp only [Option.bind_some]
    rw [if_neg (by simp)]
    rw [show d + 2 + lastLevel (p :: t) = (d + lastLevel (p :: t)) + 1 + 1 by omega]
    simp [openDivs]

theorem openDivs_txns {f : Fmt} {ts : List Txn} {l : List Piece} (hp : ∀ t ∈ ts, ∀ p ∈ t, 0 ≤ p.acctlevel)
    (h : htmlTxns f ts = some l) (d : Nat) : openDivs d l = some (d + (ts.map lastLevel).sum) := by
  induction ts generalizing l d with
  | nil => simp only [htmlTxns, Option.some.injEq] at h; subst h; simp [openDivs]
  | cons t ts ih =>
    simp only [htmlTxns, Option.bind_eq_some_iff, Option.map_eq_some_iff] at h
    obtain ⟨a, ha, b, hb, rfl⟩ := h
    rw [openDivs_append, openDivs_txn (hp t (by simp)) ha, Option.bind_some,
      ih (fun t ht => hp t (by simp [ht])) hb]
    simp only [List.map_cons, List.sum_cons]
    congr 1; omega

/-- C64, what holds: no `</div>` is ever surplus, and the number of divs left open at the end of
the document is the sum of the levels of the last rows of the transactions. -/
theorem c64_open_at_end_partial (f : Fmt) (css : Str) (ts : List Txn) (l : List Piece)
    (hp : ∀ t ∈ ts, ∀ p ∈ t, 0 ≤ p.acctlevel) (h : showHTML f css ts = some l) :
    openDivs 0 l = some (ts.map lastLevel).sum := by
  simp only [showHTML, Option.map_eq_some_iff] at h
  obtain ⟨body, hb, rfl⟩ := h
  rw [openDivs_append, openDivs_append]
  simp only [openDivs, Option.bind_some, openDivs_txns hp hb, Nat.zero_add]
  rw [Nat.add_comm]
  simp [openDivs]

/-- C64: so the markup is balanced exactly when every transaction ends with a row at the
outermost level; in particular whenever no summary is asked for. -/
theorem c64_balanced_iff_partial (f : Fmt) (css : Str) (ts : List Txn) (l : List Piece)
    (hp : ∀ t ∈ ts, ∀ p ∈ t, 0 ≤ p.acctlevel) (h : showHTML f css ts = some l) :
    DivsBalanced l ↔ ∀ t ∈ ts, ∀ p ∈ t.getLast?, p.acctlevel = 0 := by
  unfold DivsBalanced
  rw [c64_open_at_end_partial f css ts l hp h]
  simp only [Option.some.injEq, List.sum_eq_zero_iff, List.mem_map, forall_exists_index, and_imp,
    forall_apply_eq_imp_iff₂]
  refine forall₂_congr fun t ht => ?_
  unfold lastLevel
  cases hl : t.getLast? with
  | none => simp
  | some p =>
    have := hp t ht p (List.mem_of_getLast? hl)
    simp only [Option.elim_some, Option.mem_def, Option.some.injEq, forall_eq']
    omega

/-- Non-vacuity, and the markup of a plain report is balanced. -/
def htmlFmt : Fmt := ⟨fun c => isAlpha c, id, fun _ => some 2, toDouble, halfEven, 46⟩
  where isAlpha (c : Nat) : Bool := decide (65 ≤ c) && decide (c ≤ 122)
example : ((showHTML htmlFmt [] (demoBook.transactions insSort)).map fun l => openDivs 0 l) = some (some 0) := by
  decide +kernel

/-- The summary of the demo book. -/
def demoSummary : List Txn :=
  (demoBook.accumulate insSort b!"EUR" b!":" none [] (fun _ _ l => l)).getD []

/-- C64 is false of the code: the summary report of the demo book leaves divs open. -/
theorem c64_balanced_fails :
    ¬ ∀ (f : Fmt) (css : Str) (ts : List Txn) (l : List Piece), (∀ t ∈ ts, ∀ p ∈ t, 0 ≤ p.acctlevel) →
      showHTML f css ts = some l → DivsBalanced l := by
  intro h
  have h1 : ∀ t ∈ demoSummary, ∀ p ∈ t, 0 ≤ p.acctlevel := by decide +kernel
  have h2 : (showHTML htmlFmt [] demoSummary).isSome = true := by decide +kernel
  obtain ⟨l, hl⟩ := Option.isSome_iff_exists.1 h2
  have h3 := (c64_balanced_iff_partial htmlFmt [] demoSummary l h1 hl).1 (h htmlFmt [] demoSummary l h1 hl)
  revert h3
  decide +kernel

end Verif
