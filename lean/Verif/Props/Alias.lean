import Verif.Props.Accum
import Verif.Model.Alias

/-! # C53: `Accumulate` and the book it is given -/

namespace Verif
open Spec

theorem take_set_succ' {x : Posting} : ∀ (n : Nat) (arr : List Posting), n < arr.length → (arr.set n x).take (n + 1) = arr.take n ++ [x] := by
  intro n
  induction n with
  | zero => intro arr h; cases arr with
    | nil => simp at h
    | cons a arr => simp
  | succ n ih => intro arr h; cases arr with
    | nil => simp at h
    | cons a arr => simp only [List.set_cons_succ, List.take_succ_cons, List.cons_append]; rw [ih arr (by simpa using h)]

theorem foldl_append_fits (arr : List Posting) : ∀ (app : List Posting) (n : Nat), n + app.length ≤ arr.length →
    app.foldl SliceState.append ⟨arr, .inl n⟩ = ⟨arr.take n ++ app ++ arr.drop (n + app.length), .inl (n + app.length)⟩ := by
  intro app
  induction app generalizing arr with
  | nil => intro n h; simp
  | cons x app ih =>
    intro n h
    rw [List.length_cons] at h
    have hs : SliceState.append ⟨arr, .inl n⟩ x = ⟨arr.set n x, .inl (n + 1)⟩ := by
      simp only [SliceState.append]; rw [if_pos (by omega)]
    rw [List.foldl_cons, hs, ih (arr.set n x) (n + 1) (by simp; omega)]
    have e1 : (arr.set n x).take (n + 1) = arr.take n ++ [x] := by
      exact take_set_succ' n arr (by omega)
    have e2 : (arr.set n x).drop (n + 1 + app.length) = arr.drop (n + (app.length + 1)) := by
      rw [List.drop_set, if_pos (by omega)]; congr 1; omega
    rw [e1, e2, List.length_cons]
    simp; omega

theorem foldl_append_own (arr : List Posting) : ∀ (app : List Posting) (l : List Posting),
    app.foldl SliceState.append ⟨arr, .inr l⟩ = ⟨arr, .inr (l ++ app)⟩ := by
  intro app
  induction app with
  | nil => intro l; simp
  | cons x app ih => intro l; rw [List.foldl_cons]; simp only [SliceState.append]; rw [ih]; simp

theorem foldl_append_overflow (arr : List Posting) : ∀ (app : List Posting) (n : Nat), n ≤ arr.length → arr.length < n + app.length →
    ∃ arr', app.foldl SliceState.append ⟨arr, .inl n⟩ = ⟨arr', .inr (arr.take n ++ app)⟩ ∧ arr'.take n = arr.take n := by
  intro app
  induction app generalizing arr with
  | nil => intro n h1 h2; simp at h2; omega
  | cons x app ih =>
    intro n h1 h2
    rw [List.length_cons] at h2
    rw [List.foldl_cons]
    by_cases h : n < arr.length
    · have hs : SliceState.append ⟨arr, .inl n⟩ x = ⟨arr.set n x, .inl (n + 1)⟩ := by
        simp only [SliceState.append]; rw [if_pos h]
      obtain ⟨arr', e1, e2⟩ := ih (arr.set n x) (n + 1) (by simp; omega) (by simp; omega)
      have e3 : (arr.set n x).take (n + 1) = arr.take n ++ [x] := take_set_succ' n arr h
      refine ⟨arr', by rw [hs, e1, e3]; simp, ?_⟩
      have := congrArg (List.take n) e2
      rw [List.take_take, min_eq_left (by omega), e3] at this
      rw [this, List.take_append_of_le_length (by simp; omega)]
      rw [List.take_take, min_self]
    · have hs : SliceState.append ⟨arr, .inl n⟩ x = ⟨arr, .inr (arr.take n ++ [x])⟩ := by
        simp only [SliceState.append]; rw [if_neg h]
      rw [hs, foldl_append_own]
      exact ⟨arr, by simp, rfl⟩

/-- The local slice that `addEmptyAccounts` returns does not depend on the capacity: it is the
value of the plain model (so the report itself is unaffected). -/
theorem c53_report_unaffected (srt : List Posting → List Posting) (hs : IsSort srt) (posts spare : List Posting) :
    (addEmptyInPlace srt posts spare).map SliceState.view = addEmptyAccounts srt posts := by
  cases posts with
  | nil => rfl
  | cons p ps =>
    unfold addEmptyInPlace addEmptyAccounts
    simp only [Option.map_map]
    congr 1
    funext app
    simp only [Function.comp]
    by_cases h : (p :: ps).length + app.length ≤ ((p :: ps) ++ spare).length
    · rw [foldl_append_fits _ _ _ h]
      have hl := (hs.perm ((p :: ps) ++ app)).length_eq
      unfold SliceState.sort SliceState.view
      simp only
      rw [List.take_left]
      rw [List.take_append_of_le_length (l₁ := p :: ps ++ app) (by simp; omega), List.take_of_length_le (l := p :: ps ++ app) (by simp; omega)]
      rw [List.take_append_of_le_length (by rw [hl]; simp; omega), List.take_of_length_le (by rw [hl]; simp; omega)]
    · obtain ⟨arr', e1, _⟩ := foldl_append_overflow ((p :: ps) ++ spare) app (p :: ps).length (by simp) (by omega)
      rw [e1]
      unfold SliceState.sort SliceState.view
      simp only
      rw [List.take_left]

/-- C53 as stated: whatever spare capacity the posting array has, the book's postings are the same
after `Accumulate`. -/
def C53 : Prop := ∀ (srt : List Posting → List Posting) (today : Int) (b : Book) (spare : List Posting),
  IsSort srt → Reachable srt today b → postsAfterAccumulate srt b spare = some (b.compact srt).post

/-- C53 is false of the code: with four spare cells (the demo book was built from ten postings of
which six remain, so its array has them) the postings are overwritten, and the book no longer
balances. -/
theorem c53_book_unchanged_fails : ¬ C53 := by
  intro h
  have := h insSort 0 demoBook (demoBook.post.take 4) insSort_isSort demo_reachable
  have hl : (postsAfterAccumulate insSort demoBook (demoBook.post.take 4)).map (·.map line) ≠
      some ((demoBook.compact insSort).post.map line) := by decide +kernel
  rw [this] at hl
  exact hl rfl

/-- What is left of the demo book: the second transaction has lost a posting. -/
theorem c53_unbalanced_after_fails : ∃ l, postsAfterAccumulate insSort demoBook (demoBook.post.take 4) = some l ∧ ¬ Balanced l := by
  have h : (postsAfterAccumulate insSort demoBook (demoBook.post.take 4)).map (fun l => txnTotal 20200131 b!"shop (2)" b!"EUR" l) = some (-4) := by
    decide +kernel
  obtain ⟨l, h1, h2⟩ := Option.map_eq_some_iff.1 h
  refine ⟨l, h1, fun hb => ?_⟩
  rw [hb] at h2
  exact absurd h2 (by norm_num)

/-- C53, the part that holds: if the postings to be added do not all fit into the spare capacity
(in particular when there is none), or nothing is to be added, the book is unchanged.
Missing: enough spare capacity. -/
theorem c53_book_unchanged_partial (srt : List Posting → List Posting) (hs : IsSort srt) (today : Int) (b : Book)
    (hr : Reachable srt today b) (spare : List Posting)
    (hcap : (reported srt b).length + spare.length < (b.transactions srt).length * (acctsOf srt b).length ∨
      (reported srt b).length = (b.transactions srt).length * (acctsOf srt b).length) :
    postsAfterAccumulate srt b spare = some (b.compact srt).post := by
  obtain ⟨w, hb⟩ := reachable_wf hs hr
  unfold postsAfterAccumulate
  simp only
  by_cases hp : (b.compact srt).post = []
  · rw [if_pos hp]
  rw [if_neg hp]
  have hfl := transactions_flatten hs w
  have hne : b.transactions srt ≠ [] := by
    intro h0; rw [h0] at hfl; exact hp hfl.symm
  obtain ⟨hc, hu, hn, hA, _, hadd, hord, _⟩ := book_data hs w hb hne
  have hrep : reported srt b = (b.compact srt).post := hfl
  rw [hrep] at hcap
  have w1 := compact_wf hs w.plain w.nil_trans
  have hstrict : ((b.compact srt).post).Pairwise (fun a b => key a < key b) := by
    rw [← hfl]; exact canonical_flatten_strict hc
  generalize hposts : (b.compact srt).post = posts at *
  cases posts with
  | nil => exact absurd rfl hp
  | cons p ps =>
    unfold addEmptyAccounts at hadd
    simp only at hadd
    obtain ⟨app, ha, hsrt⟩ := Option.map_eq_some_iff.1 hadd
    have hlen : (p :: ps).length + app.length = (b.transactions srt).length * (acctsOf srt b).length := by
      have := congrArg List.length hsrt
      rw [(hs.perm _).length_eq, List.length_append, List.length_flatten, List.map_map] at this
      rw [this]
      have : (List.length ∘ fill (acctsOf srt b)) = fun _ => (acctsOf srt b).length := by
        funext u; simp [fill]
      rw [this, List.map_const', List.sum_replicate_nat]
    unfold addEmptyInPlace
    simp only
    rw [ha]
    simp only [Option.map_some, Option.some.injEq]
    rcases hcap with h | h
    · obtain ⟨arr', e1, e2⟩ := foldl_append_overflow ((p :: ps) ++ spare) app (p :: ps).length (by simp) (by rw [List.length_append]; omega)
      rw [e1]
      unfold SliceState.sort
      simp only
      rw [e2, List.take_left]
    · have : app = [] := List.length_eq_zero_iff.1 (by omega)
      subst this
      simp only [List.foldl_nil]
      unfold SliceState.sort
      simp only
      rw [List.take_left]
      have hsame : srt (p :: ps) = p :: ps := by
        apply srt_of_strict hs
        · intro q hq; exact w1.plain q (by rw [hposts]; exact hq)
        · exact hstrict
      rw [hsame, List.take_left]

/-- The partial theorem applies to the demo book when its array has no room for four more. -/
example : (reported insSort demoBook).length + ([] : List Posting).length <
    (demoBook.transactions insSort).length * (acctsOf insSort demoBook).length := by decide +kernel

end Verif
