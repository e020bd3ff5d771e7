import Verif.Spec.Html
import Verif.Spec.Export
import Verif.Props.Html
import Verif.Props.Csv

/-! # C79: what HTML reports show -/

namespace Verif
open Spec

/-! ## Reading pieces -/

/-- The element open after the pieces. -/
def scanState : Option (Str × Str) → List Piece → Option (Str × Str)
  | cur, [] => cur
  | cur, .text s :: l => scanState (cur.map fun e => (e.1, e.2 ++ s)) l
  | _, .opn c :: l => scanState (some (divTag c, [])) l
  | _, .cls :: l => scanState none l

/-- The elements closed within the pieces. -/
def scanOut : Option (Str × Str) → List Piece → List (Str × Str)
  | _, [] => []
  | cur, .text s :: l => scanOut (cur.map fun e => (e.1, e.2 ++ s)) l
  | _, .opn c :: l => scanOut (some (divTag c, [])) l
  | cur, .cls :: l => cur.toList ++ scanOut none l

theorem scanState_append (a b : List Piece) : ∀ cur, scanState cur (a ++ b) = scanState (scanState cur a) b := by
  induction a with
  | nil => intro cur; rfl
  | cons x a ih => intro cur; cases x <;> exact ih _

theorem scanOut_append (a b : List Piece) : ∀ cur, scanOut cur (a ++ b) = scanOut cur a ++ scanOut (scanState cur a) b := by
  induction a with
  | nil => intro cur; rfl
  | cons x a ih =>
    intro cur
    cases x with
    | text s => exact ih _
    | opn c => exact ih _
    | cls => show cur.toList ++ scanOut none (a ++ b) = _; rw [ih]; simp [scanOut, scanState]

/-- No tag can begin in a text, or end in a class. -/
def CleanPiece : Piece → Prop
  | .text s => 60 ∉ s
  | .opn c => 62 ∉ c
  | .cls => True

theorem read_clean_text (s : Str) (h : 60 ∉ s) : ∀ cur rest,
    readLeaves none cur (s ++ rest) = readLeaves none (cur.map fun e => (e.1, e.2 ++ s)) rest := by
  induction s with
  | nil => intro cur rest; cases cur <;> simp
  | cons c s ih =>
    intro cur rest
    simp only [List.mem_cons, not_or] at h
    rw [List.cons_append, readLeaves, if_neg (Ne.symm h.1), ih h.2]
    cases cur <;> simp

theorem read_tag (t : Str) (h : 62 ∉ t) : ∀ a cur rest,
    readLeaves (some a) cur (t ++ rest) = readLeaves (some (a ++ t)) cur rest := by
  induction t with
  | nil => intro a cur rest; simp
  | cons c t ih =>
    intro a cur rest
    simp only [List.mem_cons, not_or] at h
    rw [List.cons_append, readLeaves, if_neg (Ne.symm h.1), ih h.2]
    simp

theorem read_open (t : Str) (h : 62 ∉ t) (h2 : t.head? ≠ some 47) (cur) (rest : Str) :
    readLeaves none cur (60 :: (t ++ 62 :: rest)) = readLeaves none (some (t, [])) rest := by
  rw [readLeaves, if_pos rfl, read_tag t h, List.nil_append, readLeaves, if_pos rfl, if_neg h2]

theorem read_close (t : Str) (h : 62 ∉ t) (h2 : t.head? = some 47) (cur) (rest : Str) :
    readLeaves none cur (60 :: (t ++ 62 :: rest)) = (readLeaves none none rest).map fun l => cur.toList ++ l := by
  rw [readLeaves, if_pos rfl, read_tag t h, List.nil_append, readLeaves, if_pos rfl, if_pos h2]

theorem read_pieces (l : List Piece) (h : ∀ x ∈ l, CleanPiece x) : ∀ cur rest,
    readLeaves none cur (render l ++ rest) = (readLeaves none (scanState cur l) rest).map fun m => scanOut cur l ++ m := by
  induction l with
  | nil => intro cur rest; simp [render, scanState, scanOut]
  | cons x l ih =>
    intro cur rest
    have ih := ih fun y hy => h y (List.mem_cons_of_mem _ hy)
    have hx := h x (by simp)
    have e : render (x :: l) ++ rest = x.bytes ++ (render l ++ rest) := by simp [render]
    rw [e]
    cases x with
    | text s =>
      show readLeaves none cur (s ++ _) = _
      rw [read_clean_text s hx, ih]; rfl
    | opn c =>
      have e2 : (Piece.opn c).bytes ++ (render l ++ rest) = 60 :: (divTag c ++ 62 :: (render l ++ rest)) := by
        simp [Piece.bytes, divTag]
      rw [e2, read_open, ih]
      · rfl
      · unfold divTag
        intro hm
        simp only [List.mem_append, List.mem_singleton] at hm
        rcases hm with (hm | hm) | hm
        · revert hm; decide
        · exact hx hm
        · revert hm; decide
      · simp [divTag]
    | cls =>
      have e2 : Piece.cls.bytes ++ (render l ++ rest) = 60 :: (b!"/div" ++ 62 :: (render l ++ rest)) := by
        simp [Piece.bytes]
      rw [e2, read_close _ (by decide) (by decide), ih]
      simp only [Option.map_map, scanState, scanOut]
      congr 1
      funext m
      simp

/-! ## The pieces of a report -/

/-- What a posting shows: the account label, and currency and amount. -/
def postLeaves (f : Fmt) (p : Posting) : List (Str × Str) :=
  [(divTag b!"account", p.acctterm),
   (divTag (b!"amount " ++ (if p.val ≥ 0 then b!"pos" else b!"neg")), (f.symbol p.ccy).getD [] ++ f.number p.ccy p.val)]

/-- What a transaction shows: the date, the payee if there is one, and the postings in order. -/
def txnLeaves (f : Fmt) (t : Txn) : List (Str × Str) :=
  (t.head?.elim [] fun p => (divTag b!"date", dateString p.date) :: if p.payee = [] then [] else [(divTag b!"payee", p.payee)]) ++
    t.flatMap (postLeaves f)

theorem scan_openBoxes (n : Nat) : ∀ i cur, scanOut cur (openBoxes n i) = [] := by
  induction n with
  | zero => intro i cur; rfl
  | succ n ih => intro i cur; simp only [openBoxes, scanOut]; exact ih _ _

theorem scan_closeBoxes (n : Nat) : ∀ i, scanOut none (closeBoxes n i) = [] := by
  induction n with
  | zero => intro i; rfl
  | succ n ih => intro i; simp only [closeBoxes, scanOut, Option.map_none, Option.toList_none, List.nil_append]; exact ih _

theorem scan_post {f : Fmt} {last : Int} {p : Posting} {l : List Piece} (h : htmlPost f last p = some l) (cur : Option (Str × Str))
    (hc : cur = none ∨ last ≤ p.acctlevel) :
    scanOut cur l = postLeaves f p ∧ scanState cur l = none := by
  unfold htmlPost at h
  simp only [Option.map_eq_some_iff] at h
  obtain ⟨sym, hsym, rfl⟩ := h
  rw [scanOut_append, scanState_append]
  constructor
  · have e1 : scanOut cur (if p.acctlevel > last then openBoxes (p.acctlevel - last).toNat last
      else if p.acctlevel < last then closeBoxes (last - p.acctlevel).toNat (last - 1) else []) = [] := by
      split
      · exact scan_openBoxes _ _ _
      · split
        · rcases hc with rfl | hc
          · exact scan_closeBoxes _ _
          · omega
        · rfl
    rw [e1]
    simp only [scanOut, Option.map_some, List.nil_append, Option.toList_some, Option.map_none, Option.toList_none, List.append_nil, postLeaves, hsym,
      Option.getD_some]
    rfl
  · simp [scanState]

theorem scan_posts {f : Fmt} : ∀ (t : List Posting) {last : Int} {l : List Piece}, htmlPosts f last t = some l →
    (scanOut none l = t.flatMap (postLeaves f)) ∧ scanState none l = none := by
  intro t
  induction t with
  | nil => intro last l h; cases h; exact ⟨rfl, rfl⟩
  | cons p t ih =>
    intro last l h
    simp only [htmlPosts, Option.bind_eq_some_iff, Option.map_eq_some_iff] at h
    obtain ⟨a, ha, b, hb, rfl⟩ := h
    obtain ⟨p1, p2⟩ := scan_post ha none (Or.inl rfl)
    obtain ⟨t1, t2⟩ := ih hb
    rw [scanOut_append, scanState_append, p1, p2, t1, t2]
    exact ⟨by simp, rfl⟩

theorem scan_txn {f : Fmt} {t : Txn} {l : List Piece} (hl : ∀ p ∈ t, 0 ≤ p.acctlevel) (h : htmlTxn f t = some l) (cur : Option (Str × Str)) :
    scanOut cur l = txnLeaves f t ∧ scanState cur l = none := by
  cases t with
  | nil => cases h
  | cons p t =>
    simp only [htmlTxn, Option.map_eq_some_iff] at h
    obtain ⟨posts, hp, rfl⟩ := h
    have key : ∀ (cur : Option (Str × Str)), scanOut cur posts = (p :: t).flatMap (postLeaves f) ∧ scanState cur posts = none := by
      intro cur
      simp only [htmlPosts, Option.bind_eq_some_iff, Option.map_eq_some_iff] at hp
      obtain ⟨a, ha, b, hb, rfl⟩ := hp
      obtain ⟨p1, p2⟩ := scan_post ha cur (Or.inr (hl p (by simp)))
      obtain ⟨t1, t2⟩ := scan_posts t hb
      rw [scanOut_append, scanState_append, p1, p2, t1, t2]
      exact ⟨by simp, rfl⟩
    refine ⟨?_, by rw [scanState_append]; rfl⟩
    rw [scanOut_append, scanOut_append, (key _).1, scanState_append, (key _).2]
    have e2 : scanOut none ([.cls, .text [10], .cls, .text [10]] : List Piece) = [] := rfl
    rw [e2, List.append_nil]
    unfold txnLeaves
    congr 1
    by_cases hpy : p.payee = []
    · simp [hpy, scanOut, scanState]
    · simp [hpy, scanOut, scanState]

theorem scan_txns {f : Fmt} : ∀ (ts : List Txn) {l : List Piece}, (∀ t ∈ ts, ∀ p ∈ t, 0 ≤ p.acctlevel) → htmlTxns f ts = some l →
    scanOut none l = ts.flatMap (txnLeaves f) ∧ scanState none l = none := by
  intro ts
  induction ts with
  | nil => intro l _ h; cases h; exact ⟨rfl, rfl⟩
  | cons t ts ih =>
    intro l hl h
    simp only [htmlTxns, Option.bind_eq_some_iff, Option.map_eq_some_iff] at h
    obtain ⟨a, ha, b, hb, rfl⟩ := h
    obtain ⟨p1, p2⟩ := scan_txn (hl t (by simp)) ha none
    obtain ⟨t1, t2⟩ := ih (fun t ht => hl t (List.mem_cons_of_mem _ ht)) hb
    rw [scanOut_append, scanState_append, p1, p2, t1, t2]
    exact ⟨by simp, rfl⟩


/-! ## Cleanliness -/

theorem natDec_no (c n : Nat) (h : c < 48 ∨ 57 < c) : c ∉ natDec n := by
  intro hm
  have := natDec_digits n c hm
  omega

theorem intDec_no (c : Nat) (i : Int) (h : c < 48 ∨ 57 < c) (h2 : c ≠ 45) : c ∉ intDec i := by
  unfold intDec
  split
  · intro hm
    rcases List.mem_cons.1 hm with hm | hm
    · exact h2 hm
    · exact natDec_no c _ h hm
  · exact natDec_no c _ h

theorem intPad_no (c w : Nat) (i : Int) (h : c < 48 ∨ 57 < c) (h2 : c ≠ 45) : c ∉ intPad w i := by
  have hr : ∀ k, c ∉ List.replicate k 48 := by
    intro k hm
    have := List.eq_of_mem_replicate hm
    omega
  unfold intPad
  simp only
  split
  · intro hm
    rcases List.mem_cons.1 hm with hm | hm
    · exact h2 hm
    · rcases List.mem_append.1 hm with hm | hm
      · exact hr _ hm
      · exact natDec_no c _ h hm
  · intro hm
    rcases List.mem_append.1 hm with hm | hm
    · exact hr _ hm
    · exact natDec_no c _ h hm

theorem dateString_clean (d : Int) : 60 ∉ dateString d := by
  unfold dateString
  split
  · decide
  · simp only [List.mem_append, not_or]
    exact ⟨⟨⟨⟨intPad_no _ _ _ (by decide) (by decide), by decide⟩, intPad_no _ _ _ (by decide) (by decide)⟩, by decide⟩,
      intPad_no _ _ _ (by decide) (by decide)⟩

theorem indentStr_clean (c : Int) : 60 ∉ indentStr c := by
  unfold indentStr
  intro hm
  have := List.eq_of_mem_replicate hm
  omega

theorem number_clean {f : Fmt} (hg : NumbersNoTags f) (c : Str) (v : Rat) : 60 ∉ f.number c v := by
  unfold Fmt.number fmtFixedAt
  simp only
  intro hm
  rcases List.mem_append.1 hm with hm | hm
  · rcases List.mem_append.1 hm with hm | hm
    · split at hm
      · simp at hm
      · cases hm
    · exact hg.1 _ hm
  · split at hm
    · cases hm
    · rcases List.mem_cons.1 hm with hm | hm
      · exact hg.2 hm.symm
      · rcases List.mem_append.1 hm with hm | hm
        · have := List.eq_of_mem_replicate hm; omega
        · exact natDec_no _ _ (by decide) hm

theorem symbol_clean {f : Fmt} {s sym : Str} (h : f.symbol s = some sym) (hs : 60 ∉ s) : 60 ∉ sym := by
  unfold Fmt.symbol at h
  split at h
  · cases h
  · split at h
    · cases h
      simp [hs]
    · cases h; exact hs

/-- The texts of a transaction contain no `<`. -/
structure NoTags (t : Txn) : Prop where
  payee : ∀ p ∈ t, 60 ∉ p.payee
  term : ∀ p ∈ t, 60 ∉ p.acctterm
  ccy : ∀ p ∈ t, 60 ∉ p.ccy

theorem clean_openBoxes (n : Nat) : ∀ i, ∀ x ∈ openBoxes n i, CleanPiece x := by
  induction n with
  | zero => intro i x hx; cases hx
  | succ n ih =>
    intro i x hx
    simp only [openBoxes, List.mem_cons] at hx
    rcases hx with rfl | rfl | rfl | hx
    · simp [CleanPiece, indentStr_clean]
    · simp [CleanPiece]
    · simp [CleanPiece]
    · exact ih _ x hx

theorem clean_closeBoxes (n : Nat) : ∀ i, ∀ x ∈ closeBoxes n i, CleanPiece x := by
  induction n with
  | zero => intro i x hx; cases hx
  | succ n ih =>
    intro i x hx
    simp only [closeBoxes, List.mem_cons] at hx
    rcases hx with rfl | rfl | rfl | hx
    · simp [CleanPiece, indentStr_clean]
    · simp [CleanPiece]
    · simp [CleanPiece]
    · exact ih _ x hx

theorem clean_post {f : Fmt} (hg : NumbersNoTags f) {last : Int} {p : Posting} {l : List Piece} (h : htmlPost f last p = some l)
    (h1 : 60 ∉ p.acctterm) (h2 : 60 ∉ p.ccy) : ∀ x ∈ l, CleanPiece x := by
  unfold htmlPost at h
  simp only [Option.map_eq_some_iff] at h
  obtain ⟨sym, hsym, rfl⟩ := h
  intro x hx
  rcases List.mem_append.1 hx with hx | hx
  · split at hx
    · exact clean_openBoxes _ _ x hx
    · split at hx
      · exact clean_closeBoxes _ _ x hx
      · cases hx
  · have hi := indentStr_clean p.acctlevel
    have hn := number_clean hg p.ccy p.val
    have hs := symbol_clean hsym h2
    have hd := intDec_no 62 p.acctlevel (by decide) (by decide)
    simp only [List.mem_cons, List.not_mem_nil, or_false] at hx
    rcases hx with rfl | rfl | rfl | rfl | rfl | rfl | rfl | rfl | rfl | rfl | rfl | rfl | rfl | rfl | rfl | rfl
    all_goals
      simp only [CleanPiece, List.mem_append, List.mem_cons, not_or]
      try simp [hi, hn, hs, h1, hd]
    · split
      · decide
      · split <;> decide
    · split <;> simp

theorem clean_posts {f : Fmt} (hg : NumbersNoTags f) : ∀ (t : List Posting) {last : Int} {l : List Piece}, htmlPosts f last t = some l →
    (∀ p ∈ t, 60 ∉ p.acctterm) → (∀ p ∈ t, 60 ∉ p.ccy) → ∀ x ∈ l, CleanPiece x := by
  intro t
  induction t with
  | nil => intro last l h _ _ x hx; cases h; cases hx
  | cons p t ih =>
    intro last l h h1 h2 x hx
    simp only [htmlPosts, Option.bind_eq_some_iff, Option.map_eq_some_iff] at h
    obtain ⟨a, ha, b, hb, rfl⟩ := h
    rcases List.mem_append.1 hx with hx | hx
    · exact clean_post hg ha (h1 p (by simp)) (h2 p (by simp)) x hx
    · exact ih hb (fun q hq => h1 q (List.mem_cons_of_mem _ hq)) (fun q hq => h2 q (List.mem_cons_of_mem _ hq)) x hx

theorem clean_txns {f : Fmt} (hg : NumbersNoTags f) : ∀ (ts : List Txn) {l : List Piece}, htmlTxns f ts = some l →
    (∀ t ∈ ts, NoTags t) → ∀ x ∈ l, CleanPiece x := by
  intro ts
  induction ts with
  | nil => intro l h _ x hx; cases h; cases hx
  | cons t ts ih =>
    intro l h hn x hx
    simp only [htmlTxns, Option.bind_eq_some_iff, Option.map_eq_some_iff] at h
    obtain ⟨a, ha, b, hb, rfl⟩ := h
    rcases List.mem_append.1 hx with hx | hx
    · have hn := hn t (by simp)
      cases t with
      | nil => cases ha
      | cons p t =>
        simp only [htmlTxn, Option.map_eq_some_iff] at ha
        obtain ⟨posts, hp, rfl⟩ := ha
        have hd := dateString_clean p.date
        have hpy := hn.payee p (by simp)
        simp only [List.mem_append] at hx
        rcases hx with (((hx | hx) | hx) | hx) | hx
        · simp only [List.mem_cons, List.not_mem_nil, or_false] at hx
          rcases hx with rfl | rfl | rfl | rfl | rfl | rfl | rfl | rfl | rfl <;> simp [CleanPiece, hd]
        · split at hx
          · cases hx
          · simp only [List.mem_cons, List.not_mem_nil, or_false] at hx
            rcases hx with rfl | rfl | rfl | rfl | rfl <;> simp [CleanPiece, hpy]
        · simp only [List.mem_cons, List.not_mem_nil, or_false] at hx
          rcases hx with rfl | rfl | rfl | rfl <;> simp [CleanPiece]
        · exact clean_posts hg _ hp hn.term hn.ccy x hx
        · simp only [List.mem_cons, List.not_mem_nil, or_false] at hx
          rcases hx with rfl | rfl | rfl | rfl <;> simp [CleanPiece]
    · exact ih hb (fun t ht => hn t (List.mem_cons_of_mem _ ht)) x hx

/-- **C79** (partial: texts without `<`).  Reading the HTML report shows, after the style sheet, for every transaction in order its date, its
payee if any, and for every posting in order its account label and its currency and amount - and nothing else. -/
theorem c79_shown_partial (f : Fmt) (hg : NumbersNoTags f) (css : Str) (ts : List Txn) (l : List Piece) (hcss : 60 ∉ css)
    (hne : ts ≠ [])
    (hn : ∀ t ∈ ts, NoTags t) (hl : ∀ t ∈ ts, ∀ p ∈ t, 0 ≤ p.acctlevel) (h : showHTML f css ts = some l) :
    htmlLeaves (render l) = some ((b!"style", [10] ++ css ++ [10]) :: ts.flatMap (txnLeaves f)) := by
  simp only [showHTML, Option.map_eq_some_iff] at h
  obtain ⟨body, hb, rfl⟩ := h
  obtain ⟨s1, s2⟩ := scan_txns ts hl hb
  have hc := clean_txns hg ts hb hn
  have hbody : ∀ cur, scanOut cur body = ts.flatMap (txnLeaves f) ∧ scanState cur body = none := by
    intro cur
    obtain ⟨t, ts', rfl⟩ := List.exists_cons_of_ne_nil hne
    simp only [htmlTxns, Option.bind_eq_some_iff, Option.map_eq_some_iff] at hb
    obtain ⟨a, ha, b, hb, rfl⟩ := hb
    obtain ⟨p1, p2⟩ := scan_txn (hl t (by simp)) ha cur
    obtain ⟨t1, t2⟩ := scan_txns ts' (fun t ht => hl t (List.mem_cons_of_mem _ ht)) hb
    rw [scanOut_append, scanState_append, p1, p2, t1, t2]
    exact ⟨by simp, rfl⟩
  have e : render ([Piece.text (b!"<html><head><style>\n" ++ css ++ b!"\n</style></head><body>\n"), .opn b!"reports", .text [10]] ++
      body ++ [.cls, .text [10], .text b!"</body></html>\n"]) =
      60 :: (b!"html" ++ 62 :: (60 :: (b!"head" ++ 62 :: (60 :: (b!"style" ++ 62 :: ([10] ++ css ++ [10] ++
        (60 :: (b!"/style" ++ 62 :: (60 :: (b!"/head" ++ 62 :: (60 :: (b!"body" ++ 62 :: ([10] ++
          (render (Piece.opn b!"reports" :: .text [10] :: body ++ [.cls, .text [10]]) ++ (60 :: (b!"/body" ++ 62 :: (60 :: (b!"/html" ++ 62 :: [10])))))))))))))))))) := by
    simp [render, Piece.bytes]
  have hcl : 60 ∉ ([10] ++ css ++ [10] : Str) := by simp [hcss]
  unfold htmlLeaves
  rw [e, read_open _ (by decide) (by decide), read_open _ (by decide) (by decide), read_open _ (by decide) (by decide),
    read_clean_text _ hcl, read_close _ (by decide) (by decide), read_close _ (by decide) (by decide), read_open _ (by decide) (by decide),
    read_clean_text _ (by decide), read_pieces]
  · rw [scanOut_append, scanState_append]
    simp only [scanState, scanOut, hbody, Option.map_none, Option.toList_none, List.append_nil, List.nil_append, Option.map_some, Option.toList_some]
    rw [read_close _ (by decide) (by decide), read_close _ (by decide) (by decide)]
    simp [readLeaves]
  · intro x hx
    rcases List.mem_append.1 hx with hx | hx
    · rcases List.mem_cons.1 hx with rfl | hx
      · simp [CleanPiece]
      · rcases List.mem_cons.1 hx with rfl | hx
        · simp [CleanPiece]
        · exact hc x hx
    · simp only [List.mem_cons, List.not_mem_nil, or_false] at hx
      rcases hx with rfl | rfl <;> simp [CleanPiece]

/-! ## C64 on the text of the page -/

theorem divs_text (s : Str) (h : 60 ∉ s) : ∀ d rest, readDivs d none (s ++ rest) = readDivs d none rest := by
  induction s with
  | nil => intro d rest; rfl
  | cons c s ih =>
    intro d rest
    simp only [List.mem_cons, not_or] at h
    rw [List.cons_append, readDivs, if_neg (Ne.symm h.1), ih h.2]

theorem divs_tag (t : Str) (h : 62 ∉ t) : ∀ d a rest,
    readDivs d (some a) (t ++ 62 :: rest) = (tagDepth (a ++ t) d).bind fun d => readDivs d none rest := by
  induction t with
  | nil => intro d a rest; rw [List.nil_append, readDivs, if_pos rfl, List.append_nil]
  | cons c t ih =>
    intro d a rest
    simp only [List.mem_cons, not_or] at h
    rw [List.cons_append, readDivs, if_neg (Ne.symm h.1), ih h.2]
    simp

theorem divs_whole (t : Str) (h : 62 ∉ t) (d : Nat) (rest : Str) :
    readDivs d none (60 :: (t ++ 62 :: rest)) = (tagDepth t d).bind fun d => readDivs d none rest := by
  rw [readDivs, if_pos rfl, divs_tag t h, List.nil_append]

theorem divs_pieces (l : List Piece) (h : ∀ x ∈ l, CleanPiece x) : ∀ d rest,
    readDivs d none (render l ++ rest) = (openDivs d l).bind fun d => readDivs d none rest := by
  induction l with
  | nil => intro d rest; simp [render, openDivs]
  | cons x l ih =>
    intro d rest
    have ih := ih fun y hy => h y (List.mem_cons_of_mem _ hy)
    have hx := h x (by simp)
    have e : render (x :: l) ++ rest = x.bytes ++ (render l ++ rest) := by simp [render]
    rw [e]
    cases x with
    | text s =>
      show readDivs d none (s ++ _) = _
      rw [divs_text s hx, ih]; rfl
    | opn c =>
      have e2 : (Piece.opn c).bytes ++ (render l ++ rest) = 60 :: (divTag c ++ 62 :: (render l ++ rest)) := by
        simp [Piece.bytes, divTag]
      have hn : 62 ∉ divTag c := by
        unfold divTag
        intro hm
        simp only [List.mem_append, List.mem_singleton] at hm
        rcases hm with (hm | hm) | hm
        · revert hm; decide
        · exact hx hm
        · revert hm; decide
      have ht : tagDepth (divTag c) d = some (d + 1) := by
        unfold tagDepth divTag
        rw [if_neg (by simp), if_pos (by simp)]
      rw [e2, divs_whole _ hn, ht, Option.bind_some, ih]
      rfl
    | cls =>
      have e2 : Piece.cls.bytes ++ (render l ++ rest) = 60 :: (b!"/div" ++ 62 :: (render l ++ rest)) := by
        simp [Piece.bytes]
      rw [e2, divs_whole _ (by decide)]
      cases d with
      | zero => simp [tagDepth, openDivs]
      | succ d =>
        have ht : tagDepth b!"/div" (d + 1) = some d := by simp [tagDepth]
        rw [ht, Option.bind_some, ih]; rfl

/-- **C64** (partial: as many `div` elements are left open as the last rows of the transactions are indented), on the text of the page: reading it
tag by tag, no `div` is closed that is not open, and the number left open is the sum of the indents of the transactions' last rows. -/
theorem c64_page_partial (f : Fmt) (hg : NumbersNoTags f) (css : Str) (ts : List Txn) (l : List Piece) (hcss : 60 ∉ css)
    (hn : ∀ t ∈ ts, NoTags t) (hl : ∀ t ∈ ts, ∀ p ∈ t, 0 ≤ p.acctlevel) (h : showHTML f css ts = some l) :
    leftOpen (render l) = some (ts.map fun t => (t.getLast?.elim 0 fun p => p.acctlevel.toNat)).sum := by
  have hd := c64_open_at_end_partial f css ts l hl h
  simp only [showHTML, Option.map_eq_some_iff] at h
  obtain ⟨body, hb, rfl⟩ := h
  have hc := clean_txns hg ts hb hn
  have e : render ([Piece.text (b!"<html><head><style>\n" ++ css ++ b!"\n</style></head><body>\n"), .opn b!"reports", .text [10]] ++
      body ++ [.cls, .text [10], .text b!"</body></html>\n"]) =
      60 :: (b!"html" ++ 62 :: (60 :: (b!"head" ++ 62 :: (60 :: (b!"style" ++ 62 :: ([10] ++ css ++ [10] ++
        (60 :: (b!"/style" ++ 62 :: (60 :: (b!"/head" ++ 62 :: (60 :: (b!"body" ++ 62 :: ([10] ++
          (render (Piece.opn b!"reports" :: .text [10] :: body ++ [.cls, .text [10]]) ++ (60 :: (b!"/body" ++ 62 :: (60 :: (b!"/html" ++ 62 :: [10])))))))))))))))))) := by
    simp [render, Piece.bytes]
  have hcl : 60 ∉ ([10] ++ css ++ [10] : Str) := by simp [hcss]
  have hod : openDivs 0 (Piece.opn b!"reports" :: .text [10] :: body ++ [.cls, .text [10]]) = some (ts.map lastLevel).sum := by
    rw [← hd]
    have tl : ∀ (d : Nat) (x : Str), openDivs d [.cls, .text [10]] = openDivs d [.cls, .text [10], .text x] := by
      intro d x; cases d <;> rfl
    simp only [openDivs, List.cons_append, List.nil_append, openDivs_append]
    congr 1
    funext d
    exact tl d _
  unfold leftOpen
  rw [e, divs_whole _ (by decide), show tagDepth b!"html" 0 = some 0 from rfl, Option.bind_some, divs_whole _ (by decide),
    show tagDepth b!"head" 0 = some 0 from rfl, Option.bind_some, divs_whole _ (by decide), show tagDepth b!"style" 0 = some 0 from rfl, Option.bind_some,
    divs_text _ hcl, divs_whole _ (by decide), show tagDepth b!"/style" 0 = some 0 from rfl, Option.bind_some, divs_whole _ (by decide),
    show tagDepth b!"/head" 0 = some 0 from rfl, Option.bind_some, divs_whole _ (by decide), show tagDepth b!"body" 0 = some 0 from rfl, Option.bind_some,
    divs_text _ (by decide), divs_pieces, hod, Option.bind_some, divs_whole _ (by decide)]
  · have h1 : ∀ n, tagDepth b!"/body" n = some n := fun n => by simp [tagDepth]
    have h2 : ∀ n, tagDepth b!"/html" n = some n := fun n => by simp [tagDepth]
    rw [h1, Option.bind_some, divs_whole _ (by decide), h2, Option.bind_some]
    show readDivs _ none [10] = _
    rw [readDivs, if_neg (by decide), readDivs]
    congr 2
  · intro x hx
    rcases List.mem_append.1 hx with hx | hx
    · rcases List.mem_cons.1 hx with rfl | hx
      · simp [CleanPiece]
      · rcases List.mem_cons.1 hx with rfl | hx
        · simp [CleanPiece]
        · exact hc x hx
    · simp only [List.mem_cons, List.not_mem_nil, or_false] at hx
      rcases hx with rfl | rfl <;> simp [CleanPiece]

/-- Non-vacuity: the demo book. -/
example : NumbersNoTags htmlFmt ∧ demoBook.transactions insSort ≠ [] ∧ (∀ t ∈ demoBook.transactions insSort, NoTags t) ∧
    (∀ t ∈ demoBook.transactions insSort, ∀ p ∈ t, 0 ≤ p.acctlevel) ∧ (showHTML htmlFmt [] (demoBook.transactions insSort)).isSome = true := by
  refine ⟨⟨fun n => natDec_no _ _ (by decide), by decide⟩, by decide +kernel, ?_, by decide +kernel, by decide +kernel⟩
  intro t ht
  have h : ∀ t ∈ demoBook.transactions insSort, ∀ p ∈ t, 60 ∉ p.payee ∧ 60 ∉ p.acctterm ∧ 60 ∉ p.ccy := by decide +kernel
  exact ⟨fun p hp => (h t ht p hp).1, fun p hp => (h t ht p hp).2.1, fun p hp => (h t ht p hp).2.2⟩

/-- A payee as a bank might send it. -/
def taggedCalls : List Call :=
  [.newTransaction 20200131 b!"Love <3 Bikes" [], .addPosting b!"Exp" b!"EUR" 1 [], .addPosting b!"Cash" b!"EUR" (-1) []]

/-- C79 is false of the code: texts are not escaped, and what follows a `<` is taken for a tag. -/
theorem c79_escape_fails : ¬ ∀ (cs : List Call) (b : Book), Built insSort cs b → b.transactions insSort ≠ [] → ∀ l,
    showHTML htmlFmt [] (b.transactions insSort) = some l →
      htmlLeaves (render l) = some ((b!"style", [10, 10]) :: (b.transactions insSort).flatMap (txnLeaves htmlFmt)) := by
  intro h
  have h1 := h _ _ (bookOf_built (cs := taggedCalls) (by decide +kernel)) (by decide +kernel)
  obtain ⟨l, hl⟩ := Option.isSome_iff_exists.1 (by decide +kernel : (showHTML htmlFmt [] ((bookOf taggedCalls).transactions insSort)).isSome = true)
  have h2 := h1 l hl
  have h3 : ((showHTML htmlFmt [] ((bookOf taggedCalls).transactions insSort)).bind fun l => htmlLeaves (render l)) =
    some ((b!"style", [10, 10]) :: ((bookOf taggedCalls).transactions insSort).flatMap (txnLeaves htmlFmt)) := by
    rw [hl, ← h2]; rfl
  revert h3
  decide +kernel

end Verif
