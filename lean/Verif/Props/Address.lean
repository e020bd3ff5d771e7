import Verif.Spec.Address

/-! # C154: what the banks are asked -/

namespace Verif
open Spec

theorem bytes_of {s : Str} (h : s.all (fun c => decide (c < 256)) = true) : Bytes s := by
  intro c hc
  simpa using List.all_eq_true.1 h c hc

theorem takeWhile_all {p : Nat → Bool} {l : Str} (h : ∀ c ∈ l, p c = true) : l.takeWhile p = l := by
  have := List.takeWhile_append_of_pos (l₂ := []) h
  simpa using this

theorem pieces_none {sep : Nat} {a : Str} (h : sep ∉ a) : pieces sep a = [a] := by
  induction a with
  | nil => rfl
  | cons c s ih =>
    simp only [List.mem_cons, not_or] at h
    rw [pieces, if_neg (Ne.symm h.1), ih h.2]

theorem pieces_cut {sep : Nat} {a : Str} (h : sep ∉ a) (r : Str) : pieces sep (a ++ sep :: r) = a :: pieces sep r := by
  induction a with
  | nil => simp [pieces]
  | cons c s ih =>
    simp only [List.mem_cons, not_or] at h
    rw [List.cons_append, pieces, if_neg (Ne.symm h.1), ih h.2]

theorem pieces_joined {sep : Nat} (l : List Str) (hl : l ≠ []) (h : ∀ a ∈ l, sep ∉ a) : pieces sep (List.intercalate [sep] l) = l := by
  induction l with
  | nil => exact absurd rfl hl
  | cons a l ih =>
    cases l with
    | nil => simpa [List.intercalate] using pieces_none (h a (by simp))
    | cons b l =>
      have : List.intercalate [sep] (a :: b :: l) = a ++ sep :: List.intercalate [sep] (b :: l) := by simp [List.intercalate]
      rw [this, pieces_cut (h a (by simp)), ih (by simp) (fun x hx => h x (by simp [hx]))]

theorem hexDigit_upper {n : Nat} (h : n < 16) : hexDigit (upperHex n) = some n := by
  revert n; decide

theorem upperHex_range {n : Nat} (h : n < 16) : (48 ≤ upperHex n ∧ upperHex n ≤ 57) ∨ (65 ≤ upperHex n ∧ upperHex n ≤ 70) := by
  revert n; decide

/-- Read what was escaped. -/
theorem read_escape {s : Str} (h : Bytes s) : readBytes true (queryEscape s) = some s := by
  induction s with
  | nil => rfl
  | cons c s ih =>
    have hc := h c (by simp)
    have ih := ih fun x hx => h x (by simp [hx])
    unfold queryEscape
    split
    · next h32 =>
      subst h32
      rw [readBytes]
      · simp [ih]
      · intro a b s' h1; simp at h1
    · split
      · next hk =>
        have hk' : c ≠ 37 ∧ c ≠ 43 := by
          constructor <;> (rintro rfl; revert hk; decide)
        rw [readBytes]
        · simp [ih, hk'.1, hk'.2]
        · intro a b s' h1; exact absurd h1 hk'.1
      · rw [readBytes, hexDigit_upper (by omega), hexDigit_upper (by omega), ih]
        simp only [Option.map_some]
        rw [Nat.div_add_mod]

/-- What is escaped has no byte that means something. -/
theorem escape_clean {s : Str} (h : Bytes s) : ∀ c ∈ queryEscape s, c ≠ 35 ∧ c ≠ 38 ∧ c ≠ 47 ∧ c ≠ 61 ∧ c ≠ 63 := by
  induction s with
  | nil => intro c hc; simp [queryEscape] at hc
  | cons x s ih =>
    have hx := h x (by simp)
    have ih := ih fun y hy => h y (by simp [hy])
    unfold queryEscape
    split
    · intro c hc
      rcases List.mem_cons.1 hc with rfl | hc
      · decide
      · exact ih c hc
    · split
      · next hk =>
        intro c hc
        rcases List.mem_cons.1 hc with rfl | hc
        · refine ⟨?_, ?_, ?_, ?_, ?_⟩ <;> (rintro rfl; revert hk; decide)
        · exact ih c hc
      · intro c hc
        rcases List.mem_cons.1 hc with rfl | hc
        · decide
        · rcases List.mem_cons.1 hc with rfl | hc
          · have := upperHex_range (n := x / 16) (by omega)
            omega
          · rcases List.mem_cons.1 hc with rfl | hc
            · have := upperHex_range (n := x % 16) (by omega)
              omega
            · exact ih c hc

theorem takeWhile_keep {p : Nat → Bool} {a : Str} (h : ∀ c ∈ a, p c = true) (r : Str) : (a ++ r).takeWhile p = a ++ r.takeWhile p := by
  rw [List.takeWhile_append_of_pos h]

/-- `name=value` without `=` in the name. -/
theorem read_pair {n v : Str} (hn : 61 ∉ n) : readPair (n ++ b!"=" ++ v) =
    match readBytes true n, readBytes true v with
    | some n, some v => some (n, v)
    | _, _ => none := by
  unfold readPair
  rw [List.append_assoc, List.takeWhile_append_of_pos (by intro c hc; simp; rintro rfl; exact hn hc),
    List.dropWhile_append_of_pos (by intro c hc; simp; rintro rfl; exact hn hc)]
  simp
  rfl

theorem read_plain (q : Bool) {s : Str} (h : ∀ c ∈ s, c ≠ 37 ∧ c ≠ 43) : readBytes q s = some s := by
  induction s with
  | nil => rfl
  | cons c s ih =>
    have hc := h c (by simp)
    rw [readBytes]
    · simp [ih fun x hx => h x (by simp [hx]), hc.1, hc.2]
    · intro a b s' h1; exact absurd h1 hc.1

theorem readEach_map {α β : Type} (f : α → Option β) (g : β → α) (l : List β) (h : ∀ x ∈ l, f (g x) = some x) : readEach f (l.map g) = some l := by
  induction l with
  | nil => rfl
  | cons x l ih => simp [readEach, h x (by simp), ih fun y hy => h y (by simp [hy])]

theorem insertValue_mem (x y : Str × Str) (l : List (Str × Str)) : y ∈ insertValue x l ↔ y = x ∨ y ∈ l := by
  induction l with
  | nil => simp [insertValue]
  | cons z l ih => unfold insertValue; split <;> simp [ih]; tauto

theorem sortedValues_mem (y : Str × Str) (l : List (Str × Str)) : y ∈ l.foldr insertValue [] ↔ y ∈ l := by
  induction l with
  | nil => simp
  | cons x l ih => simp [insertValue_mem, ih]

/-- What is encoded is read as it was, in the order of the keys. -/
theorem read_values {l : List (Str × Str)} (hl : l ≠ []) (h : ∀ x ∈ l, Bytes x.1 ∧ Bytes x.2) :
    readForm (encodeValues l) = some (l.foldr insertValue []) := by
  have hs : ∀ x ∈ l.foldr insertValue [], Bytes x.1 ∧ Bytes x.2 := fun x hx => h x ((sortedValues_mem x l).1 hx)
  have hne : l.foldr insertValue [] ≠ [] := by
    obtain ⟨x, l', rfl⟩ := List.exists_cons_of_ne_nil hl
    exact List.ne_nil_of_mem ((sortedValues_mem x _).2 (by simp))
  unfold readForm encodeValues
  generalize l.foldr insertValue [] = s at *
  rw [show b!"&" = [38] from rfl, pieces_joined _ (by simpa using hne)]
  · rw [List.filter_eq_self.2 (by
      intro a ha
      obtain ⟨x, _, rfl⟩ := List.mem_map.1 ha
      simp)]
    refine readEach_map readPair _ s fun x hx => ?_
    rw [read_pair (fun hm => (escape_clean (hs x hx).1 61 hm).2.2.2.1 rfl), read_escape (hs x hx).1, read_escape (hs x hx).2]
  · intro a ha hm
    obtain ⟨x, hx, rfl⟩ := List.mem_map.1 ha
    simp only [List.mem_append, List.mem_singleton] at hm
    rcases hm with (hm | hm) | hm
    · exact (escape_clean (hs x hx).1 38 hm).2.1 rfl
    · exact absurd hm (by decide)
    · exact (escape_clean (hs x hx).2 38 hm).2.1 rfl

/-- And has no `#`. -/
theorem values_clean {l : List (Str × Str)} (h : ∀ x ∈ l, Bytes x.1 ∧ Bytes x.2) : 35 ∉ encodeValues l := by
  have hs : ∀ x ∈ l.foldr insertValue [], Bytes x.1 ∧ Bytes x.2 := fun x hx => h x ((sortedValues_mem x l).1 hx)
  unfold encodeValues
  generalize l.foldr insertValue [] = s at *
  have : ∀ a ∈ s.map (fun x => queryEscape x.1 ++ b!"=" ++ queryEscape x.2), 35 ∉ a := by
    intro a ha hm
    obtain ⟨x, hx, rfl⟩ := List.mem_map.1 ha
    simp only [List.mem_append, List.mem_singleton] at hm
    rcases hm with (hm | hm) | hm
    · exact (escape_clean (hs x hx).1 35 hm).1 rfl
    · exact absurd hm (by decide)
    · exact (escape_clean (hs x hx).2 35 hm).1 rfl
  revert this
  generalize s.map (fun x => queryEscape x.1 ++ b!"=" ++ queryEscape x.2) = t
  intro ht
  induction t with
  | nil => simp [List.intercalate]
  | cons a t ih =>
    cases t with
    | nil => simpa [List.intercalate] using ht a (by simp)
    | cons b t =>
      have e : List.intercalate b!"&" (a :: b :: t) = a ++ 38 :: List.intercalate b!"&" (b :: t) := by simp [List.intercalate]
      rw [e]
      simp only [List.mem_append, List.mem_cons, not_or]
      exact ⟨ht a (by simp), by decide, ih fun x hx => ht x (by simp [hx])⟩

/-- An address of a path and a query. -/
theorem read_address {p q : Str} (hp : 35 ∉ p ∧ 63 ∉ p) (hq : 35 ∉ q) : readAddress (p ++ b!"?" ++ q) =
    match readEach (readBytes false) (pieces 47 p), readForm q with
    | some p, some q => some (p, q)
    | _, _ => none := by
  have h1 : (p ++ b!"?" ++ q).takeWhile (fun c => decide (c ≠ 35)) = p ++ b!"?" ++ q := by
    refine takeWhile_all ?_
    intro c hc
    simp only [List.mem_append, List.mem_singleton] at hc
    simp only [ne_eq, decide_not, Bool.not_eq_eq_eq_not, Bool.not_true, decide_eq_false_iff_not]
    rintro rfl
    rcases hc with (hc | hc) | hc
    · exact hp.1 hc
    · exact absurd hc (by decide)
    · exact hq hc
  unfold readAddress
  rw [h1, List.append_assoc, List.takeWhile_append_of_pos (by intro c hc; simp; rintro rfl; exact hp.2 hc),
    List.dropWhile_append_of_pos (by intro c hc; simp; rintro rfl; exact hp.2 hc)]
  simp
  rfl

/-- C154, Monzo: the request for transactions asks for the account and the time that the program means, a hundred transactions, with their merchants. -/
theorem c154_monzo (account since : Str) (ha : Bytes account) (hs : Bytes since) :
    readAddress (monzoAddress account since) = some ([b!"https:", b!"", b!"api.monzo.com", b!"transactions"],
      [(b!"account_id", account), (b!"expand[]", b!"merchant"), (b!"limit", b!"100"), (b!"since", since)]) := by
  have hb : ∀ x ∈ [(b!"since", since), (b!"limit", b!"100"), (b!"account_id", account), (b!"expand[]", b!"merchant")], Bytes x.1 ∧ Bytes x.2 := by
    intro x hx
    simp only [List.mem_cons, List.not_mem_nil, or_false] at hx
    rcases hx with rfl | rfl | rfl | rfl
    · exact ⟨(show Bytes b!"since" from bytes_of (by decide)),hs⟩
    · exact ⟨by unfold Bytes; decide,by unfold Bytes; decide⟩
    · exact ⟨(show Bytes b!"account_id" from bytes_of (by decide)),ha⟩
    · exact ⟨by unfold Bytes; decide,by unfold Bytes; decide⟩
  rw [show monzoAddress account since = b!"https://api.monzo.com/transactions" ++ b!"?" ++ encodeValues _ from rfl,
    read_address (by decide) (values_clean hb), read_values (by simp) hb]
  rfl

theorem natDecAux_bytes (f n : Nat) : Bytes (natDecAux f n) := by
  induction f generalizing n with
  | zero =>
    intro c hc
    simp only [natDecAux, List.mem_singleton] at hc
    omega
  | succ f ih =>
    intro c hc
    unfold natDecAux at hc
    split at hc
    · simp only [List.mem_singleton] at hc
      omega
    · rcases List.mem_append.1 hc with hc | hc
      · exact ih _ c hc
      · simp only [List.mem_singleton] at hc
        omega

theorem intDec_bytes (i : Int) : Bytes (intDec i) := by
  intro c hc
  unfold intDec at hc
  split at hc
  · rcases List.mem_cons.1 hc with rfl | hc
    · decide
    · exact natDecAux_bytes _ _ c hc
  · exact natDecAux_bytes _ _ c hc

/-- C154, the link to visit for a login: it asks for the client of the settings, and sends the browser back to the port the program listens on, with the
state of this run. -/
theorem c154_login (clientID : Str) (port : Int) (state : Str) (hc : Bytes clientID) (hs : Bytes state) :
    readAddress (monzoLink clientID port state) = some ([b!"https:", b!"", b!"auth.monzo.com", b!""],
      [(b!"access_type", b!"offline"), (b!"client_id", clientID), (b!"redirect_uri", b!"http://localhost:" ++ intDec port ++ b!"/"),
        (b!"response_type", b!"code"), (b!"state", state)]) := by
  have hr : Bytes (monzoReturn port) := by
    intro c hcm
    simp only [monzoReturn, List.mem_append] at hcm
    rcases hcm with (hcm | hcm) | hcm
    · revert c; decide
    · exact intDec_bytes port c hcm
    · revert c; decide
  have hb : ∀ x ∈ [(b!"response_type", b!"code"), (b!"client_id", clientID), (b!"redirect_uri", monzoReturn port), (b!"state", state),
      (b!"access_type", b!"offline")], Bytes x.1 ∧ Bytes x.2 := by
    intro x hx
    simp only [List.mem_cons, List.not_mem_nil, or_false] at hx
    rcases hx with rfl | rfl | rfl | rfl | rfl
    · exact ⟨by unfold Bytes; decide,by unfold Bytes; decide⟩
    · exact ⟨(show Bytes b!"client_id" from bytes_of (by decide)),hc⟩
    · exact ⟨(show Bytes b!"redirect_uri" from bytes_of (by decide)),hr⟩
    · exact ⟨(show Bytes b!"state" from bytes_of (by decide)),hs⟩
    · exact ⟨by unfold Bytes; decide,by unfold Bytes; decide⟩
  rw [show monzoLink clientID port state = b!"https://auth.monzo.com/" ++ b!"?" ++ encodeValues _ from rfl,
    read_address (by decide) (values_clean hb), read_values (by simp) hb]
  rfl

/-- C154, Starling: the request for a feed asks for the account, the category and the time that the program means, if these have no byte that means
something in an address. -/
theorem c154_starling_partial (account category since : Str) (ha : PlainText account) (hc : PlainText category) (hs : PlainText since) :
    readAddress (starlingAddress account category since) =
      some ([b!"https:", b!"", b!"api.starlingbank.com", b!"api", b!"v2", b!"feed", b!"account", account, b!"category", category],
        [(b!"changesSince", since)]) := by
  have e : starlingAddress account category since =
      (b!"https://api.starlingbank.com/api/v2/feed/account/" ++ account ++ b!"/category/" ++ category) ++ b!"?" ++ (b!"changesSince" ++ b!"=" ++ since) := by
    simp [starlingAddress]
  have hp : pieces 47 (b!"https://api.starlingbank.com/api/v2/feed/account/" ++ account ++ b!"/category/" ++ category) =
      [b!"https:", b!"", b!"api.starlingbank.com", b!"api", b!"v2", b!"feed", b!"account", account, b!"category", category] := by
    have := pieces_joined (sep := 47)
      [b!"https:", b!"", b!"api.starlingbank.com", b!"api", b!"v2", b!"feed", b!"account", account, b!"category", category] (by simp) (by
        intro a h hm
        simp only [List.mem_cons, List.not_mem_nil, or_false] at h
        rcases h with rfl | rfl | rfl | rfl | rfl | rfl | rfl | rfl | rfl | rfl
        all_goals first
          | exact absurd hm (by decide)
          | exact (ha 47 hm).2.2.2.2.1 rfl
          | exact (hc 47 hm).2.2.2.2.1 rfl)
    rw [← this]
    congr 1
    simp [List.intercalate]
  have hq : readForm (b!"changesSince" ++ b!"=" ++ since) = some [(b!"changesSince", since)] := by
    unfold readForm
    rw [pieces_none (by
      intro hm
      simp only [List.mem_append, List.mem_singleton] at hm
      rcases hm with (hm | hm) | hm
      · exact absurd hm (by decide)
      · exact absurd hm (by decide)
      · exact (hs 38 hm).2.2.1 rfl), List.filter_eq_self.2 (by simp)]
    simp only [readEach]
    rw [read_pair (by decide), read_plain true (s := since) fun c h => ⟨(hs c h).2.1, (hs c h).2.2.2.1⟩,
      read_plain true (s := b!"changesSince") (by decide)]
  rw [e, read_address ?_ ?_, hp, hq]
  · simp only [readEach]
    rw [read_plain false (s := account) fun c h => ⟨(ha c h).2.1, (ha c h).2.2.2.1⟩,
      read_plain false (s := category) fun c h => ⟨(hc c h).2.1, (hc c h).2.2.2.1⟩]
    rfl
  · simp only [List.mem_append, not_or]
    exact ⟨⟨⟨⟨by decide, fun h => (ha _ h).1 rfl⟩, by decide⟩, fun h => (hc _ h).1 rfl⟩,
      ⟨⟨⟨by decide, fun h => (ha _ h).2.2.2.2.2.2 rfl⟩, by decide⟩, fun h => (hc _ h).2.2.2.2.2.2 rfl⟩⟩
  · simp only [List.mem_append, not_or]
    exact ⟨⟨by decide, by decide⟩, fun h => (hs _ h).1 rfl⟩

/-- C154, the hypotheses: a uid and a time in Coordinated Universal Time, as the bank writes them. -/
example : PlainText b!"6a17b7e5-0f3c-4b0e-9d3a-7ef1b6a1d2c3" ∧ PlainText b!"2020-01-01T00:00:00Z" ∧ PlainText b!"GB" := by
  unfold PlainText; decide

/-- C154 is false of the code: a time with an offset ahead of Greenwich has a `+`, which is not escaped and so read as a blank. -/
theorem c154_starling_fails : ∃ account category since : Str, Bytes account ∧ Bytes category ∧ Bytes since ∧ ∃ p,
    readAddress (starlingAddress account category since) = some (p, [(b!"changesSince", b!"2020-06-01T00:00:00 01:00")]) ∧
      since = b!"2020-06-01T00:00:00+01:00" := by
  refine ⟨b!"a", b!"c", b!"2020-06-01T00:00:00+01:00", bytes_of (by decide), bytes_of (by decide), bytes_of (by decide),
    [b!"https:", b!"", b!"api.starlingbank.com", b!"api", b!"v2", b!"feed", b!"account", b!"a", b!"category", b!"c"], by decide +kernel, rfl⟩

/-- C154, Nordigen: the request for the institutions asks for those of the country given, which take payments, if it has no byte that means something in an
address. -/
theorem c154_nordigen_partial (country : Str) (h : PlainText country) :
    readAddress (nordigenAddress country) = some ([b!"https:", b!"", b!"ob.nordigen.com", b!"api", b!"v2", b!"institutions"],
      [(b!"payments_enabled", b!"true"), (b!"country", country)]) := by
  have e : nordigenAddress country = b!"https://ob.nordigen.com/api/v2/institutions" ++ b!"?" ++
      (b!"payments_enabled=true" ++ 38 :: (b!"country" ++ b!"=" ++ country)) := by
    simp [nordigenAddress]
  have hq : readForm (b!"payments_enabled=true" ++ 38 :: (b!"country" ++ b!"=" ++ country)) =
      some [(b!"payments_enabled", b!"true"), (b!"country", country)] := by
    unfold readForm
    rw [pieces_cut (by decide), pieces_none (sep := 38) (by
      simp only [List.mem_append, not_or]
      exact ⟨⟨by decide, by decide⟩, fun hm => (h _ hm).2.2.1 rfl⟩), List.filter_eq_self.2 (by simp)]
    simp only [readEach]
    rw [read_pair (by decide), read_plain true (s := country) fun c hc => ⟨(h c hc).2.1, (h c hc).2.2.2.1⟩,
      read_plain true (s := b!"country") (by decide)]
    rfl
  rw [e, read_address (by decide) (by
    simp only [List.mem_append, List.mem_cons, not_or]
    exact ⟨by decide, by decide, ⟨by decide, by decide⟩, fun hm => (h _ hm).1 rfl⟩), hq]
  rfl

/-- C154 is false of the code: a country with an `&` asks for something else too, and not for this country. -/
theorem c154_nordigen_fails : ∃ country : Str, Bytes country ∧
    (readAddress (nordigenAddress country)).map (fun a => a.2) ≠ some [(b!"payments_enabled", b!"true"), (b!"country", country)] ∧
      (readAddress (nordigenAddress country)).map (fun a => a.2) =
        some [(b!"payments_enabled", b!"true"), (b!"country", b!"GB"), (b!"payments_enabled", b!"false")] :=
  ⟨b!"GB&payments_enabled=false", bytes_of (by decide), by decide +kernel, by decide +kernel⟩

/-- C154, the forms posted to Nordigen: the client ID and secret of the settings for a token, the token kept for a new one, and the institution chosen for a
requisition; for all texts. -/
theorem c154_forms (clientID clientSecret refresh institution : Str) (h1 : Bytes clientID) (h2 : Bytes clientSecret) (h3 : Bytes refresh)
    (h4 : Bytes institution) :
    readForm (nordigenNewForm clientID clientSecret) = some [(b!"secret_id", clientID), (b!"secret_key", clientSecret)] ∧
    readForm (nordigenRefreshForm refresh) = some [(b!"refresh", refresh)] ∧
    readForm (nordigenRequisitionForm institution) = some [(b!"institution_id", institution), (b!"redirect", b!"http://localhost:8080/")] := by
  refine ⟨?_, ?_, ?_⟩
  · unfold nordigenNewForm
    rw [read_values (by simp) (by
      intro x hx
      simp only [List.mem_cons, List.not_mem_nil, or_false] at hx
      rcases hx with rfl | rfl
      · exact ⟨show Bytes b!"secret_id" from bytes_of (by decide), h1⟩
      · exact ⟨show Bytes b!"secret_key" from bytes_of (by decide), h2⟩)]
    rfl
  · unfold nordigenRefreshForm
    rw [read_values (by simp) (by
      intro x hx
      simp only [List.mem_cons, List.not_mem_nil, or_false] at hx
      subst hx
      exact ⟨show Bytes b!"refresh" from bytes_of (by decide), h3⟩)]
    rfl
  · unfold nordigenRequisitionForm
    rw [read_values (by simp) (by
      intro x hx
      simp only [List.mem_cons, List.not_mem_nil, or_false] at hx
      rcases hx with rfl | rfl
      · exact ⟨show Bytes b!"redirect" from bytes_of (by decide), show Bytes b!"http://localhost:8080/" from bytes_of (by decide)⟩
      · exact ⟨show Bytes b!"institution_id" from bytes_of (by decide), h4⟩)]
    rfl

/-- An address without a query. -/
theorem read_path {s : Str} (h1 : 35 ∉ s) (h2 : 63 ∉ s) : readAddress s = (readEach (readBytes false) (pieces 47 s)).map fun p => (p, []) := by
  have e1 : s.takeWhile (fun c => decide (c ≠ 35)) = s := takeWhile_all (by intro c hc; simp; rintro rfl; exact h1 hc)
  have e2 : s.takeWhile (fun c => decide (c ≠ 63)) = s := takeWhile_all (by intro c hc; simp; rintro rfl; exact h2 hc)
  have e3 : s.dropWhile (fun c => decide (c ≠ 63)) = [] := by
    rw [← List.append_nil s, List.dropWhile_append_of_pos (by intro c hc; simp; rintro rfl; exact h2 hc)]
    rfl
  unfold readAddress
  rw [e1, e2, e3]
  have : readForm ([] : Str).tail = some [] := by decide
  rw [this]
  cases readEach (readBytes false) (pieces 47 s) <;> rfl

/-- One id between two parts of a path. -/
theorem read_id {a b id : Str} (A B : List Str) (hid : PlainText id) (ha : ∀ c ∈ a, c ≠ 35 ∧ c ≠ 37 ∧ c ≠ 63) (hb : ∀ c ∈ b, c ≠ 35 ∧ c ≠ 37 ∧ c ≠ 63)
    (hA : ∀ r, pieces 47 (a ++ r) = A ++ pieces 47 r) (hB : pieces 47 b = B) (hAp : readEach (readBytes false) A = some A)
    (hBp : readEach (readBytes false) B = some B) : readAddress (a ++ id ++ 47 :: b) = some (A ++ id :: B, []) := by
  have app : ∀ l r : List Str, readEach (readBytes false) l = some l → readEach (readBytes false) r = some r →
      readEach (readBytes false) (l ++ r) = some (l ++ r) := by
    intro l r hl hr
    induction l with
    | nil => exact hr
    | cons x l ih =>
      simp only [readEach] at hl
      split at hl
      · next y z h1 h2 =>
        simp only [Option.some.injEq, List.cons.injEq] at hl
        obtain ⟨rfl, rfl⟩ := hl
        simp only [List.cons_append, readEach, h1, ih h2]
      · simp at hl
  rw [read_path, List.append_assoc, hA, pieces_cut (fun hm => (hid _ hm).2.2.2.2.1 rfl), hB, app _ _ hAp]
  · rfl
  · simp only [readEach]
    rw [read_plain false (s := id) fun c hc => ⟨(hid c hc).2.1, (hid c hc).2.2.2.1⟩, hBp]
  · simp only [List.mem_append, List.mem_cons, not_or]
    exact ⟨⟨fun h => (ha _ h).1 rfl, fun h => (hid _ h).1 rfl⟩, by decide, fun h => (hb _ h).1 rfl⟩
  · simp only [List.mem_append, List.mem_cons, not_or]
    exact ⟨⟨fun h => (ha _ h).2.2 rfl, fun h => (hid _ h).2.2.2.2.2.2 rfl⟩, by decide, fun h => (hb _ h).2.2 rfl⟩

/-- C154, the other requests of Nordigen and Starling: for the requisition, and for the account, whose id is meant. -/
theorem c154_ids_partial (id : Str) (h : PlainText id) :
    readAddress (nordigenRequisition id) = some ([b!"https:", b!"", b!"ob.nordigen.com", b!"api", b!"v2", b!"requisitions", id, b!""], []) ∧
    readAddress (nordigenBasic id) = some ([b!"https:", b!"", b!"ob.nordigen.com", b!"api", b!"v2", b!"accounts", id, b!""], []) ∧
    readAddress (nordigenDetails id) = some ([b!"https:", b!"", b!"ob.nordigen.com", b!"api", b!"v2", b!"accounts", id, b!"details"], []) ∧
    readAddress (nordigenTransactions id) = some ([b!"https:", b!"", b!"ob.nordigen.com", b!"api", b!"v2", b!"accounts", id, b!"transactions"], []) ∧
    readAddress (starlingIdentifiers id) =
      some ([b!"https:", b!"", b!"api.starlingbank.com", b!"api", b!"v2", b!"accounts", id, b!"identifiers"], []) ∧
    readAddress (starlingSpaces id) = some ([b!"https:", b!"", b!"api.starlingbank.com", b!"api", b!"v2", b!"account", id, b!"spaces"], []) := by
  refine ⟨?_, ?_, ?_, ?_, ?_, ?_⟩
  · exact read_id (a := b!"https://ob.nordigen.com/api/v2/requisitions/") (b := b!"")
      [b!"https:", b!"", b!"ob.nordigen.com", b!"api", b!"v2", b!"requisitions"] [b!""] h (by decide) (by decide) (fun _ => rfl) rfl rfl rfl
  · exact read_id (a := b!"https://ob.nordigen.com/api/v2/accounts/") (b := b!"")
      [b!"https:", b!"", b!"ob.nordigen.com", b!"api", b!"v2", b!"accounts"] [b!""] h (by decide) (by decide) (fun _ => rfl) rfl rfl rfl
  · exact read_id (a := b!"https://ob.nordigen.com/api/v2/accounts/") (b := b!"details")
      [b!"https:", b!"", b!"ob.nordigen.com", b!"api", b!"v2", b!"accounts"] [b!"details"] h (by decide) (by decide) (fun _ => rfl) rfl rfl rfl
  · exact read_id (a := b!"https://ob.nordigen.com/api/v2/accounts/") (b := b!"transactions")
      [b!"https:", b!"", b!"ob.nordigen.com", b!"api", b!"v2", b!"accounts"] [b!"transactions"] h (by decide) (by decide) (fun _ => rfl) rfl rfl rfl
  · exact read_id (a := b!"https://api.starlingbank.com/api/v2/accounts/") (b := b!"identifiers")
      [b!"https:", b!"", b!"api.starlingbank.com", b!"api", b!"v2", b!"accounts"] [b!"identifiers"] h (by decide) (by decide) (fun _ => rfl) rfl rfl rfl
  · exact read_id (a := b!"https://api.starlingbank.com/api/v2/account/") (b := b!"spaces")
      [b!"https:", b!"", b!"api.starlingbank.com", b!"api", b!"v2", b!"account"] [b!"spaces"] h (by decide) (by decide) (fun _ => rfl) rfl rfl rfl

/-- And it is false without the hypothesis: an id with a slash is another place. -/
theorem c154_ids_fails : ∃ id : Str, Bytes id ∧ (readAddress (nordigenBasic id)).map (fun a => a.1) =
    (readAddress (nordigenTransactions b!"a")).map fun a => a.1 ++ [b!""] :=
  ⟨b!"a/transactions", bytes_of (by decide), by decide +kernel⟩

end Verif
