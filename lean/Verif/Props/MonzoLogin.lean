import Verif.Model.MonzoLogin
import Verif.Spec.MonzoLogin

/-! # C115: the Monzo login lasts -/

namespace Verif
open Spec

/-- While the token is valid nothing changes. -/
theorem requests_valid (grant : Grant) (file bank tok : OToken) : ∀ (ts : List Int), (∀ t ∈ ts, t + 10 ≤ tok.expiry) →
    requests grant file bank tok ts = ⟨file, bank, ts.map fun t => (t, tok, bank), true⟩ := by
  intro ts
  induction ts with
  | nil => intro _; rfl
  | cons t ts ih =>
    intro h
    have h1 : tok.expired t = false := by
      have := h t (by simp)
      unfold OToken.expired
      rw [decide_eq_false_iff_not]
      omega
    unfold requests sourceToken
    simp only [h1, Bool.false_eq_true, if_false]
    rw [ih (fun t ht => h t (List.mem_cons_of_mem _ ht))]
    rfl

theorem requests_file (grant : Grant) (file : OToken) : ∀ (ts : List Int) (bank tok : OToken), (requests grant file bank tok ts).file = file := by
  intro ts
  induction ts with
  | nil => intro _ _; rfl
  | cons t ts ih =>
    intro bank tok
    unfold requests
    split
    · rfl
    · exact ih _ _

/-- A token that is renewed on the way: the bank has then granted a new one. -/
theorem requests_expired (grant : Grant) (file bank tok : OToken) (hr : tok.refresh = bank.refresh) {life span start : Int} (hg : Grants grant life) (hl : span + 10 ≤ life) : ∀ (ts : List Int),
    (∀ t ∈ ts, start ≤ t ∧ t ≤ start + span) → (∃ t ∈ ts, tok.expiry - 10 < t) →
    ∃ t ∈ ts, (requests grant file bank tok ts).bank = grant bank t ∧ Sent (requests grant file bank tok ts) ts.length ∧
      (tok = bank → ∀ x ∈ (requests grant file bank tok ts).used, x.2.1 = x.2.2) := by
  intro ts
  induction ts with
  | nil => rintro _ ⟨t, h, _⟩; cases h
  | cons t ts ih =>
    intro hw he
    by_cases h1 : tok.expiry - 10 < t
    · have h2 : tok.expired t = true := decide_eq_true h1
      have hv : ∀ t' ∈ ts, t' + 10 ≤ (grant bank t).expiry := by
        intro t' ht'
        have h3 := hg.lasts bank t
        have h4 := hw t' (List.mem_cons_of_mem _ ht')
        have h5 := hw t (by simp)
        omega
      refine ⟨t, by simp, ?_⟩
      unfold requests sourceToken bankRefresh
      simp only [h2, if_true, hr, Option.map_some]
      rw [requests_valid grant file _ _ ts hv]
      refine ⟨rfl, ⟨rfl, by simp, ?_⟩, ?_⟩
      · intro x hx
        have hw0 := hw t (by simp)
        have h3 := hg.lasts bank t
        rcases List.mem_cons.1 hx with rfl | hx
        · show t + 10 ≤ (grant bank t).expiry
          omega
        · obtain ⟨t', ht', rfl⟩ := List.mem_map.1 hx
          exact hv t' ht'
      · intro _ x hx
        rcases List.mem_cons.1 hx with rfl | hx
        · rfl
        · obtain ⟨t', ht', rfl⟩ := List.mem_map.1 hx
          rfl
    · have h2 : tok.expired t = false := decide_eq_false h1
      obtain ⟨t', ht', he'⟩ := he
      have ht2 : t' ∈ ts := by
        rcases List.mem_cons.1 ht' with rfl | h
        · exact absurd he' h1
        · exact h
      obtain ⟨u, hu, i1, ⟨i2, i3, i4⟩, i5⟩ := ih (fun t ht => hw t (List.mem_cons_of_mem _ ht)) ⟨t', ht2, he'⟩
      refine ⟨u, List.mem_cons_of_mem _ hu, ?_⟩
      unfold requests sourceToken
      simp only [h2, Bool.false_eq_true, if_false]
      refine ⟨i1, ⟨i2, by simp [i3], ?_⟩, ?_⟩
      · intro x hx
        rcases List.mem_cons.1 hx with rfl | hx
        · show t + 10 ≤ tok.expiry
          omega
        · exact i4 x hx
      · intro htb x hx
        rcases List.mem_cons.1 hx with rfl | hx
        · exact htb
        · exact i5 htb x hx

/-- **C115**, one run: with the bank's token in the state file, every request of a run goes out with a valid token. -/
theorem c115_served (grant : Grant) (life span : Int) (hg : Grants grant life) (hl : span + 10 ≤ life) (file bank : OToken) (hf : file = bank)
    (start : Int) (times : List Int) (hw : Within span start times) :
    Served (monzoRun grant file bank start times) times.length := by
  subst hf
  unfold monzoRun
  split
  · rename_i h
    have h2 : file.expired start = true := decide_eq_true (by omega)
    unfold sourceToken bankRefresh
    simp only [h2, if_true, Option.map_some]
    rw [if_pos (hg.fresh file start)]
    have hv : ∀ t ∈ times, t + 10 ≤ (grant file start).expiry := by
      intro t ht
      have h3 := hg.lasts file start
      have := hw t ht
      omega
    rw [requests_valid grant _ _ _ times hv]
    refine ⟨⟨rfl, by simp, ?_⟩, ?_⟩ <;> intro x hx <;> obtain ⟨t, ht, rfl⟩ := List.mem_map.1 hx
    · exact hv t ht
    · rfl
  · by_cases h : ∃ t ∈ times, file.expiry - 10 < t
    · obtain ⟨t, _, _, h2⟩ := requests_expired grant file file file rfl hg hl times hw h
      exact ⟨h2.1, h2.2 rfl⟩
    · have hv : ∀ t ∈ times, t + 10 ≤ file.expiry := by
        intro t ht
        by_contra hc
        exact h ⟨t, ht, by omega⟩
      rw [requests_valid grant _ _ _ times hv]
      refine ⟨⟨rfl, by simp, ?_⟩, ?_⟩ <;> intro x hx <;> obtain ⟨t, ht, rfl⟩ := List.mem_map.1 hx
      · exact hv t ht
      · rfl

/-- **C115**, one run: the state file has the bank's token afterwards, exactly unless the token expired during the run. -/
theorem c115_kept_iff (grant : Grant) (life span : Int) (hg : Grants grant life) (hr : Rotates grant) (hl : span + 10 ≤ life) (file bank : OToken)
    (hf : file = bank) (start : Int) (times : List Int) (hw : Within span start times) :
    ((monzoRun grant file bank start times).file = (monzoRun grant file bank start times).bank ↔ ¬ Overtaken file.expiry start times) ∧
    (Overtaken file.expiry start times →
      (monzoRun grant file bank start times).file.refresh ≠ (monzoRun grant file bank start times).bank.refresh) := by
  subst hf
  unfold monzoRun
  split
  · rename_i h
    have h2 : file.expired start = true := decide_eq_true (by omega)
    unfold sourceToken bankRefresh
    simp only [h2, if_true, Option.map_some]
    rw [if_pos (hg.fresh file start)]
    have hv : ∀ t ∈ times, t + 10 ≤ (grant file start).expiry := by
      intro t ht
      have h3 := hg.lasts file start
      have := hw t ht
      omega
    rw [requests_valid grant _ _ _ times hv]
    have hno : ¬ Overtaken file.expiry start times := fun ho => by have := ho.1; omega
    exact ⟨⟨fun _ => hno, fun _ => rfl⟩, fun ho => absurd ho hno⟩
  · rename_i hs
    by_cases h : ∃ t ∈ times, file.expiry - 10 < t
    · obtain ⟨t, _, h1, _⟩ := requests_expired grant file file file rfl hg hl times hw h
      have ho : Overtaken file.expiry start times := ⟨by omega, h⟩
      rw [h1, requests_file]
      have hne := hr file t
      refine ⟨⟨fun e => ?_, fun hn => absurd ho hn⟩, fun _ => hne.symm⟩
      exact absurd (congrArg OToken.refresh e).symm hne
    · have hv : ∀ t ∈ times, t + 10 ≤ file.expiry := by
        intro t ht
        by_contra hc
        exact h ⟨t, ht, by omega⟩
      rw [requests_valid grant _ _ _ times hv]
      have hno : ¬ Overtaken file.expiry start times := fun ho => h ho.2
      exact ⟨⟨fun _ => hno, fun _ => rfl⟩, fun ho => absurd ho hno⟩

/-- No run of the history is overtaken by the expiry of the token it finds. -/
def NeverOvertaken (grant : Grant) : OToken → OToken → List (Int × List Int) → Prop
  | _, _, [] => True
  | file, bank, (s, ts) :: rs =>
    ¬ Overtaken file.expiry s ts ∧ NeverOvertaken grant (monzoRun grant file bank s ts).file (monzoRun grant file bank s ts).bank rs

/-- **C115** (partial: no token expires during a run): over any number of runs every request goes out with a valid token; nobody has to log in again. -/
theorem c115_login_lasts_partial (grant : Grant) (life span : Int) (hg : Grants grant life) (hr : Rotates grant) (hl : span + 10 ≤ life) :
    ∀ (runs : List (Int × List Int)) (file bank : OToken), file = bank → (∀ r ∈ runs, Within span r.1 r.2) → NeverOvertaken grant file bank runs →
    List.Forall₂ (fun r e => Served e r.2.length ∧ e.file = e.bank) runs (monzoRuns grant file bank runs) := by
  intro runs
  induction runs with
  | nil => intro _ _ _ _ _; exact .nil
  | cons r runs ih =>
    obtain ⟨s, ts⟩ := r
    intro file bank hf hw hn
    have h1 := c115_served grant life span hg hl file bank hf s ts (hw (s, ts) (by simp))
    have h2 := (c115_kept_iff grant life span hg hr hl file bank hf s ts (hw (s, ts) (by simp))).1.2 hn.1
    exact .cons ⟨h1, h2⟩ (ih _ _ h2 (fun r hr => hw r (List.mem_cons_of_mem _ hr)) hn.2)

/-- **C115**: a bank that lets a refresh token be used again: the login lasts, whenever the tokens expire. -/
theorem c115_reusable (grant : Grant) (life span : Int) (hg : Grants grant life) (hr : ∀ o t, (grant o t).refresh = o.refresh) (hl : span + 10 ≤ life) :
    ∀ (runs : List (Int × List Int)) (file bank : OToken), file.refresh = bank.refresh → (∀ r ∈ runs, Within span r.1 r.2) →
    List.Forall₂ (fun r e => Sent e r.2.length) runs (monzoRuns grant file bank runs) := by
  intro runs
  induction runs with
  | nil => intro _ _ _ _; exact .nil
  | cons r runs ih =>
    obtain ⟨s, ts⟩ := r
    intro file bank hf hw
    have hw0 := hw (s, ts) (by simp)
    have key : Sent (monzoRun grant file bank s ts) ts.length ∧
        (monzoRun grant file bank s ts).file.refresh = (monzoRun grant file bank s ts).bank.refresh := by
      unfold monzoRun
      split
      · rename_i h
        have h2 : file.expired s = true := decide_eq_true (by omega)
        unfold sourceToken bankRefresh
        simp only [h2, if_true, hf, Option.map_some]
        split
        · have hv : ∀ t ∈ ts, t + 10 ≤ (grant bank s).expiry := by
            intro t ht
            have h3 := hg.lasts bank s
            have := hw0 t ht
            simp only at this
            omega
          rw [requests_valid grant _ _ _ ts hv]
          refine ⟨⟨rfl, by simp, ?_⟩, rfl⟩
          intro x hx
          obtain ⟨t, ht, rfl⟩ := List.mem_map.1 hx
          exact hv t ht
        · by_cases hx : ∃ t ∈ ts, file.expiry - 10 < t
          · obtain ⟨t, _, k1, k2, _⟩ := requests_expired grant file (grant bank s) file (by rw [hf, hr]) hg hl ts hw0 hx
            refine ⟨k2, ?_⟩
            rw [k1, requests_file, hr, hr, hf]
          · have hv : ∀ t ∈ ts, t + 10 ≤ file.expiry := by
              intro t ht
              by_contra hc
              exact hx ⟨t, ht, by omega⟩
            rw [requests_valid grant _ _ _ ts hv]
            refine ⟨⟨rfl, by simp, ?_⟩, by simp only [hr]; exact hf⟩
            intro x hx
            obtain ⟨t, ht, rfl⟩ := List.mem_map.1 hx
            exact hv t ht
      · by_cases hx : ∃ t ∈ ts, file.expiry - 10 < t
        · obtain ⟨t, _, k1, k2, _⟩ := requests_expired grant file bank file hf hg hl ts hw0 hx
          refine ⟨k2, ?_⟩
          rw [k1, requests_file, hr, hf]
        · have hv : ∀ t ∈ ts, t + 10 ≤ file.expiry := by
            intro t ht
            by_contra hc
            exact hx ⟨t, ht, by omega⟩
          rw [requests_valid grant _ _ _ ts hv]
          refine ⟨⟨rfl, by simp, ?_⟩, hf⟩
          intro x hx
          obtain ⟨t, ht, rfl⟩ := List.mem_map.1 hx
          exact hv t ht
    exact .cons key.1 (ih _ _ key.2 (fun r hr => hw r (List.mem_cons_of_mem _ hr)))

/-- **C115**: a login that is lost stays lost: with another refresh token than the bank's, and expired, every later run fails and changes nothing. -/
theorem c115_lost_for_ever (grant : Grant) (file bank : OToken) (hne : file.refresh ≠ bank.refresh) :
    ∀ (runs : List (Int × List Int)), (∀ r ∈ runs, file.expiry < r.1) →
    ∀ e ∈ monzoRuns grant file bank runs, e.ok = false ∧ e.used = [] ∧ e.file = file ∧ e.bank = bank := by
  intro runs
  induction runs with
  | nil => intro _ e he; cases he
  | cons r runs ih =>
    obtain ⟨s, ts⟩ := r
    intro hlate e he
    have hs : file.expiry < s := hlate (s, ts) (by simp)
    have h2 : file.expired s = true := decide_eq_true (by omega)
    have h1 : monzoRun grant file bank s ts = ⟨file, bank, [], false⟩ := by
      unfold monzoRun sourceToken bankRefresh
      simp [hs, h2, hne]
    unfold monzoRuns at he
    simp only at he
    rw [h1] at he
    rcases List.mem_cons.1 he with rfl | he
    · exact ⟨rfl, rfl, rfl, rfl⟩
    · exact ih (fun r hr => hlate r (List.mem_cons_of_mem _ hr)) e he

/-- A bank that numbers its tokens, valid for six hours. -/
def numberedBank : Grant := fun o t => ⟨o.access ++ [48], o.refresh ++ [48], t + 21600⟩

theorem numbered_grants : Grants numberedBank 21600 := ⟨by intro o t h; have := congrArg List.length h; simp [numberedBank] at this, by
  intro o t; simp [numberedBank]⟩
theorem numbered_rotates : Rotates numberedBank := by
  intro o t h; have := congrArg List.length h; simp [numberedBank] at this

/-- **C115** is false: the token runs out while a download is going on; the client renews it and forgets the new one; from then on every run is refused. -/
theorem c115_login_lasts_fails : ¬ ∀ (grant : Grant) (life span : Int), Grants grant life → Rotates grant → span + 10 ≤ life →
    ∀ (runs : List (Int × List Int)) (file bank : OToken), file = bank → (∀ r ∈ runs, Within span r.1 r.2) →
    List.Forall₂ (fun r e => Served e r.2.length) runs (monzoRuns grant file bank runs) := by
  intro h
  have h1 := h numberedBank 21600 60 numbered_grants numbered_rotates (by omega) [(1000, [1000, 1003]), (5000, [5000])] ⟨[1], [2], 1010⟩ ⟨[1], [2], 1010⟩ rfl
    (by intro r hr; simp only [List.mem_cons, List.not_mem_nil, or_false] at hr; rcases hr with rfl | rfl <;> (intro t ht; simp at ht; omega))
  cases h1 with
  | cons _ h2 =>
    cases h2 with
    | cons h3 _ =>
      have h4 : (monzoRun numberedBank (monzoRun numberedBank ⟨[1], [2], 1010⟩ ⟨[1], [2], 1010⟩ 1000 [1000, 1003]).file
        (monzoRun numberedBank ⟨[1], [2], 1010⟩ ⟨[1], [2], 1010⟩ 1000 [1000, 1003]).bank 5000 [5000]).ok = false := by decide
      rw [h3.1.1] at h4
      cases h4

example : NeverOvertaken numberedBank ⟨[1], [2], 1010⟩ ⟨[1], [2], 1010⟩ [(900, [901, 950]), (5000, [5000, 5060]), (5100, [5100])] := by
  have h1 : monzoRun numberedBank ⟨[1], [2], 1010⟩ ⟨[1], [2], 1010⟩ 900 [901, 950] = ⟨⟨[1], [2], 1010⟩, ⟨[1], [2], 1010⟩, [(901, ⟨[1], [2], 1010⟩, ⟨[1], [2], 1010⟩), (950, ⟨[1], [2], 1010⟩, ⟨[1], [2], 1010⟩)], true⟩ := rfl
  have h2 : monzoRun numberedBank ⟨[1], [2], 1010⟩ ⟨[1], [2], 1010⟩ 5000 [5000, 5060] = ⟨⟨[1, 48], [2, 48], 26600⟩, ⟨[1, 48], [2, 48], 26600⟩,
    [(5000, ⟨[1, 48], [2, 48], 26600⟩, ⟨[1, 48], [2, 48], 26600⟩), (5060, ⟨[1, 48], [2, 48], 26600⟩, ⟨[1, 48], [2, 48], 26600⟩)], true⟩ := rfl
  simp only [NeverOvertaken, h1, h2, Overtaken]
  simp

end Verif
