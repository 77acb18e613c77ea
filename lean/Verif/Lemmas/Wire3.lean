import Verif.Lemmas.Wire2
import Verif.Props.Prefix
/-
What the prefix decoder computes.
-/
set_option linter.unusedSimpArgs false
set_option linter.unusedVariables false
namespace Babel
open Spec

theorem normalize_zeroes (n : Nat) : normalizePrefix zeroes16 n = zeroes16 := by
  by_cases h : n < 128
  · have : ∀ n < 128, normalizePrefix zeroes16 n = zeroes16 := by decide +kernel
    exact this n h
  · unfold normalizePrefix
    rw [if_pos (by omega)]; rfl

theorem tail_iff {p : Bytes} {k n : Nat} {c : Prop} [Decidable c] {f : Bytes → Bytes} {rc : Nat} {r : Bytes} :
    ((do
      let tail ← rdN p k
      if c then return none else return some (n, f tail)) = some (some (rc, r))) ↔
    ¬ c ∧ rc = n ∧ k ≤ p.length ∧ r = f (p.take k) := by
  constructor
  · exact tail_eq
  · rintro ⟨h1, rfl, h2, rfl⟩
    rw [rdN_some h2]
    simp [h1]

theorem networkPrefix_iff {ae plen om : Nat} {p : Bytes} {dp : Option Bytes} {len rc : Nat} {pfx : Bytes}
    (hl : len ≤ p.length) :
    networkPrefix ae (some plen) om p dp len = some (some (rc, pfx)) ↔
      rc ≤ len ∧ Encoded ae plen om dp (p.take rc) pfx := by
  unfold networkPrefix
  have hpb0 : prefixBytes ae (some plen) = (plen + 7) / 8 := rfl
  have hnl0 : normLen ae (some plen) = if aeIsV4 ae then plen + 96 else plen := rfl
  generalize hpb : prefixBytes ae (some plen) = pb at hpb0 ⊢
  generalize hnl : normLen ae (some plen) = nl at hnl0 ⊢
  clear hpb hnl
  dsimp only
  by_cases h16 : pb > 16
  · rw [if_pos h16]
    constructor
    · intro h; simp at h
    · rintro ⟨_, h⟩
      generalize hw : p.take rc = w at h
      cases h <;> omega
  rw [if_neg h16]
  by_cases h0 : ae = 0
  · subst h0
    rw [if_pos rfl]
    constructor
    · intro h
      simp at h
      obtain ⟨rfl, rfl⟩ := h
      rw [normalize_zeroes]
      refine ⟨Nat.zero_le _, .wildcard _ _ _ (by omega)⟩
    · rintro ⟨h1, h⟩
      generalize hw : p.take rc = w at h
      cases h with
      | wildcard _ _ _ h =>
        rw [normalize_zeroes]
        have : (p.take rc).length = 0 := by rw [hw]; rfl
        simp at this
        have : rc = 0 := by
          rcases this with h | h
          · exact h
          · simp [h] at hl; omega
        subst this; rfl
      | v4 _ _ _ _ h => omega
      | v4omit _ _ _ _ _ h => omega
  rw [if_neg h0]
  by_cases h14 : ae = 1 ∨ ae = 4
  · rw [if_pos h14]
    have hv : aeIsV4 ae = true := by rcases h14 with rfl | rfl <;> rfl
    rw [if_pos hv] at hnl0
    by_cases hc : om > 4 ∨ pb > 4 ∨ (pb > om ∧ len < pb - om)
    · rw [if_pos hc]
      constructor
      · intro h; simp at h
      · rintro ⟨h1, h⟩
        generalize hw : p.take rc = w at h
        have hwl : w.length = rc := by rw [← hw, List.length_take]; omega
        cases h with
        | wildcard => omega
        | v4 _ _ _ _ _ h2 h3 => simp only [bytesOf] at h3; omega
        | v4omit _ _ _ _ _ _ h2 _ h3 => simp only [bytesOf] at h3; omega
        | v6 => omega
        | v6omit => omega
        | linkLocal => omega
    · rw [if_neg hc]
      by_cases ho : om = 0
      · subst ho
        rw [show v4Base 0 dp = some (v4prefix.take 12) from rfl]
        simp only []
        rw [tail_iff]
        constructor
        · rintro ⟨h1, rfl, h2, rfl⟩
          refine ⟨by omega, ?_⟩
          rw [hnl0, Nat.add_comm plen 96]
          exact .v4 _ _ _ _ h14 (by omega) (by simp only [List.length_take, bytesOf]; omega)
        · rintro ⟨h1, h⟩
          generalize hw : p.take rc = w at h
          have hwl : w.length = rc := by rw [← hw, List.length_take]; omega
          cases h with
          | wildcard => omega
          | v4 _ _ _ _ _ h2 h3 =>
            simp only [bytesOf] at h3
            refine ⟨by omega, by omega, by omega, ?_⟩
            rw [hnl0, Nat.add_comm plen 96, ← hw]
            have : rc = pb - 0 := by omega
            subst this; rfl
          | _ => omega
      · rcases dp with _ | d
        · rw [show v4Base om none = none by simp [v4Base]; omega]
          constructor
          · intro h; simp at h
          · rintro ⟨h1, h⟩
            generalize hw : p.take rc = w at h
            cases h <;> omega
        · by_cases hd : v4mapped d = true
          · rw [show v4Base om (some d) = some (d.take (12 + om)) by simp [v4Base, hd]; omega]
            simp only []
            rw [tail_iff]
            constructor
            · rintro ⟨h1, rfl, h2, rfl⟩
              refine ⟨by omega, ?_⟩
              rw [hnl0, Nat.add_comm plen 96]
              exact .v4omit _ _ _ _ _ h14 (by omega) (by omega) (by simp only [List.length_take, bytesOf]; omega) hd
            · rintro ⟨h1, h⟩
              generalize hw : p.take rc = w at h
              have hwl : w.length = rc := by rw [← hw, List.length_take]; omega
              cases h with
              | wildcard => omega
              | v4 _ _ _ _ _ h2 h3 => omega
              | v4omit _ _ _ _ _ _ h2 h4 h3 =>
                simp only [bytesOf] at h3
                refine ⟨by omega, by omega, by omega, ?_⟩
                rw [hnl0, Nat.add_comm plen 96, ← hw]
                have : rc = pb - om := by omega
                subst this; rfl
              | v6 => omega
              | v6omit => omega
              | linkLocal => omega
          · rw [show v4Base om (some d) = none by simp [v4Base, hd]; omega]
            constructor
            · intro h; simp at h
            · rintro ⟨h1, h⟩
              generalize hw : p.take rc = w at h
              cases h with
              | v4omit _ _ _ _ _ _ h2 h4 h3 h5 => exact absurd h5 hd
              | _ => omega
  rw [if_neg h14]
  have hv : aeIsV4 ae = false := by simp [aeIsV4]; omega
  rw [if_neg (by simp [hv])] at hnl0
  subst hnl0
  by_cases h2 : ae = 2
  · subst h2
    rw [if_pos rfl]
    by_cases hc : om > 16 ∨ (pb > om ∧ len < pb - om)
    · rw [if_pos hc]
      constructor
      · intro h; simp at h
      · rintro ⟨h1, h⟩
        generalize hw : p.take rc = w at h
        have hwl : w.length = rc := by rw [← hw, List.length_take]; omega
        cases h with
        | v6 _ _ _ _ h3 => simp only [bytesOf] at h3; omega
        | v6omit _ _ _ _ _ _ h3 => simp only [bytesOf] at h3; omega
        | _ => omega
    · rw [if_neg hc]
      by_cases ho : om = 0
      · subst ho
        rw [show v6Base 0 dp = some [] from rfl]
        simp only []
        rw [tail_iff]
        constructor
        · rintro ⟨h1, rfl, h2, rfl⟩
          refine ⟨by omega, ?_⟩
          exact .v6 _ _ _ (by omega) (by simp only [List.length_take, bytesOf]; omega)
        · rintro ⟨h1, h⟩
          generalize hw : p.take rc = w at h
          have hwl : w.length = rc := by rw [← hw, List.length_take]; omega
          cases h with
          | v6 _ _ _ _ h3 =>
            simp only [bytesOf] at h3
            refine ⟨by omega, by omega, by omega, ?_⟩
            rw [← hw]
            have : rc = pb - 0 := by omega
            subst this; rfl
          | _ => omega
      · rcases dp with _ | d
        · rw [show v6Base om none = none by simp [v6Base]; omega]
          constructor
          · intro h; simp at h
          · rintro ⟨h1, h⟩
            generalize hw : p.take rc = w at h
            cases h <;> omega
        · by_cases hd : v4mapped d = true
          · rw [show v6Base om (some d) = none by simp [v6Base, hd]; omega]
            constructor
            · intro h; simp at h
            · rintro ⟨h1, h⟩
              generalize hw : p.take rc = w at h
              cases h with
              | v6omit _ _ _ _ _ _ h3 h5 => exact absurd hd h5
              | _ => omega
          · rw [show v6Base om (some d) = some (d.take om) by simp [v6Base, hd]; omega]
            simp only []
            rw [tail_iff]
            constructor
            · rintro ⟨h1, rfl, h2, rfl⟩
              refine ⟨by omega, ?_⟩
              exact .v6omit _ _ _ _ (by omega) (by omega) (by simp only [List.length_take, bytesOf]; omega) hd
            · rintro ⟨h1, h⟩
              generalize hw : p.take rc = w at h
              have hwl : w.length = rc := by rw [← hw, List.length_take]; omega
              cases h with
              | v6omit _ _ _ _ _ h4 h3 =>
                simp only [bytesOf] at h3
                refine ⟨by omega, by omega, by omega, ?_⟩
                rw [← hw]
                have : rc = pb - om := by omega
                subst this; rfl
              | _ => omega
  rw [if_neg h2]
  by_cases h3 : ae = 3
  · subst h3
    rw [if_pos rfl]
    by_cases hc : pb > 8 ∧ len < pb - 8
    · rw [if_pos hc]
      constructor
      · intro h; simp at h
      · rintro ⟨h1, h⟩
        generalize hw : p.take rc = w at h
        have hwl : w.length = rc := by rw [← hw, List.length_take]; omega
        cases h with
        | linkLocal _ _ _ _ _ h3 => simp only [bytesOf] at h3; omega
        | _ => omega
    · rw [if_neg hc, tail_iff]
      constructor
      · rintro ⟨h1, rfl, h2, rfl⟩
        refine ⟨by omega, ?_⟩
        exact .linkLocal _ _ _ _ (by omega) (by simp only [List.length_take, bytesOf]; omega)
      · rintro ⟨h1, h⟩
        generalize hw : p.take rc = w at h
        have hwl : w.length = rc := by rw [← hw, List.length_take]; omega
        cases h with
        | linkLocal _ _ _ _ _ h3 =>
          simp only [bytesOf] at h3
          refine ⟨by omega, by omega, by omega, ?_⟩
          rw [← hw]
          have : rc = pb - 8 := by omega
          subst this; rfl
        | _ => omega
  rw [if_neg h3]
  constructor
  · intro h; simp at h
  · rintro ⟨h1, h⟩
    generalize hw : p.take rc = w at h
    cases h <;> omega

theorem normalize_full (b : Bytes) (h : b.length = 16) : normalizePrefix b 128 = b := by
  unfold normalizePrefix
  rw [if_pos (by omega), List.take_of_length_le (by omega)]

theorem networkAddress_iff {ae : Nat} {p : Bytes} {len rc : Nat} {addr : Bytes} (hl : len ≤ p.length) :
    networkAddress ae p len = some (some (rc, addr)) ↔
      rc ≤ len ∧ EncodedAddr ae (p.take rc) addr := by
  unfold networkAddress networkPrefix
  have hpb0 : prefixBytes ae none = if ae == 1 then 4 else 16 := rfl
  generalize prefixBytes ae none = pb at hpb0 ⊢
  rw [show normLen ae none = 128 from rfl]
  dsimp only
  by_cases h0 : ae = 0
  · subst h0
    rw [if_neg (by rw [hpb0]; decide), if_pos rfl]
    constructor
    · intro h
      simp at h
      obtain ⟨rfl, rfl⟩ := h
      exact ⟨Nat.zero_le _, by rw [normalize_zeroes]; exact .wildcard⟩
    · rintro ⟨h1, h⟩
      generalize hw : p.take rc = w at h
      have hwl : w.length = rc := by rw [← hw, List.length_take]; omega
      cases h
      rw [normalize_zeroes]
      simp at hwl; subst hwl; rfl
  by_cases h1 : ae = 1
  · subst h1
    replace hpb0 : pb = 4 := hpb0
    subst hpb0
    simp only [beq_self_eq_true, if_true, true_or, Nat.reduceGT, if_false, false_or, or_false, Nat.sub_zero,
      Nat.zero_lt_succ, true_and, if_neg h0, Nat.not_lt_zero, v4Base]
    by_cases hc : len < 4
    · simp only [hc, if_true]
      constructor
      · intro h; simp at h
      · rintro ⟨h1, h⟩
        generalize hw : p.take rc = w at h
        have hwl : w.length = rc := by rw [← hw, List.length_take]; omega
        cases h; omega
    · simp only [hc, if_false, gt_iff_lt, Nat.lt_irrefl]
      have e : rdN p 4 = some (p.take 4) := rdN_some (by omega)
      have l4 : (p.take 4).length = 4 := by rw [List.length_take]; omega
      have e2 : normalizePrefix (padPrefix (v4prefix.take 12 ++ p.take 4)) 128 = v4tov6 (p.take 4) := by
        have : padPrefix (v4prefix.take 12 ++ p.take 4) = v4prefix.take 12 ++ p.take 4 := by
          simp [padPrefix, l4, v4prefix]
        rw [this, normalize_full _ (by simp [l4, v4prefix])]
        rw [v4tov6, List.take_of_length_le (l := p.take 4) (by omega)]
      simp only [e, Option.bind_eq_bind, Option.bind_some, e2]
      constructor
      · intro h
        simp at h
        obtain ⟨rfl, rfl⟩ := h
        exact ⟨by omega, .v4 _ l4⟩
      · rintro ⟨h1, h⟩
        generalize hw : p.take rc = w at h
        have hwl : w.length = rc := by rw [← hw, List.length_take]; omega
        cases h with
        | v4 _ h =>
          have : rc = 4 := by omega
          subst this; rw [← hw]; rfl
  by_cases h4 : ae = 4
  · subst h4
    replace hpb0 : pb = 16 := hpb0
    subst hpb0
    constructor
    · intro h; simp at h
    · rintro ⟨h1, h⟩
      generalize hw : p.take rc = w at h
      cases h
  have hne : (ae == 1) = false := by simp [h1]
  rw [hne] at hpb0
  replace hpb0 : pb = 16 := hpb0
  subst hpb0
  simp only [if_false, if_neg h0, h1, h4, or_self, Nat.lt_irrefl, gt_iff_lt]
  by_cases h2 : ae = 2
  · subst h2
    simp only [if_true, Nat.zero_lt_succ, true_and, Nat.sub_zero, Nat.not_lt_zero, false_or, v6Base, if_false, Nat.lt_irrefl]
    by_cases hc : len < 16
    · simp only [hc, if_true]
      constructor
      · intro h; simp at h
      · rintro ⟨h1, h⟩
        generalize hw : p.take rc = w at h
        have hwl : w.length = rc := by rw [← hw, List.length_take]; omega
        cases h; omega
    · simp only [hc, if_false]
      have e : rdN p 16 = some (p.take 16) := rdN_some (by omega)
      have l4 : (p.take 16).length = 16 := by rw [List.length_take]; omega
      have e2 : normalizePrefix (padPrefix ([] ++ p.take 16)) 128 = p.take 16 := by
        have : padPrefix ([] ++ p.take 16) = p.take 16 := by
          simp [padPrefix, l4]
        rw [this, normalize_full _ l4]
      simp only [e, Option.bind_eq_bind, Option.bind_some, e2]
      constructor
      · intro h
        simp at h
        obtain ⟨rfl, rfl⟩ := h
        exact ⟨by omega, .v6 _ l4⟩
      · rintro ⟨h1, h⟩
        generalize hw : p.take rc = w at h
        have hwl : w.length = rc := by rw [← hw, List.length_take]; omega
        cases h with
        | v6 _ h =>
          have : rc = 16 := by omega
          subst this; rw [← hw]; rfl
  by_cases h3 : ae = 3
  · subst h3
    simp only [if_true, if_neg h2, Nat.reduceLT, true_and, Nat.reduceSub, if_false, Nat.reduceGT]
    by_cases hc : len < 8
    · simp only [hc, if_true]
      constructor
      · intro h; simp at h
      · rintro ⟨h1, h⟩
        generalize hw : p.take rc = w at h
        have hwl : w.length = rc := by rw [← hw, List.length_take]; omega
        cases h; omega
    · simp only [hc, if_false]
      have e : rdN p 8 = some (p.take 8) := rdN_some (by omega)
      have l4 : (p.take 8).length = 8 := by rw [List.length_take]; omega
      have e2 : normalizePrefix (padPrefix (llprefix.take 8 ++ p.take 8)) 128 = llprefix.take 8 ++ p.take 8 := by
        have : padPrefix (llprefix.take 8 ++ p.take 8) = llprefix.take 8 ++ p.take 8 := by
          simp [padPrefix, l4, llprefix]
        rw [this, normalize_full _ (by simp [l4, llprefix])]
      simp only [e, Option.bind_eq_bind, Option.bind_some, e2]
      constructor
      · intro h
        simp at h
        obtain ⟨rfl, rfl⟩ := h
        exact ⟨by omega, .linkLocal _ l4⟩
      · rintro ⟨h1, h⟩
        generalize hw : p.take rc = w at h
        have hwl : w.length = rc := by rw [← hw, List.length_take]; omega
        cases h with
        | linkLocal _ h =>
          have : rc = 8 := by omega
          subst this; rw [← hw]; rfl
  simp only [if_neg h2, if_neg h3]
  constructor
  · intro h; simp at h
  · rintro ⟨h1, h⟩
    generalize hw : p.take rc = w at h
    cases h <;> omega

end Babel
