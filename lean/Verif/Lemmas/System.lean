import Verif.Spec.System
import Verif.Lemmas.Main2
import Verif.Lemmas.Reject
set_option linter.unusedSimpArgs false
set_option linter.unusedVariables false
namespace Babel
open Spec

theorem clockRun_posix (ins : List ClockIn) : ∀ c : ClockSt, c.posix = some true →
    clockRun c ins = ins.map fun i => i.mono.map fun t => (t.1, t.2 / 1000) := by
  induction ins with
  | nil => intro c h; rfl
  | cons i is ih =>
    intro c h
    rw [clockRun, List.map_cons]
    have e : (gettime c i).2 = (i.mono.map fun t => (t.1, t.2 / 1000)) ∧ (gettime c i).1.posix = some true := by
      unfold gettime
      rw [h]
      cases i.mono with
      | none => simp
      | some t => simp
    rw [e.1, ih _ e.2]

theorem gettime_wall (c : ClockSt) (i : ClockIn) (hp : c.posix = some false ∨ (c.posix = none ∧ i.probe = false)) :
    (gettime c i).1.posix = some false ∧
    (i.wall = none → (gettime c i).2 = none ∧ (gettime c i).1.offset = c.offset ∧ (gettime c i).1.previous = c.previous) ∧
    (∀ s u, i.wall = some (s, u) → (gettime c i).2 = some (max c.previous (s + c.offset), u) ∧
      (gettime c i).1.previous = max c.previous (s + c.offset) ∧
      (gettime c i).1.offset = max c.previous (s + c.offset) - s) := by
  have e : c.posix.getD i.probe = false := by
    rcases hp with h | ⟨h, h'⟩ <;> rw [h]
    · rfl
    · exact h'
  unfold gettime
  simp only [e]
  cases hw : i.wall with
  | none => simp
  | some t =>
    obtain ⟨s, u⟩ := t
    simp only [Bool.false_eq_true, if_false]
    by_cases h : c.previous > s + c.offset
    · rw [if_pos h]
      refine ⟨rfl, by simp, ?_⟩
      intro s' u' h'; cases h'
      refine ⟨?_, ?_, ?_⟩
      · simp; omega
      · simp only; omega
      · simp only; omega
    · rw [if_neg h]
      refine ⟨rfl, by simp, ?_⟩
      intro s' u' h'; cases h'
      refine ⟨?_, ?_, ?_⟩
      · simp; omega
      · simp only; omega
      · simp only; omega

theorem clockRun_wall (ins : List ClockIn) : ∀ c : ClockSt,
    (c.posix = some false ∨ (c.posix = none ∧ ∀ i, ins.head? = some i → i.probe = false)) →
    (clockRun c ins).filterMap id = elapsed (c.previous - c.offset) c.previous (ins.filterMap (·.wall)) := by
  induction ins with
  | nil => intro c h; rfl
  | cons i is ih =>
    intro c h
    obtain ⟨h1, h2, h3⟩ := gettime_wall c i (h.imp id fun h => ⟨h.1, h.2 i rfl⟩)
    rw [clockRun]
    cases hw : i.wall with
    | none =>
      obtain ⟨e1, e2, e3⟩ := h2 hw
      rw [List.filterMap_cons_none (by rw [e1]; rfl), List.filterMap_cons_none hw, ih _ (Or.inl h1), e2, e3]
    | some t =>
      obtain ⟨s, u⟩ := t
      obtain ⟨e1, e2, e3⟩ := h3 s u hw
      rw [List.filterMap_cons_some (by rw [e1]; rfl), List.filterMap_cons_some hw, ih _ (Or.inl h1), elapsed, e2, e3]
      have a : c.previous + max 0 (s - (c.previous - c.offset)) = max c.previous (s + c.offset) := by omega
      rw [a]
      congr 2
      omega

theorem elapsed_ge (l : List (Int × Nat)) : ∀ w t, ∀ x ∈ elapsed w t l, t ≤ x.1 := by
  induction l with
  | nil => intro w t x h; cases h
  | cons p l ih =>
    intro w t x h
    obtain ⟨s, u⟩ := p
    rw [elapsed] at h
    rcases List.mem_cons.1 h with rfl | h
    · simp only; omega
    · have := ih _ _ _ h; omega

theorem elapsed_sorted (l : List (Int × Nat)) : ∀ w t, (elapsed w t l).Pairwise fun a b => a.1 ≤ b.1 := by
  induction l with
  | nil => intro w t; exact .nil
  | cons p l ih =>
    intro w t
    obtain ⟨s, u⟩ := p
    rw [elapsed]
    exact .cons (fun b hb => elapsed_ge _ _ _ b hb) (ih _ _)

theorem elapsed_usec (l : List (Int × Nat)) : ∀ w t, (elapsed w t l).map (·.2) = l.map (·.2) := by
  induction l with
  | nil => intro w t; rfl
  | cons p l ih =>
    intro w t
    obtain ⟨s, u⟩ := p
    rw [elapsed, List.map_cons, List.map_cons, ih]

theorem digitsOf_until {v : Nat} {w t : Bytes} {n : Nat} (h : Digits 10 v w n)
    (ht : ∀ c r, t = c :: r → c < 48 ∨ 57 < c) : ∀ k, digitsOf 10 v k (w ++ t) = (n, k + w.length, t) := by
  induction h with
  | nil =>
    intro k
    cases t with
    | nil => rfl
    | cons c t =>
      have hn : digitOf 10 c = none := by
        cases hd : digitOf 10 c with
        | none => rfl
        | some d =>
          obtain ⟨h1, h2⟩ := digitOf_inv (by omega) hd
          have := ht c t rfl
          simp only [UInt8.lt_iff_toNat_lt] at this
          rcases isHex_range h1 with h | h | h
          · have : (48 : UInt8).toNat = 48 := rfl
            have : (57 : UInt8).toNat = 57 := rfl
            omega
          · omega
          · omega
      rw [List.nil_append, digitsOf.eq_2, hn]
      rfl
  | cons h1 h2 h ih =>
    intro k
    rw [List.cons_append, digitsOf.eq_2, digitOf_isHex h1 h2]
    simp only [ih, List.length_cons]
    congr 2; omega

theorem digits_bytes {v : Nat} {w : Bytes} {n : Nat} (h : Digits 10 v w n) : ∀ c ∈ w, 48 ≤ c.toNat ∧ c.toNat ≤ 57 := by
  induction h with
  | nil => intro c hc; cases hc
  | cons h1 h2 h ih =>
    intro c hc
    rcases List.mem_cons.1 hc with rfl | hc
    · rcases isHex_range h1 with h | h | h <;> omega
    · exact ih c hc

theorem scanD_text {w t : Bytes} {n : Nat} (h : Digits 10 0 w n) (h0 : w ≠ []) (hn : n < 2147483648)
    (ht : ∀ c r, t = c :: r → c < 48 ∨ 57 < c) : scanD (w ++ t) = some ((n : Int), t) := by
  cases w with
  | nil => exact absurd rfl h0
  | cons c w =>
    have hc := digits_bytes h c (List.mem_cons_self ..)
    have e1 : (c :: w ++ t).dropWhile isSpaceC = c :: w ++ t := by
      rw [List.cons_append, List.dropWhile_cons_of_neg]
      unfold isSpaceC
      have a : ¬ c = 32 := fun e => by rw [e] at hc; exact absurd hc.1 (by decide)
      have b : ¬ c ≤ 13 := fun e => by
        have := UInt8.le_iff_toNat_le.1 e
        have : (13 : UInt8).toNat = 13 := rfl
        omega
      simp [a, b]
    have e2 : signOf (c :: w ++ t) = (false, c :: w ++ t) := by
      unfold signOf
      split
      · next x e => cases e; exact absurd hc.1 (by decide)
      · next x e => cases e; exact absurd hc.1 (by decide)
      · rfl
    unfold scanD
    rw [e1, e2]
    simp only [digitsOf_until h ht]
    rw [if_neg (by simp)]
    simp only [Bool.false_eq_true, if_false]
    rw [Int.min_eq_left (by omega), longToInt_of hn]

theorem scanVersion_text {r : Bytes} {a b : Nat} (h : Release r a b) (ha : a < 2147483648) (hb : b < 2147483648) :
    scanVersion r = some ((a : Int), (b : Int)) := by
  cases h with
  | mk h1 n1 h2 n2 hz hs =>
    next w1 w2 rest =>
    unfold scanVersion
    rw [cstr_id]
    · rw [scanD_text h1 n1 ha (by intro c t e; cases e; left; decide)]
      simp only [if_true]
      rw [scanD_text h2 n2 hb hs]
      rfl
    · intro c hc e
      subst e
      rcases List.mem_append.1 hc with hc | hc
      · exact absurd (digits_bytes h1 _ hc).1 (by decide)
      · rcases List.mem_cons.1 hc with hc | hc
        · exact absurd hc (by decide)
        · rcases List.mem_append.1 hc with hc | hc
          · exact absurd (digits_bytes h2 _ hc).1 (by decide)
          · exact hz _ hc rfl

theorem older_text {r : Bytes} {a b : Nat} (h : Release r a b) (ha : a < 2147483648) (hb : b < 2147483648) (x y : Nat) :
    (kernelOlderThan (some (ascii "Linux", r)) (ascii "Linux") x y == 0) = true ↔ AtLeast a b x y := by
  unfold kernelOlderThan AtLeast
  simp only
  rw [if_neg (by decide), scanVersion_text h ha hb]
  simp only
  split
  · next h => constructor
              · intro h; exact absurd h (by decide)
              · omega
  · next h => constructor
              · intro _; omega
              · intro _; rfl

end Babel
