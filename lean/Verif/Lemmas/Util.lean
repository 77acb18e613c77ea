import Verif.Spec.Util
/- Helper lemmas on the definitions of Model/Util. -/
set_option linter.unusedSimpArgs false

namespace Babel
open Spec

/-! ### Helper facts on 16-bit words -/

theorem nat_and_two_pow_ne_zero (x i : Nat) : (x &&& 2 ^ i ≠ 0) ↔ x.testBit i = true := by
  constructor
  · intro h
    rcases hb : x.testBit i with _ | _
    · exfalso; apply h
      apply Nat.eq_of_testBit_eq
      intro j
      simp only [Nat.testBit_and, Nat.testBit_two_pow, Nat.zero_testBit]
      by_cases hj : i = j
      · subst hj; simp [hb]
      · simp [hj]
    · rfl
  · intro h h0
    have : (x &&& 2 ^ i).testBit i = false := by rw [h0]; simp
    simp [Nat.testBit_and, Nat.testBit_two_pow, h] at this

theorem u16_and_8000 (x : UInt16) : (x &&& 0x8000 ≠ 0) ↔ 32768 ≤ x.toNat := by
  have hx := x.toNat_lt
  have h1 : (x &&& 0x8000 = 0) ↔ (x &&& 0x8000).toNat = 0 := by
    constructor
    · intro h; simp [h]
    · intro h; exact UInt16.toNat_inj.mp (by simpa using h)
  have h2 : (x &&& 0x8000).toNat = x.toNat &&& 2 ^ 15 := by simp
  rw [ne_eq, h1, h2, ← ne_eq, nat_and_two_pow_ne_zero, Nat.testBit_eq_decide_div_mod_eq]
  simp; omega

theorem seqnoCompare_nat (a b : UInt16) :
    seqnoCompare a b =
      if a.toNat = b.toNat then 0
      else if 32768 ≤ (b.toNat + 65536 - a.toNat) % 65536 then 1 else -1 := by
  have ha := a.toNat_lt
  have hb := b.toNat_lt
  unfold seqnoCompare
  have h := u16_and_8000 (b - a)
  have hs : (b - a).toNat = (b.toNat + 65536 - a.toNat) % 65536 := by
    rw [UInt16.toNat_sub]; omega
  rw [hs] at h
  simp only [← UInt16.toNat_inj, h]

theorem u16_ofNat_toNat (n : Nat) : (UInt16.ofNat n).toNat = n % 65536 := by
  simp

theorem ckInt_pos {x : Int} (h : -INT_MAX - 1 ≤ x ∧ x ≤ INT_MAX) : ckInt x = some x := by
  unfold ckInt; rw [if_pos h]

theorem ckInt_neg {x : Int} (h : ¬ (-INT_MAX - 1 ≤ x ∧ x ≤ INT_MAX)) : ckInt x = none := by
  unfold ckInt; rw [if_neg h]


/-! ### Bytes and bits -/

theorem testBit_plenMask (plen j : Nat) (hj : j < 8) (hp : plen % 8 ≠ 0) :
    (plenMask plen).toNat.testBit j = decide (8 - plen % 8 ≤ j) := by
  unfold plenMask
  have h1 : 8 - plen % 8 < 8 := by omega
  generalize 8 - plen % 8 = k at *
  have : ∀ k < 8, ∀ j < 8, (UInt8.ofNat (0xFF <<< k)).toNat.testBit j = decide (k ≤ j) := by decide
  exact this k h1 j hj

theorem u8_testBit_ext {a b : UInt8} (h : ∀ j, j < 8 → a.toNat.testBit j = b.toNat.testBit j) :
    a = b := by
  apply UInt8.toNat_inj.mp
  apply Nat.eq_of_testBit_eq
  intro j
  by_cases hj : j < 8
  · exact h j hj
  · have ha := a.toNat_lt
    have hb := b.toNat_lt
    have hp : 2 ^ 8 ≤ 2 ^ j := Nat.pow_le_pow_right (by omega) (by omega)
    rw [Nat.testBit_lt_two_pow (by omega), Nat.testBit_lt_two_pow (by omega)]

theorem bytes_ext {a b : Bytes} {n : Nat} (ha : a.length = n) (hb : b.length = n)
    (h : ∀ i, i < n → a.getD i 0 = b.getD i 0) : a = b := by
  apply List.ext_getElem (by omega)
  intro i h1 h2
  have := h i (by omega)
  simpa [List.getD_eq_getElem?_getD, h1, h2] using this

/-- Two 16-byte strings agreeing on all 128 bits are equal. -/
theorem bits_ext {a b : Bytes} (ha : a.length = 16) (hb : b.length = 16)
    (h : ∀ i, i < 128 → bitAt a i = bitAt b i) : a = b := by
  apply bytes_ext ha hb
  intro i hi
  apply u8_testBit_ext
  intro j hj
  have := h (8 * i + (7 - j)) (by omega)
  unfold bitAt at this
  have e1 : (8 * i + (7 - j)) / 8 = i := by omega
  have e2 : 7 - (8 * i + (7 - j)) % 8 = j := by omega
  rwa [e1, e2] at this

theorem getD_take {a : Bytes} {n i : Nat} (h : i < n) : (a.take n).getD i 0 = a.getD i 0 := by
  simp [List.getD_eq_getElem?_getD, List.getElem?_take, h]

theorem getD_drop {a : Bytes} {n i : Nat} : (a.drop n).getD i 0 = a.getD (n + i) 0 := by
  simp [List.getD_eq_getElem?_getD, List.getElem?_drop]

/-- Equality of the first `n` bytes, byte by byte. -/
theorem take_eq_iff {a b : Bytes} {n : Nat} (ha : n ≤ a.length) (hb : n ≤ b.length) :
    a.take n = b.take n ↔ ∀ i, i < n → a.getD i 0 = b.getD i 0 := by
  constructor
  · intro h i hi
    rw [← getD_take hi, h, getD_take hi]
  · intro h
    apply bytes_ext (n := n) (by simp; omega) (by simp; omega)
    intro i hi
    rw [getD_take hi, getD_take hi, h i hi]

/-- Agreement on the first `n` bits, split in whole bytes and a partial byte. -/
theorem sameBits_iff {a b : Bytes} {n : Nat} :
    SameBits n a b ↔ (∀ i, i < n / 8 → a.getD i 0 = b.getD i 0) ∧
      (n % 8 ≠ 0 → (a.getD (n / 8) 0 &&& plenMask n) = (b.getD (n / 8) 0 &&& plenMask n)) := by
  constructor
  · intro h
    constructor
    · intro i hi
      apply u8_testBit_ext
      intro j hj
      have := h (8 * i + (7 - j)) (by omega)
      unfold bitAt at this
      have e1 : (8 * i + (7 - j)) / 8 = i := by omega
      have e2 : 7 - (8 * i + (7 - j)) % 8 = j := by omega
      rwa [e1, e2] at this
    · intro hn
      apply u8_testBit_ext
      intro j hj
      simp only [UInt8.toNat_and, Nat.testBit_and, testBit_plenMask n j hj hn]
      by_cases hc : 8 - n % 8 ≤ j
      · have := h (8 * (n / 8) + (7 - j)) (by omega)
        unfold bitAt at this
        have e1 : (8 * (n / 8) + (7 - j)) / 8 = n / 8 := by omega
        have e2 : 7 - (8 * (n / 8) + (7 - j)) % 8 = j := by omega
        rw [e1, e2] at this
        rw [this]
      · simp [hc]
  · intro ⟨h1, h2⟩ i hi
    unfold bitAt
    by_cases hc : i / 8 < n / 8
    · rw [h1 _ hc]
    · have e : i / 8 = n / 8 := by omega
      have hn : n % 8 ≠ 0 := by omega
      have h3 := congrArg (fun x : UInt8 => x.toNat.testBit (7 - i % 8)) (h2 hn)
      simp only [UInt8.toNat_and, Nat.testBit_and,
        testBit_plenMask n (7 - i % 8) (by omega) hn] at h3
      have : (decide (8 - n % 8 ≤ 7 - i % 8)) = true := by simp; omega
      rw [this, Bool.and_true, Bool.and_true] at h3
      rw [e]; exact h3

theorem sameBits_16_iff {a b : Bytes} (ha : a.length = 16) (hb : b.length = 16) :
    SameBits 128 a b ↔ a = b :=
  ⟨fun h => bits_ext ha hb h, fun h => by subst h; intro i _; rfl⟩

end Babel
