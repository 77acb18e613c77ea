import Verif.Lemmas.Util
/-
C04, C05: prefixes.
-/
set_option linter.unusedSimpArgs false

namespace Babel
open Spec

theorem bitAt_normalize (p : Bytes) (plen i : Nat) (hp : p.length = 16) (hi : i < 128) :
    bitAt (normalizePrefix p plen) i = (decide (i < plen) && bitAt p i) := by
  unfold normalizePrefix
  by_cases h : plen ≥ 128
  · have : i < plen := by omega
    simp [h, this, List.take_of_length_le (Nat.le_of_eq hp)]
  simp only [h, if_false]
  unfold bitAt
  by_cases hz : plen % 8 ≠ 0
  · rw [if_pos hz]
    by_cases hc : i / 8 = plen / 8
    · have hlen : plen / 8 < (p.take (plen / 8) ++ List.replicate (16 - plen / 8) (0:UInt8)).length := by
        simp; omega
      rw [hc]
      rw [List.getD_eq_getElem?_getD, List.getElem?_set]
      simp only [hlen, if_true, Option.getD_some, UInt8.toNat_and, Nat.testBit_and]
      rw [testBit_plenMask plen _ (by omega) hz, Bool.and_comm]
      congr 1
      rw [decide_eq_decide]; omega
    · rw [List.getD_eq_getElem?_getD, List.getElem?_set]
      have : ¬ (plen / 8 = i / 8) := by omega
      simp only [this, if_false]
      by_cases hc2 : i / 8 < plen / 8
      · have : i < plen := by omega
        rw [List.getElem?_append_left (by simp; omega)]
        simp [List.getElem?_take, hc2, this, List.getD_eq_getElem?_getD]
      · have : ¬ i < plen := by omega
        rw [List.getElem?_append_right (by simp; omega)]
        simp only [this, decide_false, Bool.false_and]
        rw [List.getElem?_replicate]
        split <;> simp
  · rw [if_neg hz]
    rw [List.getD_eq_getElem?_getD]
    by_cases hc2 : i / 8 < plen / 8
    · have : i < plen := by omega
      rw [List.getElem?_append_left (by simp; omega)]
      simp [List.getElem?_take, hc2, this, List.getD_eq_getElem?_getD]
    · have : ¬ i < plen := by omega
      rw [List.getElem?_append_right (by simp; omega)]
      simp only [this, decide_false, Bool.false_and]
      rw [List.getElem?_replicate]
      split <;> simp

/-! ### C04 -/

/-- C04: normalisation returns 16 bytes, keeps exactly the first `plen` bits and clears the
rest. -/
theorem C04_normalize_bits (p : Bytes) (plen : Nat) (hp : p.length = 16) :
    (normalizePrefix p plen).length = 16 ∧
    ∀ i, i < 128 → bitAt (normalizePrefix p plen) i = (decide (i < plen) && bitAt p i) := by
  refine ⟨?_, fun i hi => bitAt_normalize p plen i hp hi⟩
  unfold normalizePrefix
  split
  · simp [hp]
  · split <;> simp <;> omega

example : normalizePrefix [0x20,1,0x0d,0xb8, 0xff,0xff,0xff,0xff, 0xff,0xff,0xff,0xff, 0xff,0xff,0xff,0xff] 37
    = [0x20,1,0x0d,0xb8, 0xf8,0,0,0, 0,0,0,0, 0,0,0,0] := by decide

/-- C04: normalisation is idempotent. -/
theorem C04_normalize_idem (p : Bytes) (plen : Nat) (hp : p.length = 16) :
    normalizePrefix (normalizePrefix p plen) plen = normalizePrefix p plen := by
  have h1 := C04_normalize_bits p plen hp
  have h2 := C04_normalize_bits (normalizePrefix p plen) plen h1.1
  apply bits_ext h2.1 h1.1
  intro i hi
  rw [h2.2 i hi, h1.2 i hi]
  cases decide (i < plen) <;> simp

/-- C04: two addresses have the same normalised prefix iff they agree on the first `plen` bits. -/
theorem C04_normalize_eq_iff (a b : Bytes) (plen : Nat) (ha : a.length = 16) (hb : b.length = 16)
    (hl : plen ≤ 128) :
    normalizePrefix a plen = normalizePrefix b plen ↔ SameBits plen a b := by
  have h1 := C04_normalize_bits a plen ha
  have h2 := C04_normalize_bits b plen hb
  constructor
  · intro h i hi
    have e1 := h1.2 i (by omega)
    have e2 := h2.2 i (by omega)
    rw [h] at e1
    rw [e1] at e2
    simpa [hi] using e2
  · intro h
    apply bits_ext h1.1 h2.1
    intro i hi
    rw [h1.2 i hi, h2.2 i hi]
    by_cases hc : i < plen
    · rw [h i hc]
    · simp [hc]

/-- C04: `in_prefix` holds iff the address agrees with the prefix on its first `plen` bits. -/
theorem C04_in_prefix_iff (a p : Bytes) (plen : Nat) (ha : a.length = 16) (hp : p.length = 16)
    (hl : plen ≤ 128) :
    inPrefix a p plen = true ↔ SameBits plen a p := by
  rw [sameBits_iff]
  unfold inPrefix
  have hn : ¬ plen > 128 := by omega
  simp only [hn, if_false]
  have ht := take_eq_iff (a := a) (b := p) (n := plen / 8) (by omega) (by omega)
  rw [← ht]
  by_cases h1 : a.take (plen / 8) = p.take (plen / 8)
  · simp only [h1, bne_self_eq_false, Bool.false_eq_true, if_false, true_and]
    by_cases hz : plen % 8 = 0
    · simp [hz]
    · simp [hz]
  · have : (a.take (plen / 8) != p.take (plen / 8)) = true := by simpa using h1
    simp [this, h1]

/-- C04: prefix lengths above 128 are treated as 128. -/
theorem C04_in_prefix_clamp (a p : Bytes) (plen : Nat) (ha : a.length = 16) (hp : p.length = 16)
    (hl : 128 ≤ plen) : inPrefix a p plen = true ↔ a = p := by
  have e : inPrefix a p plen = inPrefix a p 128 := by
    unfold inPrefix
    by_cases h : plen > 128
    · simp [h]
    · have : plen = 128 := by omega
      simp [this]
  rw [e, C04_in_prefix_iff a p 128 ha hp (by omega), sameBits_16_iff ha hp]

/-- C04: containment and normalisation agree: an address is in `p/plen` iff it normalises to the
same prefix. -/
theorem C04_in_prefix_normalize (a p : Bytes) (plen : Nat) (ha : a.length = 16)
    (hp : p.length = 16) (hl : plen ≤ 128) :
    inPrefix a p plen = true ↔ normalizePrefix a plen = normalizePrefix p plen := by
  rw [C04_in_prefix_iff a p plen ha hp hl, C04_normalize_eq_iff a p plen ha hp hl]

/-! ### C05 -/

theorem len16 {p : Bytes} (h : p.length = 16) : ∃ b0 b1 b2 b3 b4 b5 b6 b7 b8 b9 b10 b11 b12 b13 b14 b15,
    p = [b0, b1, b2, b3, b4, b5, b6, b7, b8, b9, b10, b11, b12, b13, b14, b15] := by
  match p, h with
  | [b0, b1, b2, b3, b4, b5, b6, b7, b8, b9, b10, b11, b12, b13, b14, b15], _ =>
    exact ⟨b0, b1, b2, b3, b4, b5, b6, b7, b8, b9, b10, b11, b12, b13, b14, b15, rfl⟩

/-- C05: `martian_prefix` recognises exactly the forbidden blocks. -/
theorem C05_martian_iff (p : Bytes) (plen : Nat) (hp : p.length = 16) :
    martianPrefix p plen = true ↔ Martian p plen := by
  obtain ⟨b0, b1, b2, b3, b4, b5, b6, b7, b8, b9, b10, b11, b12, b13, b14, b15, rfl⟩ := len16 hp
  unfold Martian martianBlocks
  have m10 : plenMask 10 = 0xC0 := by decide
  have m100 : plenMask 100 = 0xF0 := by decide
  simp only [List.mem_cons, List.not_mem_nil, or_false, exists_eq_or_imp, exists_eq_left,
    sameBits_iff, m10, m100]
  simp only [martianPrefix, v4mapped, v4prefix, Nat.forall_lt_succ_right, Nat.reduceDiv, Nat.reduceMod,
    List.getD_cons_zero, List.getD_cons_succ]
  have e1 : (128 : UInt8) &&& 192 = 128 := by decide
  have e2 : (224 : UInt8) &&& 240 = 224 := by decide
  simp [Nat.forall_lt_succ_right, e1, e2]
  by_cases h0 : b0 = 0
  case neg => simp [h0, and_assoc]
  simp only [h0, true_and, and_true, false_and, and_false, false_or]
  by_cases h1 : b1 = 0
  case neg => simp [h1, and_assoc]
  simp only [h1, true_and, and_true, false_and, and_false, false_or]
  by_cases h2 : b2 = 0
  case neg => simp [h2, and_assoc]
  simp only [h2, true_and, and_true, false_and, and_false, false_or]
  by_cases h3 : b3 = 0
  case neg => simp [h3, and_assoc]
  simp only [h3, true_and, and_true, false_and, and_false, false_or]
  by_cases h4 : b4 = 0
  case neg => simp [h4, and_assoc]
  simp only [h4, true_and, and_true, false_and, and_false, false_or]
  by_cases h5 : b5 = 0
  case neg => simp [h5, and_assoc]
  simp only [h5, true_and, and_true, false_and, and_false, false_or]
  by_cases h6 : b6 = 0
  case neg => simp [h6, and_assoc]
  simp only [h6, true_and, and_true, false_and, and_false, false_or]
  by_cases h7 : b7 = 0
  case neg => simp [h7, and_assoc]
  simp only [h7, true_and, and_true, false_and, and_false, false_or]
  by_cases h8 : b8 = 0
  case neg => simp [h8, and_assoc]
  simp only [h8, true_and, and_true, false_and, and_false, false_or]
  by_cases h9 : b9 = 0
  case neg => simp [h9, and_assoc]
  simp only [h9, true_and, and_true, false_and, and_false, false_or]
  clear hp m10 m100 e1 e2 h0 h1 h2 h3 h4 h5 h6 h7 h8 h9
  constructor <;> intro h <;> grind (splits := 30)

/-- C05: the IPv4 and IPv6 default routes and ordinary prefixes are not martian; a link-local
prefix is. -/
example : martianPrefix zeroes16 0 = false ∧ martianPrefix v4prefix 96 = false ∧
    martianPrefix [0x20,1,0x0d,0xb8, 0,0,0,0, 0,0,0,0, 0,0,0,0] 32 = false ∧
    martianPrefix [0xfe,0xbf,0,0, 0,0,0,0, 0,0,0,0, 0,0,0,0] 64 = true := by decide

end Babel
