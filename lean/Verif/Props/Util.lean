import Verif.Spec.Util
import Verif.Lemmas.Util
/-
C01, C02, C03: sequence numbers, randomised intervals, time arithmetic.
-/
set_option linter.unusedSimpArgs false

namespace Babel
open Spec

/-! ### C01 -/

/-- C01: comparing truncated counters less than 32768 apart gives the order of the counters. -/
theorem C01_seqno_compare_window (a b : Nat) (h₁ : a < b + 32768) (h₂ : b < a + 32768) :
    seqnoCompare (UInt16.ofNat a) (UInt16.ofNat b) = counterOrder a b := by
  rw [seqnoCompare_nat]
  simp only [u16_ofNat_toNat, counterOrder]
  repeat' split
  all_goals first | rfl | omega

/-- Hypotheses of the previous theorem are met across the wrap-around. -/
example : seqnoCompare (UInt16.ofNat 65530) (UInt16.ofNat 65540) = -1 ∧
    (UInt16.ofNat 65540).toNat = 4 := by decide

/-- C01: comparison is zero exactly on equal numbers. -/
theorem C01_seqno_compare_zero (a b : UInt16) : seqnoCompare a b = 0 ↔ a = b := by
  unfold seqnoCompare
  constructor
  · intro h; split at h
    · assumption
    · split at h <;> simp at h
  · intro h; simp [h]

/-- C01: the comparison is antisymmetric, except at distance exactly 32768. -/
theorem C01_seqno_compare_antisymm (a b : UInt16) (h : b.toNat ≠ (a.toNat + 32768) % 65536) :
    seqnoCompare b a = - seqnoCompare a b := by
  have ha := a.toNat_lt
  have hb := b.toNat_lt
  rw [seqnoCompare_nat, seqnoCompare_nat]
  repeat' split
  all_goals first | rfl | omega

/-- C01: at distance exactly 32768 each number compares as the newer one. -/
theorem C01_seqno_compare_opposite (a : UInt16) :
    seqnoCompare a (a + 32768) = 1 ∧ seqnoCompare (a + 32768) a = 1 := by
  have ha := a.toNat_lt
  rw [seqnoCompare_nat, seqnoCompare_nat]
  have : (a + 32768).toNat = (a.toNat + 32768) % 65536 := by simp [UInt16.toNat_add]
  rw [this]
  constructor
  all_goals
    repeat' split
    all_goals first | rfl | omega

/-- C01: `plus` then `minus` recovers any increment that fits a signed 16-bit number, and
`plus` is addition modulo 2^16. -/
theorem C01_seqno_plus_minus (s : UInt16) (k : Int) (h₁ : -32768 ≤ k) (h₂ : k < 32768) :
    seqnoMinus (seqnoPlus s k) s = k := by
  have hs := s.toNat_lt
  unfold seqnoMinus seqnoPlus toShort
  rw [UInt16.toNat_sub, u16_ofNat_toNat]
  split <;> omega

/-- C01: `plus` is addition modulo 2^16. -/
theorem C01_seqno_plus_mod (s : UInt16) (k : Int) :
    ((seqnoPlus s k).toNat : Int) = (s.toNat + k) % 65536 := by
  unfold seqnoPlus
  rw [u16_ofNat_toNat]
  omega

/-- C01: `minus` is the signed distance, consistent with the comparison. -/
theorem C01_seqno_minus_window (a b : Nat) (h₁ : a < b + 32768) (h₂ : b < a + 32768) :
    seqnoMinus (UInt16.ofNat a) (UInt16.ofNat b) = (a : Int) - b := by
  unfold seqnoMinus toShort
  rw [UInt16.toNat_sub, u16_ofNat_toNat, u16_ofNat_toNat]
  split <;> omega

example : seqnoMinus (UInt16.ofNat 65537) (UInt16.ofNat 65530) = 7 := by decide

/-! ### C02 -/

/-- C02: a randomised non-negative interval is between 3/4 and 5/4 of the nominal one. -/
theorem C02_roughly_bounds (r : Nat) (v : Int) (hv : 2 ≤ v) :
    v * 3 / 4 ≤ roughly r v ∧ roughly r v ≤ v * 3 / 4 + v / 2 - 1 ∧ 4 * roughly r v < 5 * v := by
  unfold roughly
  have h0 : ¬ v < 0 := by omega
  have h1 : ¬ v ≤ 1 := by omega
  simp only [h0, h1, if_false]
  have hm := Int.emod_nonneg (r : Int) (b := v / 2) (by omega)
  have hl := Int.emod_lt_of_pos (r : Int) (b := v / 2) (by omega)
  omega

/-- C02: every value of the advertised range is produced by some random draw. -/
theorem C02_roughly_surjective (v x : Int) (hv : 2 ≤ v)
    (h₁ : v * 3 / 4 ≤ x) (h₂ : x ≤ v * 3 / 4 + v / 2 - 1) : ∃ r : Nat, roughly r v = x := by
  refine ⟨(x - v * 3 / 4).toNat, ?_⟩
  unfold roughly
  have h0 : ¬ v < 0 := by omega
  have h1 : ¬ v ≤ 1 := by omega
  simp only [h0, h1, if_false]
  have : (((x - v * 3 / 4).toNat : Nat) : Int) = x - v * 3 / 4 := by omega
  rw [this, Int.emod_eq_of_lt (by omega) (by omega)]
  omega

/-- C02: intervals 0 and 1 are left alone. -/
theorem C02_roughly_small (r : Nat) (v : Int) (h₀ : 0 ≤ v) (h₁ : v ≤ 1) : roughly r v = v := by
  unfold roughly; split
  · omega
  · simp [h₁]

/-- C02: odd symmetry. -/
theorem C02_roughly_neg (r : Nat) (v : Int) : roughly r (-v) = - roughly r v := by
  rcases Int.lt_trichotomy v 0 with h | h | h
  · simp only [roughly]
    have h2 : ¬ (-v < 0) := by omega
    simp only [h, h2, if_true, if_false]
    by_cases h3 : -v ≤ 1 <;> simp [h3]
  · subst h; simp [roughly]
  · simp only [roughly]
    have h2 : (-v < 0) := by omega
    have h4 : ¬ v < 0 := by omega
    simp only [h4, h2, if_true, if_false, Int.neg_neg]
    by_cases h3 : v ≤ 1 <;> simp [h3]

/-- C02: no overflow (and hence the above applies to the C function) exactly when three times
the interval fits an `int`; all intervals of the daemon are far below that. -/
theorem C02_roughly_defined (r : Nat) (v : Int) :
    roughlyC r v = some (roughly r v) ↔ (3 * v ≤ INT_MAX ∧ -INT_MAX ≤ 3 * v) := by
  unfold roughlyC roughly
  by_cases h : v < 0
  · simp only [h, if_true]
    by_cases h1 : -v ≤ 1
    · have : v = -1 := by omega
      subst this
      simp [ckInt, INT_MAX]
    · have hm := Int.emod_nonneg (r : Int) (b := -v / 2) (by omega)
      have hl := Int.emod_lt_of_pos (r : Int) (b := -v / 2) (by omega)
      by_cases c1 : -v ≤ INT_MAX
      · rw [ckInt_pos (x := -v) (by simp only [INT_MAX] at *; omega)]
        by_cases c2 : -v * 3 ≤ INT_MAX
        · simp only [INT_MAX] at *
          simp only [bind, Option.bind, pure, h1, if_false,
            ckInt_pos (x := -v * 3) (by simp only [INT_MAX] at *; omega),
            ckInt_pos (x := -v * 3 / 4 + (r : Int) % (-v / 2)) (by simp only [INT_MAX] at *; omega),
            true_iff]
          omega
        · simp only [bind, Option.bind, pure, h1, if_false,
            ckInt_neg (x := -v * 3) (by simp only [INT_MAX] at *; omega),
            reduceCtorEq, false_iff]
          simp only [INT_MAX] at *; omega
      · rw [ckInt_neg (x := -v) (by simp only [INT_MAX] at *; omega)]
        simp only [bind, Option.bind, reduceCtorEq, false_iff]
        simp only [INT_MAX] at *; omega
  · simp only [h, if_false]
    by_cases h1 : v ≤ 1
    · simp [h1, INT_MAX]; omega
    · have hm := Int.emod_nonneg (r : Int) (b := v / 2) (by omega)
      have hl := Int.emod_lt_of_pos (r : Int) (b := v / 2) (by omega)
      by_cases c2 : v * 3 ≤ INT_MAX
      · simp only [INT_MAX] at *
        simp only [bind, Option.bind, pure, h1, if_false,
            ckInt_pos (x := v * 3) (by simp only [INT_MAX] at *; omega),
            ckInt_pos (x := v * 3 / 4 + (r : Int) % (v / 2)) (by simp only [INT_MAX] at *; omega),
            true_iff]
        omega
      · simp only [bind, Option.bind, pure, h1, if_false,
            ckInt_neg (x := v * 3) (by simp only [INT_MAX] at *; omega),
            reduceCtorEq, false_iff]
        simp only [INT_MAX] at *; omega

example : roughlyC 12345 20000 = some 17345 ∧ roughlyC 7 1000000000 = none := by decide

/-! ### C03 -/

/-- C03: difference of times is exact and normalised. -/
theorem C03_minus_exact (a b : Timeval) (ha : TvOk a) (hb : TvOk b) :
    micros (timevalMinus a b) = micros a - micros b ∧ TvOk (timevalMinus a b) := by
  unfold timevalMinus micros TvOk at *
  split <;> simp only <;> omega

/-- C03: adding milliseconds is exact and keeps times normalised. -/
theorem C03_add_msec_exact (s : Timeval) (m : Int) (hs : TvOk s) (hm : 0 ≤ m) :
    micros (timevalAddMsec s m) = micros s + 1000 * m ∧ TvOk (timevalAddMsec s m) := by
  unfold timevalAddMsec micros TvOk at *
  rw [Int.tdiv_eq_ediv_of_nonneg hm, Int.tmod_eq_emod_of_nonneg hm]
  simp only
  split <;> simp only <;> omega

example : timevalAddMsec ⟨10, 999999⟩ 1001 = ⟨12, 999⟩ := by decide

/-- C03: difference in milliseconds. Zero if the first time is not later (up to the second);
otherwise within one millisecond of the exact difference, unless it saturates. -/
theorem C03_minus_msec (a b : Timeval) (ha : TvOk a) (hb : TvOk b) :
    (micros a ≤ micros b → timevalMinusMsec a b = 0) ∧
    (micros b ≤ micros a → a.sec - b.sec ≤ 2000000 →
      micros a - micros b < 1000 * (timevalMinusMsec a b : Int) + 1000 ∧
      1000 * (timevalMinusMsec a b : Int) < micros a - micros b + 1000) ∧
    (2000000 < a.sec - b.sec → timevalMinusMsec a b = 2000000000) ∧
    timevalMinusMsec a b ≤ 2000000999 := by
  unfold TvOk at ha hb
  have key : ∀ x : Int, (x.tdiv 1000) * 1000 ≤ x + 999 ∧ x - 999 ≤ (x.tdiv 1000) * 1000 ∧
      (0 ≤ x → (x.tdiv 1000) * 1000 ≤ x) ∧ (x ≤ 0 → x ≤ (x.tdiv 1000) * 1000) := by
    intro x
    rcases Int.le_total 0 x with h | h
    · rw [Int.tdiv_eq_ediv_of_nonneg h]; omega
    · have : x.tdiv 1000 = -((-x) / 1000) := by
        rw [← Int.tdiv_eq_ediv_of_nonneg (by omega : 0 ≤ -x), Int.neg_tdiv]; omega
      rw [this]; omega
  have k := key (a.usec - b.usec)
  unfold timevalMinusMsec micros
  refine ⟨?_, ?_, ?_, ?_⟩
  · intro h
    repeat' split
    all_goals omega
  · intro h h2
    repeat' split
    all_goals omega
  · intro h
    repeat' split
    all_goals omega
  · repeat' split
    all_goals omega

example : timevalMinusMsec ⟨11, 1⟩ ⟨10, 999999⟩ = 1 ∧ timevalMinusMsec ⟨10, 2500⟩ ⟨10, 500⟩ = 2 := by
  decide

/-- C03: comparison is the order of points in time. -/
theorem C03_compare (a b : Timeval) (ha : TvOk a) (hb : TvOk b) :
    (timevalCompare a b = -1 ↔ micros a < micros b) ∧
    (timevalCompare a b = 0 ↔ micros a = micros b) ∧
    (timevalCompare a b = 1 ↔ micros b < micros a) ∧
    (timevalCompare a b = 0 ↔ a = b) := by
  unfold TvOk at ha hb
  obtain ⟨as, au⟩ := a
  obtain ⟨bs, bu⟩ := b
  simp only [Timeval.mk.injEq]
  simp only at ha hb
  unfold timevalCompare micros
  simp only
  repeat' split
  all_goals (refine ⟨?_, ?_, ?_, ?_⟩ <;> constructor <;> intro h <;> first | omega | (simp at h; done) | (exfalso; omega))

/-- C03: the minimum of two deadlines, where second 0 stands for "never". -/
theorem C03_min (d s : Timeval) (hd : TvOk d) (hs : TvOk s) :
    (s.sec = 0 → timevalMin d s = d) ∧
    (s.sec ≠ 0 → d.sec = 0 → timevalMin d s = s) ∧
    (s.sec ≠ 0 → d.sec ≠ 0 →
      (timevalMin d s = d ∨ timevalMin d s = s) ∧
      micros (timevalMin d s) = min (micros d) (micros s)) := by
  have hc := C03_compare d s hd hs
  refine ⟨?_, ?_, ?_⟩
  · intro h; simp [timevalMin, h]
  · intro h h'; simp [timevalMin, h, h']
  · intro h h'
    simp only [timevalMin, h, h', if_false, false_or]
    have htri : timevalCompare d s = -1 ∨ timevalCompare d s = 0 ∨ timevalCompare d s = 1 := by
      unfold timevalCompare
      repeat' split
      all_goals simp
    split
    · refine ⟨Or.inr rfl, ?_⟩
      have : timevalCompare d s = 1 := by omega
      have := hc.2.2.1.mp this
      omega
    · refine ⟨Or.inl rfl, ?_⟩
      rcases htri with h1 | h1 | h1
      · have := hc.1.mp h1; omega
      · have := hc.2.1.mp h1; omega
      · omega

/-- C03: `timeval_min_sec` gives a normalised deadline no later than second `secs` ends. -/
theorem C03_min_sec (r : Nat) (d : Timeval) (secs : Int) (hd : TvOk d) :
    TvOk (timevalMinSec r d secs) ∧ (timevalMinSec r d secs).sec ≤ secs ∧
    (d.sec ≠ 0 → (timevalMinSec r d secs).sec = min d.sec secs) ∧
    (d.sec ≠ 0 → d.sec ≤ secs → timevalMinSec r d secs = d) ∧
    (d.sec = 0 → (timevalMinSec r d secs).sec = secs) := by
  unfold timevalMinSec TvOk at *
  split <;> simp only <;> (refine ⟨?_, ?_, ?_, ?_, ?_⟩) <;> intros <;> try omega
  all_goals trivial

end Babel
