import Verif.Spec.Neighbour
import Verif.Props.Util
/- Helper lemmas for link-quality estimation. -/
set_option linter.unusedSimpArgs false
set_option linter.unusedVariables false
namespace Babel
open Spec

theorem seqnoMinus_ofNat (n p : Nat) (h1 : n ≤ p + 32767) (h2 : p ≤ n + 32768) :
    seqnoMinus (UInt16.ofNat n) (UInt16.ofNat p) = (n : Int) - p := by
  unfold seqnoMinus toShort
  rw [UInt16.toNat_sub]
  simp only [UInt16.toNat_ofNat']
  split <;> omega

theorem seqnoPlus_ofNat (p m : Nat) : seqnoPlus (UInt16.ofNat p) (m : Int) = UInt16.ofNat (p + m) := by
  unfold seqnoPlus
  apply UInt16.toNat_inj.1
  simp only [UInt16.toNat_ofNat']
  omega

theorem testBit_8000 (j : Nat) : Nat.testBit 0x8000 j = decide (j = 15) := by
  have : (0x8000 : Nat) = 2 ^ 15 := by decide
  rw [this, Nat.testBit_two_pow]
  simp [eq_comm]

theorem testBit_u16 (x j : Nat) : (u16 x).testBit j = (decide (j < 16) && x.testBit j) := by
  unfold u16
  have : (65536 : Nat) = 2 ^ 16 := by decide
  rw [this, Nat.testBit_mod_two_pow]

/-- Bits of the register after shifting in a received hello. -/
theorem push_bit (r i : Nat) (hr : r < 65536) (hi : i < 16) :
    ((r >>> 1) ||| 0x8000).testBit (15 - i) = (decide (i = 0) || r.testBit (15 - i + 1)) := by
  rw [Nat.testBit_or, testBit_8000, Nat.testBit_shiftRight, Bool.or_comm, Nat.add_comm 1]
  congr 1
  simp; omega

theorem push_lt (r : Nat) (hr : r < 65536) : ((r >>> 1) ||| 0x8000) < 65536 := by
  have : (65536 : Nat) = 2 ^ 16 := by decide
  rw [this] at *
  apply Nat.or_lt_two_pow
  · rw [Nat.shiftRight_eq_div_pow]; omega
  · decide

theorem high_bit (r j : Nat) (hr : r < 65536) (hj : 16 ≤ j) : r.testBit j = false := by
  apply Nat.testBit_lt_two_pow
  have : (65536 : Nat) = 2 ^ 16 := by decide
  rw [this] at hr
  exact Nat.lt_of_lt_of_le hr (Nat.pow_le_pow_right (by decide) hj)

/-- Bits of the register after shifting in missed hellos. -/
theorem skip_bit (h : Hist) (m j : Nat) (hr : h.reach < 65536) :
    (h.skip m).reach.testBit j = h.reach.testBit (m + j) := by
  unfold Hist.skip
  split
  · rename_i h1
    rw [high_bit _ _ hr (by omega)]
    simp
  · simp [Nat.testBit_shiftRight]

theorem skip_lt (h : Hist) (m : Nat) (hr : h.reach < 65536) : (h.skip m).reach < 65536 := by
  unfold Hist.skip
  split
  · simp
  · simp only [Nat.shiftRight_eq_div_pow]
    exact Nat.lt_of_le_of_lt (Nat.div_le_self _ _) hr

theorem missedByClock_eq (now : Timeval) (h : Hist) :
    (missedByClock now h).toNat = overdue h.interval (timevalMinusMsec now h.time) := by
  unfold missedByClock overdue
  by_cases e : h.interval = 0
  · simp [e]
  · rw [if_pos (by omega), if_neg e]
    generalize timevalMinusMsec now h.time = x
    by_cases h2 : 7 * h.interval ≤ x
    · have : ((x : Int) - h.interval * 7) = ((x - 7 * h.interval : Nat) : Int) := by omega
      rw [this, Int.tdiv_eq_ediv_of_nonneg (by omega)]
      have h3 : ((h.interval : Int) * 10) = ((10 * h.interval : Nat) : Int) := by omega
      rw [h3, ← Int.natCast_ediv, Int.toNat_natCast]
    · have h4 : x - 7 * h.interval = 0 := by omega
      rw [h4, Nat.zero_div]
      have : ((x : Int) - h.interval * 7) = -((7 * h.interval - x : Nat) : Int) := by omega
      rw [this, Int.neg_tdiv, Int.tdiv_eq_ediv_of_nonneg (by omega)]
      have h5 : 0 ≤ ((7 * h.interval - x : Nat) : Int) / ((h.interval : Int) * 10) :=
        Int.ediv_nonneg (by omega) (by omega)
      omega

theorem overdue_zero {I e : Nat} (h : I ≠ 0) : overdue I e = 0 ↔ e < 17 * I := by
  unfold overdue
  rw [if_neg h, Nat.div_eq_zero_iff]
  omega

/-- The periodic check in terms of the number of overdue hellos. -/
theorem check_eq (now : Timeval) (h : Hist) :
    h.check now =
      (let m := overdue h.interval (timevalMinusMsec now h.time)
       if m = 0 then (h, false)
       else (({ h with time := timevalAddMsec h.time (m * h.interval * 10) } : Hist).skip m, true)) := by
  unfold Hist.check
  dsimp only
  rw [← missedByClock_eq]
  generalize missedByClock now h = z
  by_cases hz : z ≤ 0
  · rw [if_pos hz, if_pos (by omega)]
  · rw [if_neg hz, if_neg (by omega)]
    have : ((z.toNat : Nat) : Int) = z := by omega
    rw [this]

/-- The register a received hello is shifted into. -/
def Hist.base (h : Hist) (hello : UInt16) : Nat :=
  let r := h.resync hello
  if r.1 > 0 then (({ h with reach := r.2.1 } : Hist).skip r.1.toNat).reach else r.2.1

theorem hear_fst (now : Timeval) (h : Hist) (s : UInt16) (iv : Nat) :
    (h.hear now s iv).1 =
      ⟨(h.base s >>> 1) ||| 0x8000, if iv = 0 then h.interval else iv, some s,
       if iv = 0 then h.time else now⟩ := by
  unfold Hist.hear Hist.base
  generalize h.resync s = r
  obtain ⟨m, r, rc⟩ := r
  dsimp only
  by_cases hm : m > 0 <;> by_cases hi : iv = 0 <;> simp [hm, hi, Hist.skip]

theorem hear_snd (now : Timeval) (h : Hist) (s : UInt16) (iv : Nat) :
    (h.hear now s iv).2 =
      (decide (((h.base s >>> 1) ||| 0x8000) &&& 0xFC00 ≠ 0xFC00) ||
        (decide ((h.resync s).1 > 0) || (h.resync s).2.2)) := by
  unfold Hist.hear Hist.base
  generalize h.resync s = r
  obtain ⟨m, r, rc⟩ := r
  dsimp only
  by_cases hm : m > 0 <;> by_cases hi : iv = 0 <;> simp [hm, hi, Hist.skip]
  all_goals split <;> simp_all

theorem and_full (x m : Nat) : x &&& m = m ↔ ∀ i, m.testBit i = true → x.testBit i = true := by
  constructor
  · intro h i hi
    have := congrArg (fun y : Nat => y.testBit i) h
    simpa [Nat.testBit_and, hi] using this
  · intro h
    apply Nat.eq_of_testBit_eq
    intro i
    rw [Nat.testBit_and]
    have := h i
    cases hm : m.testBit i <;> simp_all

theorem and_none (x m : Nat) : x &&& m = 0 ↔ ∀ i, m.testBit i = true → x.testBit i = false := by
  constructor
  · intro h i hi
    have := congrArg (fun y : Nat => y.testBit i) h
    simpa [Nat.testBit_and, hi] using this
  · intro h
    apply Nat.eq_of_testBit_eq
    intro i
    rw [Nat.testBit_and]
    have := h i
    cases hm : m.testBit i <;> simp_all

theorem testBit_C000 (i : Nat) : Nat.testBit 0xC000 i = true ↔ i = 15 ∨ i = 14 := by
  have : (0xC000 : Nat) = 2 ^ 15 ||| 2 ^ 14 := by decide
  rw [this, Nat.testBit_or, Nat.testBit_two_pow, Nat.testBit_two_pow]
  simp; omega

theorem testBit_2000 (i : Nat) : Nat.testBit 0x2000 i = true ↔ i = 13 := by
  have : (0x2000 : Nat) = 2 ^ 13 := by decide
  rw [this, Nat.testBit_two_pow]
  simp; omega

theorem testBit_FFF0 (i : Nat) : Nat.testBit 0xFFF0 i = true ↔ 4 ≤ i ∧ i < 16 := by
  have : (0xFFF0 : Nat) = (2 ^ 12 - 1) <<< 4 := by decide
  rw [this, Nat.testBit_shiftLeft, Nat.testBit_two_pow_sub_one]
  simp; omega

theorem testBit_FC00 (i : Nat) : Nat.testBit 0xFC00 i = true ↔ 10 ≤ i ∧ i < 16 := by
  have : (0xFC00 : Nat) = (2 ^ 6 - 1) <<< 10 := by decide
  rw [this, Nat.testBit_shiftLeft, Nat.testBit_two_pow_sub_one]
  simp; omega

theorem twoThree_eq (r : Nat) : twoThree r = decide (2 ≤ lastThree r) := by
  unfold twoThree lastThree
  simp only [and_full, and_none, testBit_C000, forall_eq_or_imp, forall_eq]
  have h13 : (r &&& 0x2000 ≠ 0) ↔ r.testBit 13 = true := by
    rw [ne_eq, and_none]
    simp only [testBit_2000, forall_eq]
    simp
  have h13 : decide (r &&& 0x2000 ≠ 0) = r.testBit 13 := by
    cases h : r.testBit 13
    · rw [h] at h13; simpa using h13
    · rw [h] at h13; simpa using h13
  rw [h13]
  cases r.testBit 15 <;> cases r.testBit 14 <;> cases r.testBit 13 <;> simp

theorem base_zero (h : Hist) (s : UInt16) (h0 : h.reach = 0) : h.base s = 0 := by
  unfold Hist.base Hist.resync
  cases h.seqno <;> simp [h0]

theorem base_ahead (h : Hist) (s p : UInt16) (hs : h.seqno = some p) (h0 : h.reach ≠ 0)
    (d : Nat) (hd : seqnoMinus s p = d + 1) : h.base s = if d = 0 then h.reach else (h.skip d).reach := by
  have e : h.resync s = ((d : Int), h.reach, false) := by
    unfold Hist.resync
    rw [hs]
    dsimp only
    have e : ((d : Int) + 1 - 1) = d := by omega
    rw [if_pos (by omega : h.reach > 0), hd, e, if_neg (by omega : ¬ (d : Int) < -8),
      if_neg (by omega : ¬ (d : Int) < 0)]
  unfold Hist.base
  rw [e]
  dsimp only
  by_cases hd0 : d = 0
  · subst hd0; simp
  · rw [if_pos (by omega), if_neg hd0]
    simp

theorem base_late (h : Hist) (s p : UInt16) (hs : h.seqno = some p) (h0 : h.reach ≠ 0)
    (k : Nat) (hk : k ≤ 7) (hd : seqnoMinus s p = -k) : h.base s = u16 (h.reach <<< (k + 1)) := by
  have e : h.resync s = (0, u16 (h.reach <<< (k + 1)), true) := by
    unfold Hist.resync
    rw [hs]
    dsimp only
    rw [if_pos (by omega : h.reach > 0), hd, if_neg (by omega : ¬ (-(k : Int) - 1 < -8)),
      if_pos (by omega : (-(k : Int) - 1 < 0))]
    have : (-(-(k : Int) - 1)).toNat = k + 1 := by omega
    rw [this]
  unfold Hist.base
  rw [e]
  simp

theorem base_reboot (h : Hist) (s p : UInt16) (hs : h.seqno = some p)
    (hd : seqnoMinus s p < -7) : h.base s = 0 := by
  by_cases h0 : h.reach = 0
  · exact base_zero h s h0
  have e : h.resync s = (0, 0, true) := by
    unfold Hist.resync
    rw [hs]
    dsimp only
    rw [if_pos (by omega : h.reach > 0), if_pos (by omega : seqnoMinus s p - 1 < -8)]
  unfold Hist.base
  rw [e]
  simp

theorem base_lt (h : Hist) (s : UInt16) (hr : h.reach < 65536) : h.base s < 65536 := by
  unfold Hist.base
  have : (h.resync s).2.1 < 65536 := by
    unfold Hist.resync
    split
    · exact hr
    · split
      · dsimp only
        split
        · simp
        · split
          · unfold u16; dsimp only; omega
          · exact hr
      · exact hr
  dsimp only
  split
  · exact skip_lt _ _ this
  · exact this

/-- The part of the invariant common to exact and merely honest registers. -/
structure Sync (h : Hist) (l : Log) : Prop where
  lt : h.reach < 65536
  seq : h.reach ≠ 0 → h.seqno = some (UInt16.ofNat l.pos)
  time : h.time = l.time
  interval : h.interval = l.interval
  empty : l.got = [] → h.reach = 0

theorem sync_start : Sync Hist.fresh Log.start :=
  ⟨by decide, fun h => (h rfl).elim, rfl, rfl, fun _ => rfl⟩

theorem sync_see {h : Hist} {l : Log} (s : Sync h l) (o : Obs) : Sync (h.see o) (l.see o) := by
  cases o with
  | heard now n iv =>
    unfold Hist.see Log.see
    simp only [hear_fst]
    refine ⟨push_lt _ (base_lt _ _ s.lt), fun _ => rfl, ?_, ?_, ?_⟩
    · dsimp only; rw [s.time]
    · dsimp only; rw [s.interval]
    · simp
  | check now =>
    unfold Hist.see Log.see
    simp only [check_eq]
    rw [s.interval, s.time]
    generalize overdue l.interval (timevalMinusMsec now l.time) = m
    by_cases hm : m = 0
    · subst hm; simp only [if_pos, Nat.add_zero]
      exact ⟨s.lt, s.seq, s.time, s.interval, s.empty⟩
    · rw [if_neg hm, if_neg hm]
      refine ⟨skip_lt _ _ s.lt, ?_, rfl, rfl, ?_⟩
      · intro h0
        have h1 : h.reach ≠ 0 := by
          intro e; apply h0; unfold Hist.skip; simp [e]
        unfold Hist.skip Hist.seq
        simp only [s.seq h1, Option.getD_some]
        rw [seqnoPlus_ofNat]
      · intro e
        have := s.empty e
        unfold Hist.skip; simp [this]

theorem records_see {h : Hist} {l : Log} (s : Sync h l) (hmax : ∀ n ∈ l.got, n ≤ l.pos)
    (hrec : Records h.reach l) (o : Obs) (ha : Ahead l o) :
    Records (h.see o).reach (l.see o) ∧ ∀ n ∈ (l.see o).got, n ≤ (l.see o).pos := by
  cases o with
  | heard now n iv =>
    unfold Hist.see Log.see
    simp only [hear_fst]
    refine ⟨⟨push_lt _ (base_lt _ _ s.lt), ?_⟩, ?_⟩
    · intro i hi
      dsimp only
      rw [push_bit _ _ (base_lt _ _ s.lt) hi]
      by_cases hg : l.got = []
      · rw [base_zero _ _ (s.empty hg), hg]
        simp; omega
      · obtain ⟨h1, h2⟩ := ha.resolve_left hg
        by_cases h0 : h.reach = 0
        · rw [base_zero _ _ h0]
          rw [h0] at hrec
          simp only [Nat.zero_testBit, Bool.or_false, decide_eq_true_eq, List.mem_cons]
          constructor
          · rintro rfl; simp
          · rintro ⟨h3, h4⟩
            rcases h4 with h4 | h4
            · omega
            · exfalso
              have h5 := hmax _ h4
              have h6 := (hrec.2 (l.pos - (n - i)) (by omega)).2 ⟨by omega, by
                have : l.pos - (l.pos - (n - i)) = n - i := by omega
                rwa [this]⟩
              simp at h6
        · rw [base_ahead h _ _ (s.seq h0) h0 (n - l.pos - 1) (by
            rw [seqnoMinus_ofNat _ _ (by omega) (by omega)]; omega)]
          have hb : (if n - l.pos - 1 = 0 then h.reach else (h.skip (n - l.pos - 1)).reach).testBit
              (15 - i + 1) = h.reach.testBit (n - l.pos - 1 + (15 - i + 1)) := by
            split
            · rename_i e; rw [e]; simp
            · rw [skip_bit _ _ _ s.lt]
          rw [hb]
          simp only [Bool.or_eq_true, decide_eq_true_eq, List.mem_cons]
          by_cases hi0 : i = 0
          · subst hi0; simp
          · simp only [hi0, false_or]
            by_cases hj : n - l.pos ≤ i
            · have e1 : n - l.pos - 1 + (15 - i + 1) = 15 - (i - (n - l.pos)) := by omega
              rw [e1, hrec.2 _ (by omega)]
              have e2 : l.pos - (i - (n - l.pos)) = n - i := by omega
              rw [e2]
              have : ¬ (n - i = n) ∨ n = 0 := by omega
              constructor
              · rintro ⟨a, b⟩; exact ⟨by omega, .inr b⟩
              · rintro ⟨a, b⟩
                rcases b with b | b
                · omega
                · exact ⟨by omega, b⟩
            · rw [high_bit _ _ s.lt (by omega)]
              simp only [Bool.false_eq_true, false_iff, not_and, not_or]
              intro hle
              refine ⟨by omega, fun hm => ?_⟩
              have := hmax _ hm
              omega
    · intro x hx
      rcases List.mem_cons.1 hx with rfl | hx
      · exact Nat.le_refl _
      · rcases ha with hg | ⟨h1, _⟩
        · rw [hg] at hx; simp at hx
        · have := hmax _ hx; omega
  | check now =>
    unfold Hist.see Log.see
    simp only [check_eq]
    rw [s.interval, s.time]
    generalize overdue l.interval (timevalMinusMsec now l.time) = m
    refine ⟨?_, fun x hx => by have := hmax x hx; omega⟩
    by_cases hm : m = 0
    · subst hm; simp only [if_pos, Nat.add_zero]
      exact hrec
    · rw [if_neg hm]
      refine ⟨skip_lt _ _ s.lt, ?_⟩
      intro i hi
      dsimp only
      rw [skip_bit _ _ _ (by exact s.lt)]
      dsimp only
      by_cases hj : m ≤ i
      · have e1 : m + (15 - i) = 15 - (i - m) := by omega
        rw [e1, hrec.2 _ (by omega)]
        have e2 : l.pos - (i - m) = l.pos + m - i := by omega
        rw [e2]
        constructor
        · rintro ⟨a, b⟩; exact ⟨by omega, b⟩
        · rintro ⟨a, b⟩; exact ⟨by omega, b⟩
      · rw [high_bit _ _ s.lt (by omega)]
        simp only [Bool.false_eq_true, false_iff, not_and]
        intro _ hm2
        have := hmax _ hm2
        omega

theorem honest_see {h : Hist} {l : Log} (s : Sync h l) (hrec : Honest h.reach l) (o : Obs)
    (ha : Near l o) : Honest (h.see o).reach (l.see o) := by
  cases o with
  | heard now n iv =>
    unfold Hist.see Log.see
    simp only [hear_fst]
    refine ⟨push_lt _ (base_lt _ _ s.lt), ?_⟩
    intro i hi
    dsimp only
    rw [push_bit _ _ (base_lt _ _ s.lt) hi]
    by_cases hi0 : i = 0
    · subst hi0; simp
    simp only [hi0, decide_false, Bool.false_or]
    intro hb
    by_cases h0 : h.reach = 0
    · rw [base_zero _ _ h0] at hb; simp at hb
    · have hg : l.got ≠ [] := fun e => h0 (s.empty e)
      obtain ⟨h1, h2⟩ := ha.resolve_left hg
      have hd := seqnoMinus_ofNat n l.pos h1 h2
      by_cases c1 : l.pos < n
      · rw [base_ahead h _ _ (s.seq h0) h0 (n - l.pos - 1) (by omega)] at hb
        have hb2 : h.reach.testBit (n - l.pos - 1 + (15 - i + 1)) = true := by
          revert hb
          split
          · rename_i e; rw [e]; simp
          · rw [skip_bit _ _ _ s.lt]; exact id
        by_cases hj : n - l.pos ≤ i
        · have e1 : n - l.pos - 1 + (15 - i + 1) = 15 - (i - (n - l.pos)) := by omega
          rw [e1] at hb2
          obtain ⟨h3, h4⟩ := hrec.2 _ (by omega) hb2
          have e2 : l.pos - (i - (n - l.pos)) = n - i := by omega
          rw [e2] at h4
          exact ⟨by omega, List.mem_cons_of_mem _ h4⟩
        · rw [high_bit _ _ s.lt (by omega)] at hb2
          cases hb2
      · by_cases c2 : l.pos ≤ n + 7
        · rw [base_late h _ _ (s.seq h0) h0 (l.pos - n) (by omega) (by omega), testBit_u16,
            Nat.testBit_shiftLeft] at hb
          simp only [Bool.and_eq_true, decide_eq_true_eq] at hb
          obtain ⟨_, h3, h4⟩ := hb
          have e1 : 15 - i + 1 - (l.pos - n + 1) = 15 - (i + (l.pos - n)) := by omega
          rw [e1] at h4
          obtain ⟨h5, h6⟩ := hrec.2 _ (by omega) h4
          have e2 : l.pos - (i + (l.pos - n)) = n - i := by omega
          rw [e2] at h6
          exact ⟨by omega, List.mem_cons_of_mem _ h6⟩
        · rw [base_reboot h _ _ (s.seq h0) (by omega)] at hb
          simp at hb
  | check now =>
    unfold Hist.see Log.see
    simp only [check_eq]
    rw [s.interval, s.time]
    generalize overdue l.interval (timevalMinusMsec now l.time) = m
    by_cases hm : m = 0
    · subst hm; simp only [if_pos, Nat.add_zero]
      exact hrec
    · rw [if_neg hm]
      refine ⟨skip_lt _ _ s.lt, ?_⟩
      intro i hi hb
      dsimp only at hb
      rw [skip_bit _ _ _ (by exact s.lt)] at hb
      dsimp only at hb ⊢
      by_cases hj : m ≤ i
      · have e1 : m + (15 - i) = 15 - (i - m) := by omega
        rw [e1] at hb
        obtain ⟨h3, h4⟩ := hrec.2 _ (by omega) hb
        have e2 : l.pos - (i - m) = l.pos + m - i := by omega
        rw [e2] at h4
        exact ⟨by omega, h4⟩
      · rw [high_bit _ _ s.lt (by omega)] at hb
        cases hb

end Babel
