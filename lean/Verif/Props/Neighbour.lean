import Verif.Lemmas.Neighbour
/-
C18 (hello history), C19 (link cost) and C20 (round-trip times).
-/
set_option linter.unusedSimpArgs false
set_option linter.unusedVariables false
namespace Babel
open Spec

/-! ### C18 -/

theorem run_sync (os : List Obs) : ∀ (h : Hist) (l : Log), Sync h l →
    Sync (os.foldl Hist.see h) (os.foldl Log.see l) := by
  induction os with
  | nil => exact fun _ _ h => h
  | cons o os ih => exact fun h l s => ih _ _ (sync_see s o)

/-- C18: after any sequence of hellos received in order (with any number of gaps) and periodic
checks, the register has a one exactly for the hellos received among the last 16. -/
theorem C18_register (os : List Obs) (h : Throughout Ahead Log.start os) :
    Records (os.foldl Hist.see Hist.fresh).reach (os.foldl Log.see Log.start) := by
  have aux : ∀ (os : List Obs) (h : Hist) (l : Log), Sync h l → (∀ n ∈ l.got, n ≤ l.pos) →
      Records h.reach l → Throughout Ahead l os →
      Records (os.foldl Hist.see h).reach (os.foldl Log.see l) := by
    intro os
    induction os with
    | nil => exact fun _ _ _ _ h _ => h
    | cons o os ih =>
      intro h l s m r t
      have := records_see s m r o t.1
      exact ih _ _ (sync_see s o) this.2 this.1 t.2
  refine aux os _ _ sync_start (by simp [Log.start]) ⟨by decide, ?_⟩ h
  intro i hi
  simp [Hist.fresh, Log.start]

/-- C18: even when hellos arrive late, out of order or from a neighbour that restarted, a one
in the register always stands for a hello that was received. -/
theorem C18_honest (os : List Obs) (h : Throughout Near Log.start os) :
    Honest (os.foldl Hist.see Hist.fresh).reach (os.foldl Log.see Log.start) := by
  have aux : ∀ (os : List Obs) (h : Hist) (l : Log), Sync h l →
      Honest h.reach l → Throughout Near l os →
      Honest (os.foldl Hist.see h).reach (os.foldl Log.see l) := by
    intro os
    induction os with
    | nil => exact fun _ _ _ h _ => h
    | cons o os ih =>
      intro h l s r t
      exact ih _ _ (sync_see s o) (honest_see s r o t.1) t.2
  refine aux os _ _ sync_start ⟨by decide, ?_⟩ h
  intro i hi
  simp [Hist.fresh]

/-- C18: the number, time and announced interval kept with the register are those of the log:
a hello without an interval leaves time and interval alone, and the check moves the time
forward by exactly the hellos it counted as missed, so no time is lost or counted twice. -/
theorem C18_clock (os : List Obs) :
    (os.foldl Hist.see Hist.fresh).time = (os.foldl Log.see Log.start).time ∧
    (os.foldl Hist.see Hist.fresh).interval = (os.foldl Log.see Log.start).interval ∧
    ((os.foldl Hist.see Hist.fresh).reach ≠ 0 → (os.foldl Hist.see Hist.fresh).seqno =
      some (UInt16.ofNat (os.foldl Log.see Log.start).pos)) :=
  let s := run_sync os _ _ sync_start
  ⟨s.time, s.interval, s.seq⟩

/-- C18: a check changes a history exactly when 1.7 intervals have passed since the hello last
accounted for, and says so. -/
theorem C18_overdue (now : Timeval) (h : Hist) (hi : h.interval ≠ 0) :
    ((h.check now).2 = true ↔ 17 * h.interval ≤ timevalMinusMsec now h.time) ∧
    ((h.check now).2 = false → (h.check now).1 = h) := by
  rw [check_eq]
  dsimp only
  have := overdue_zero (I := h.interval) (e := timevalMinusMsec now h.time) hi
  split
  · rename_i e; rw [this] at e; simp; omega
  · rename_i e; rw [this] at e; simp; omega

/-- C18: a history whose interval is unknown is cleared by the next check. -/
theorem C18_unknown_interval (now : Timeval) (h : Hist) (hi : h.interval = 0) :
    (h.check now).1.reach = 0 ∧ (h.check now).2 = true := by
  rw [check_eq]
  simp [hi, overdue, Hist.skip]

/-- C18: a hello more than 7 behind the last one accounted for (a restarted neighbour) clears
the history: only this hello remains. -/
theorem C18_restart (now : Timeval) (h : Hist) (p : UInt16) (hs : h.seqno = some p)
    (s : UInt16) (iv : Nat) (hd : seqnoMinus s p < -7) :
    (h.hear now s iv).1.reach = 0x8000 ∧ (h.hear now s iv).1.seqno = some s ∧
    (h.hear now s iv).2 = true := by
  rw [hear_fst, base_reboot h s p hs hd]
  refine ⟨rfl, rfl, ?_⟩
  rw [hear_snd, base_reboot h s p hs hd]
  simp

/-- C18: a hello `k ≤ 7` behind rewinds the register to where it was before the hellos it
counted after this one; only the oldest `k + 1` entries are lost. -/
theorem C18_late (now : Timeval) (h : Hist) (p : UInt16) (hs : h.seqno = some p)
    (h0 : h.reach ≠ 0) (hr : h.reach < 65536) (s : UInt16) (iv k : Nat) (hk : k ≤ 7)
    (hd : seqnoMinus s p = -k) (i : Nat) (hi : i < 16) :
    (h.hear now s iv).1.reach.testBit (15 - i) =
      (decide (i = 0) || (decide (i + k < 16) && h.reach.testBit (15 - i - k))) := by
  rw [hear_fst]
  dsimp only
  rw [push_bit _ _ (base_lt h s hr) hi, base_late h s p hs h0 k hk hd, testBit_u16,
    Nat.testBit_shiftLeft]
  by_cases hi0 : i = 0
  · simp [hi0]
  · have e1 : decide (15 - i + 1 < 16) = true := by simp; omega
    have e2 : decide (15 - i + 1 ≥ k + 1) = decide (i + k < 16) := by
      apply decide_eq_decide.2; omega
    have e3 : 15 - i + 1 - (k + 1) = 15 - i - k := by omega
    rw [e1, e2, e3]
    simp

/-- C18: a hello that is not reported as a change leaves "two of the last three" true before
and after, so the cost of a link without quality estimation is unaffected. -/
theorem C18_unreported (now : Timeval) (h : Hist) (s : UInt16) (iv : Nat)
    (hr : h.reach < 65536) (hc : (h.hear now s iv).2 = false) :
    twoThree h.reach = true ∧ twoThree (h.hear now s iv).1.reach = true := by
  rw [hear_snd] at hc
  simp only [Bool.or_eq_false_iff, decide_eq_false_iff_not, ne_eq, Classical.not_not] at hc
  obtain ⟨hf, hm, hrc⟩ := hc
  have h1 : h.base s = h.reach := by
    unfold Hist.base
    have : (h.resync s).2.1 = h.reach ∨ (h.resync s).2.2 = true := by
      unfold Hist.resync
      cases h.seqno with
      | none => simp
      | some p =>
        dsimp only
        by_cases c1 : h.reach > 0
        · by_cases c2 : seqnoMinus s p - 1 < -8
          · simp [c1, c2]
          · by_cases c3 : seqnoMinus s p - 1 < 0 <;> simp [c1, c2, c3]
        · simp [c1]
    dsimp only
    rw [if_neg hm]
    rcases this with h2 | h2
    · exact h2
    · rw [h2] at hrc; cases hrc
  rw [hear_fst]
  rw [and_full] at hf
  rw [h1] at hf ⊢
  have b := fun i hi => hf i ((testBit_FC00 i).2 hi)
  have e := fun i (hi : i < 16) => push_bit h.reach i hr hi
  have b15 := b 15 (by omega)
  have b14 := b 14 (by omega)
  have b13 := b 13 (by omega)
  have b12 := b 12 (by omega)
  have e14 := e 1 (by omega)
  have e13 := e 2 (by omega)
  have e12 := e 3 (by omega)
  simp only [Nat.reduceSub, Nat.reduceAdd] at e14 e13 e12
  rw [b14] at e14; rw [b13] at e13; rw [b12] at e12
  simp at e14 e13 e12
  simp [twoThree_eq, lastThree, b15, b14, b13, e14, e13, e12]

/-! Examples: hellos 65534, 65535, 65537 (one lost), a check 3 intervals later, then 65541. -/
namespace Demo18

def os : List Obs :=
  [.heard ⟨100, 0⟩ 65534 400, .heard ⟨104, 0⟩ 65535 400, .heard ⟨112, 0⟩ 65537 400,
   .check ⟨125, 0⟩, .heard ⟨128, 0⟩ 65541 400]

example : Throughout Ahead Log.start os ∧
    (os.foldl Hist.see Hist.fresh).reach = 0b1000101100000000 ∧
    (os.foldl Hist.see Hist.fresh).seqno = some 5 ∧
    (os.foldl Log.see Log.start).got = [65541, 65537, 65535, 65534] := by
  refine ⟨?_, by decide +kernel, by decide +kernel, by decide +kernel⟩
  simp only [os, Throughout, Ahead]
  refine ⟨.inl rfl, .inr ?_, .inr ?_, trivial, .inr ?_, trivial⟩ <;> decide +kernel

/-- A late hello: 65537 arrives after the check counted two hellos missed. -/
def late : List Obs :=
  [.heard ⟨100, 0⟩ 65535 400, .heard ⟨104, 0⟩ 65536 400, .check ⟨115, 0⟩,
   .heard ⟨116, 0⟩ 65537 400]

example : Throughout Near Log.start late ∧
    (late.take 3 |>.foldl Hist.see Hist.fresh).reach = 0b0011000000000000 ∧
    (late.foldl Hist.see Hist.fresh).reach = 0b1110000000000000 := by
  refine ⟨?_, by decide +kernel, by decide +kernel⟩
  simp only [late, Throughout, Near]
  refine ⟨.inl rfl, .inr ?_, trivial, .inr ?_, trivial⟩ <;> decide +kernel

example : seqnoMinus 3 700 < -7 ∧
    (Hist.hear ⟨9, 0⟩ ⟨0xFFFF, 400, some 700, ⟨5, 0⟩⟩ 3 400).1.reach = 0x8000 := by decide +kernel

example : (Hist.hear ⟨9, 0⟩ ⟨0xFC00, 400, some 700, ⟨5, 0⟩⟩ 701 400).2 = false := by decide +kernel
example : (Hist.hear ⟨9, 0⟩ ⟨0xF000, 400, some 700, ⟨5, 0⟩⟩ 701 400).2 = true := by decide +kernel
-- 6.8 s is 1.7 intervals of 4 s
example : (Hist.check ⟨10, 800000⟩ ⟨0xFC00, 400, some 700, ⟨4, 0⟩⟩).2 = true ∧
    (Hist.check ⟨10, 799000⟩ ⟨0xFC00, 400, some 700, ⟨4, 0⟩⟩).2 = false := by decide +kernel

end Demo18

/-! ### C19 -/

/-- No hello is known to have been received: none of the last 12 in a history, or none for
three minutes. -/
theorem C19_dead_iff (now : Timeval) (h : Hist) :
    h.dead now ↔ (∀ i, i < 12 → h.reach.testBit (15 - i) = false) ∨
      180000 ≤ timevalMinusMsec now h.time := by
  unfold Hist.dead
  rw [and_none]
  simp only [testBit_FFF0]
  constructor
  · rintro (h1 | h1)
    · exact .inl fun i hi => h1 _ (by omega)
    · exact .inr h1
  · rintro (h1 | h1)
    · refine .inl fun i hi => ?_
      have := h1 (15 - i) (by omega)
      have e : 15 - (15 - i) = i := by omega
      rwa [e] at this
    · exact .inr h1

/-- C19: without quality estimation the receive cost is the configured cost when the link is
alive and at least two of the last three hellos (multicast or unicast) were received, and
infinite otherwise. -/
theorem C19_rx_plain (now : Timeval) (i : LinkCfg) (n : Nbr) (hl : i.lq = false) :
    rxcost now i n =
      if ¬ (n.hello.dead now ∧ n.uhello.dead now) ∧
          (2 ≤ lastThree n.hello.reach ∨ 2 ≤ lastThree n.uhello.reach)
      then i.cost else INFINITY := by
  unfold rxcost
  by_cases h1 : n.hello.dead now ∧ n.uhello.dead now
  · rw [if_pos h1, if_neg (by exact fun h => h.1 h1)]
  · rw [if_neg h1]
    simp only [hl, twoThree_eq, Bool.or_eq_true, decide_eq_true_eq, h1, not_false_eq_true, true_and,
      Bool.false_eq_true, if_false]

/-- C19: on a dead link the receive cost is infinite, with or without quality estimation. -/
theorem C19_rx_dead (now : Timeval) (i : LinkCfg) (n : Nbr)
    (h1 : n.hello.dead now) (h2 : n.uhello.dead now) : rxcost now i n = INFINITY := by
  unfold rxcost
  rw [if_pos ⟨h1, h2⟩]

theorem and_le_right' (x m : Nat) : x &&& m ≤ m := Nat.and_le_right

theorem sreach_lt (r : Nat) : sreach r < 0x8000 := by
  unfold sreach
  have h1 : r &&& 0x8000 ≤ 0x8000 := Nat.and_le_right
  have h2 : r &&& 0x4000 ≤ 0x4000 := Nat.and_le_right
  have h3 : r &&& 0x3FFF ≤ 0x3FFF := Nat.and_le_right
  simp only [Nat.shiftRight_eq_div_pow]
  omega

theorem lq_ge (c r : Nat) : c ≤ (0x8000 * c) / (sreach r + 1) := by
  have := sreach_lt r
  rw [Nat.le_div_iff_mul_le (by omega), Nat.mul_comm 0x8000]
  exact Nat.mul_le_mul_left _ (by omega)

/-- C19 (partial): with quality estimation the receive cost is at least the configured cost and
at most infinity.  The lower bound needs the multiplication of the cost by the age of the last
hello not to exceed 32 bits; it holds in particular while the last hello is less than 40 s old.
See `C19_rx_wraps` for what happens otherwise. -/
theorem C19_rx_lq_partial (now : Timeval) (i : LinkCfg) (n : Nbr) (hl : i.lq = true)
    (hc : i.cost ≤ INFINITY)
    (hw : timevalMinusMsec now n.hello.time < 40000 ∨
      (0x8000 * i.cost) / (sreach n.hello.reach + 1) * (timevalMinusMsec now n.hello.time - 20000)
        + 10000 < 4294967296) :
    i.cost ≤ rxcost now i n ∧ rxcost now i n ≤ INFINITY := by
  unfold rxcost
  split
  · exact ⟨hc, Nat.le_refl _⟩
  · unfold lqCost
    have h0 := lq_ge i.cost n.hello.reach
    generalize 0x8000 * i.cost / (sreach n.hello.reach + 1) = c at h0 hw
    generalize timevalMinusMsec now n.hello.time = d at hw
    dsimp only
    refine ⟨?_, Nat.min_le_right _ _⟩
    by_cases hd : d ≥ 40000
    · rw [if_pos hd]
      have hw := hw.resolve_left (by omega)
      have e1 : u32 (c * (d - 20000)) = c * (d - 20000) := Nat.mod_eq_of_lt (by omega)
      have e2 : u32 (c * (d - 20000) + 10000) = c * (d - 20000) + 10000 := Nat.mod_eq_of_lt hw
      rw [e1, e2]
      have h3 : c ≤ (c * (d - 20000) + 10000) / 20000 := by
        rw [Nat.le_div_iff_mul_le (by omega)]
        exact Nat.le_trans (Nat.mul_le_mul_left c (by omega : 20000 ≤ d - 20000)) (Nat.le_add_right _ _)
      exact Nat.le_min.2 ⟨by omega, hc⟩
    · rw [if_neg hd]
      exact Nat.le_min.2 ⟨h0, hc⟩

theorem sreach_eq (r : Nat) (hr : r < 65536) :
    sreach r = 0x2000 * (r.testBit 15).toNat + 0x2000 * (r.testBit 14).toNat + r % 0x4000 := by
  unfold sreach
  have h1 : r &&& 0x8000 = 0x8000 * (r.testBit 15).toNat := by
    have e : ∀ i, Nat.testBit 0x8000 i = true → i = 15 := by
      intro i
      have : (0x8000 : Nat) = 2 ^ 15 := by decide
      rw [this, Nat.testBit_two_pow]; simp; omega
    cases hb : r.testBit 15
    · rw [(and_none r 0x8000).2 (fun i hi => by rw [e i hi]; exact hb)]; rfl
    · rw [(and_full r 0x8000).2 (fun i hi => by rw [e i hi]; exact hb)]; rfl
  have h2 : r &&& 0x4000 = 0x4000 * (r.testBit 14).toNat := by
    have e : ∀ i, Nat.testBit 0x4000 i = true → i = 14 := by
      intro i
      have : (0x4000 : Nat) = 2 ^ 14 := by decide
      rw [this, Nat.testBit_two_pow]; simp; omega
    cases hb : r.testBit 14
    · rw [(and_none r 0x4000).2 (fun i hi => by rw [e i hi]; exact hb)]; rfl
    · rw [(and_full r 0x4000).2 (fun i hi => by rw [e i hi]; exact hb)]; rfl
  have h3 : r &&& 0x3FFF = r % 0x4000 := Nat.and_two_pow_sub_one_eq_mod r 14
  rw [h1, h2, h3]
  cases r.testBit 15 <;> cases r.testBit 14 <;> simp

/-- C19: the value of the receive cost with quality estimation on a live link: the configured
cost divided by a weighted reception ratio, in which each of the two most recent hellos weighs
a quarter and older ones half of the next, and multiplied by the age of the last hello
in units of 20 s (less one) when that is at least 40 s. -/
theorem C19_rx_lq_value (now : Timeval) (i : LinkCfg) (n : Nbr) (hl : i.lq = true)
    (hr : n.hello.reach < 65536) (hd : ¬ (n.hello.dead now ∧ n.uhello.dead now)) (q w : Nat)
    (hw : w = 0x2000 * (n.hello.reach.testBit 15).toNat + 0x2000 * (n.hello.reach.testBit 14).toNat
      + n.hello.reach % 0x4000)
    (hq : q = 0x8000 * i.cost / (w + 1)) :
    (timevalMinusMsec now n.hello.time < 40000 → rxcost now i n = min q INFINITY) ∧
    (40000 ≤ timevalMinusMsec now n.hello.time →
      q * (timevalMinusMsec now n.hello.time - 20000) + 10000 < 4294967296 →
      rxcost now i n =
        min ((q * (timevalMinusMsec now n.hello.time - 20000) + 10000) / 20000) INFINITY) := by
  unfold rxcost
  rw [if_neg hd, if_pos hl]
  unfold lqCost
  rw [sreach_eq _ hr, ← hw, ← hq]
  dsimp only
  constructor
  · intro h; rw [if_neg (by omega)]
  · intro h h2
    rw [if_pos h]
    have e1 : u32 (q * (timevalMinusMsec now n.hello.time - 20000)) =
      q * (timevalMinusMsec now n.hello.time - 20000) := Nat.mod_eq_of_lt (by omega)
    rw [e1]
    have e2 : u32 (q * (timevalMinusMsec now n.hello.time - 20000) + 10000) =
      q * (timevalMinusMsec now n.hello.time - 20000) + 10000 := Nat.mod_eq_of_lt h2
    rw [e2]

/-- C19: when all of the last 16 hellos were received and the last one is recent, the cost is
exactly the configured cost. -/
theorem C19_rx_perfect (now : Timeval) (i : LinkCfg) (n : Nbr) (hr : n.hello.reach = 0xFFFF)
    (hd : timevalMinusMsec now n.hello.time < 40000) (hc : i.cost ≤ INFINITY) :
    rxcost now i n = i.cost := by
  have h1 : ¬ n.hello.dead now := by
    unfold Hist.dead; rw [hr]; simp; omega
  unfold rxcost
  rw [if_neg (by exact fun h => h1 h.1)]
  by_cases hl : i.lq = true
  · rw [if_pos hl, hr]
    unfold lqCost
    have : sreach 0xFFFF = 0x7FFF := by decide
    rw [this]
    dsimp only
    rw [if_neg (by omega)]
    have : 32768 * i.cost / (32767 + 1) = i.cost := by omega
    rw [this]
    exact Nat.min_eq_left hc
  · rw [if_neg hl, hr]
    simp [twoThree]

/-- C19 is false of the code in full: a neighbour with quality estimation announces hellos every
100 s, then 11 of them are lost.  The link, of configured cost 96, is then given receive cost 9:
the product of cost and age wraps around 32 bits.  The periodic check keeps the neighbour. -/
theorem C19_rx_wraps :
    ∃ (now : Timeval) (i : LinkCfg) (n0 n : Nbr),
      n0 = ((Nbr.fresh ⟨1000, 0⟩).hearHello ⟨1000, 0⟩ false 7 10000).1 ∧
      (∃ c, n0.check now = some (n, c)) ∧ i.lq = true ∧ i.cost = 96 ∧ rxcost now i n = 9 :=
  ⟨⟨2212, 844000⟩, ⟨true, true, 96, 42, 10000, 120000, 0⟩, _, _, rfl, ⟨_, rfl⟩, rfl, rfl,
    by decide +kernel⟩

/-- C19: the cost of a link is at most infinity and never less than the cost the neighbour
reported for the direction towards it. -/
theorem C19_cost_bounds (now : Timeval) (i : LinkCfg) (n : Nbr) (c : Nat)
    (ht : n.txcost ≤ INFINITY) (hp : i.maxRttPenalty ≤ 65535)
    (h : neighbourCost now i n = some c) : n.txcost ≤ c ∧ c ≤ INFINITY := by
  unfold neighbourCost at h
  by_cases h1 : i.up = true
  · simp only [h1, not_true_eq_false, if_false] at h
    by_cases h2 : n.txcost ≥ INFINITY
    · rw [if_pos h2] at h; cases h; exact ⟨ht, Nat.le_refl _⟩
    · rw [if_neg h2] at h
      by_cases h3 : rxcost now i n ≥ INFINITY
      · rw [if_pos h3] at h; cases h; exact ⟨ht, Nat.le_refl _⟩
      · rw [if_neg h3] at h
        generalize hk : (if ¬i.lq = true ∨ n.txcost < 256 ∧ rxcost now i n < 256 then n.txcost
          else u32 (u32 (max n.txcost 256 * max (rxcost now i n) 256) + 128) >>> 8) = k at h
        have hI : INFINITY = 65535 := rfl
        have hk1 : n.txcost ≤ k ∧ k ≤ 16777216 := by
          rw [← hk]
          split
          · exact ⟨Nat.le_refl _, by omega⟩
          · generalize rxcost now i n = b at *
            generalize n.txcost = a at *
            have ha : max a 256 ≤ 65534 := by omega
            have hb : max b 256 ≤ 65534 := by omega
            have hm : max a 256 * max b 256 ≤ 65534 * 65534 := Nat.mul_le_mul ha hb
            have e1 : u32 (max a 256 * max b 256) = max a 256 * max b 256 :=
              Nat.mod_eq_of_lt (by omega)
            have e2 : u32 (max a 256 * max b 256 + 128) = max a 256 * max b 256 + 128 :=
              Nat.mod_eq_of_lt (by omega)
            rw [e1, e2, Nat.shiftRight_eq_div_pow]
            have h4 : a * 256 ≤ max a 256 * max b 256 :=
              Nat.mul_le_mul (Nat.le_max_left _ _) (Nat.le_max_right _ _)
            generalize max a 256 * max b 256 = z at *
            omega
        have hr : ∀ p, rttcost now i n = some p → p < 2147483648 := by
          intro p
          unfold rttcost
          split
          · intro e; cases e; omega
          · split
            · intro e; cases e; omega
            · split
              · dsimp only
                split
                · intro e; cases e; assumption
                · intro e; cases e
              · intro e; cases e; omega
        cases hq : rttcost now i n with
        | none => rw [hq] at h; cases h
        | some p =>
          rw [hq] at h
          have := hr p hq
          cases h
          have e : u32 (k + p) = k + p := Nat.mod_eq_of_lt (by omega)
          rw [e]
          exact ⟨Nat.le_min.2 ⟨by omega, ht⟩, Nat.min_le_right _ _⟩
  · simp only [h1] at h
    simp at h
    subst h
    exact ⟨ht, Nat.le_refl _⟩

/-- C19: the cost is infinite when the interface is down, when the neighbour does not hear us
and when we do not hear it. -/
theorem C19_cost_infinite (now : Timeval) (i : LinkCfg) (n : Nbr)
    (h : i.up = false ∨ INFINITY ≤ n.txcost ∨ INFINITY ≤ rxcost now i n) :
    neighbourCost now i n = some INFINITY := by
  unfold neighbourCost
  by_cases h1 : i.up = true
  · simp only [h1, not_true_eq_false, if_false]
    by_cases h2 : n.txcost ≥ INFINITY
    · rw [if_pos h2]
    · rw [if_neg h2, if_pos]
      rcases h with h | h | h
      · rw [h1] at h; cases h
      · exact absurd h h2
      · exact h
  · simp [h1]

/-- C19: the exact cost of a live link: the reported cost (without quality estimation, or when
both directions are good) or the expected transmission count in units of 1/256, rounded, plus
the RTT penalty, capped at infinity. -/
theorem C19_cost_value (now : Timeval) (i : LinkCfg) (n : Nbr) (p : Nat)
    (hu : i.up = true) (ht : n.txcost < INFINITY) (hr : rxcost now i n < INFINITY)
    (hp : rttcost now i n = some p) (hp2 : p ≤ 65535) :
    neighbourCost now i n = some (min INFINITY (p +
      if i.lq = false ∨ (n.txcost < 256 ∧ rxcost now i n < 256) then n.txcost
      else (max n.txcost 256 * max (rxcost now i n) 256 + 128) / 256)) := by
  unfold neighbourCost
  simp only [hu, not_true_eq_false, if_false]
  rw [if_neg (by omega), if_neg (by omega), hp]
  dsimp only
  have hI : INFINITY = 65535 := rfl
  have e0 : (¬ i.lq = true ∨ n.txcost < 256 ∧ rxcost now i n < 256) ↔
      (i.lq = false ∨ (n.txcost < 256 ∧ rxcost now i n < 256)) := by simp
  generalize rxcost now i n = b at *
  generalize n.txcost = a at *
  by_cases hc : i.lq = false ∨ (a < 256 ∧ b < 256)
  · rw [if_pos hc, if_pos (e0.2 hc)]
    have e : u32 (a + p) = a + p := Nat.mod_eq_of_lt (by omega)
    rw [e, Nat.min_comm, Nat.add_comm]
  · rw [if_neg hc, if_neg (fun h => hc (e0.1 h))]
    have ha : max a 256 ≤ 65534 := by omega
    have hb : max b 256 ≤ 65534 := by omega
    have hm : max a 256 * max b 256 ≤ 65534 * 65534 := Nat.mul_le_mul ha hb
    generalize max a 256 * max b 256 = z at *
    have e1 : u32 z = z := Nat.mod_eq_of_lt (by omega)
    have e2 : u32 (z + 128) = z + 128 := Nat.mod_eq_of_lt (by omega)
    rw [e1, e2, Nat.shiftRight_eq_div_pow]
    have e3 : u32 ((z + 128) / 2 ^ 8 + p) = (z + 128) / 2 ^ 8 + p := Nat.mod_eq_of_lt (by omega)
    rw [e3, Nat.min_comm, Nat.add_comm]

/-- C19: the transmit cost reported by the neighbour is kept for at least three of the intervals
it announced, and is forgotten (set to infinity) at a check more than ten such intervals or
three minutes later, or earlier when few hellos get through. -/
theorem C19_tx_expiry (now : Timeval) (n : Nbr) :
    (n.ihuInterval > 0 → timevalMinusMsec now n.ihuTime < n.ihuInterval * 30 →
      n.resetTxcost now = (n, false)) ∧
    (n.ihuInterval > 0 → n.ihuInterval * 100 ≤ timevalMinusMsec now n.ihuTime →
      n.resetTxcost now = ({ n with txcost := INFINITY, ihuTime := now }, true)) ∧
    (n.ihuInterval = 0 → 180000 ≤ timevalMinusMsec now n.ihuTime →
      n.resetTxcost now = ({ n with txcost := INFINITY, ihuTime := now }, true)) ∧
    (n.ihuInterval = 0 ∨ n.ihuInterval * 30 ≤ timevalMinusMsec now n.ihuTime →
      n.hello.reach &&& 0xFFF0 = 0 →
      n.resetTxcost now = ({ n with txcost := INFINITY, ihuTime := now }, true)) ∧
    (timevalMinusMsec now n.ihuTime < 180000 → n.hello.reach &&& 0xFFF0 ≠ 0 →
      (n.ihuInterval > 0 → timevalMinusMsec now n.ihuTime < n.ihuInterval * 100) →
      n.resetTxcost now = (n, false)) := by
  unfold Nbr.resetTxcost
  dsimp only
  generalize timevalMinusMsec now n.ihuTime = d
  refine ⟨?_, ?_, ?_, ?_, ?_⟩
  · intro h1 h2
    rw [if_pos ⟨h1, by omega⟩]
  · intro h1 h2
    rw [if_neg (by omega), if_pos (.inr (.inr ⟨h1, by omega⟩))]
  · intro h1 h2
    rw [if_neg (by omega), if_pos (.inl h2)]
  · intro h1 h2
    rw [if_neg (by omega), if_pos (.inr (.inl h2))]
  · intro h1 h2 h3
    split
    · rfl
    · rw [if_neg]
      rintro (h | h | ⟨h, h'⟩)
      · omega
      · exact h2 h
      · have := h3 h; omega

/-- C19: the periodic check removes a neighbour exactly when, after accounting for overdue
hellos, its multicast register is empty, the clock went backwards or the last hello
accounted for is more than five minutes old. -/
theorem C19_check_removes (now : Timeval) (n : Nbr) :
    n.check now = none ↔
      ((n.hello.check now).1.reach = 0 ∨ (n.hello.check now).1.time.sec > now.sec ∨
        timevalMinusMsec now (n.hello.check now).1.time > 300000) := by
  unfold Nbr.check
  dsimp only
  split
  · simpa
  · simp_all

/-- C19: a neighbour that is kept has both histories brought up to date and its transmit cost
expired; the change flag is set exactly when something was. -/
theorem C19_check_keeps (now : Timeval) (n m : Nbr) (b : Bool) (h : n.check now = some (m, b)) :
    m.hello = (n.hello.check now).1 ∧ m.uhello = (n.uhello.check now).1 ∧
    m.rtt = n.rtt ∧ m.rttTime = n.rttTime ∧ m.ihuInterval = n.ihuInterval ∧
    (m.txcost = n.txcost ∨ m.txcost = INFINITY) ∧
    (b = false → m = n) := by
  unfold Nbr.check at h
  dsimp only at h
  split at h
  · cases h
  · rename_i hne
    generalize hr : Nbr.resetTxcost now { n with hello := (n.hello.check now).1, uhello := (n.uhello.check now).1 } = q at h
    obtain ⟨m', c⟩ := q
    simp only [Option.some.injEq, Prod.mk.injEq] at h
    obtain ⟨rfl, hb⟩ := h
    have hq : (m' = { n with hello := (n.hello.check now).1, uhello := (n.uhello.check now).1 } ∧ c = false) ∨
        (m' = { n with hello := (n.hello.check now).1, uhello := (n.uhello.check now).1,
                       txcost := INFINITY, ihuTime := now } ∧ c = true) := by
      unfold Nbr.resetTxcost at hr
      dsimp only at hr
      split at hr
      · cases hr; exact .inl ⟨rfl, rfl⟩
      · split at hr
        · cases hr; exact .inr ⟨rfl, rfl⟩
        · cases hr; exact .inl ⟨rfl, rfl⟩
    have same : ∀ hh : Hist, (hh.check now).2 = false → (hh.check now).1 = hh := by
      intro hh
      rw [check_eq]
      dsimp only
      split
      · simp
      · simp
    rcases hq with ⟨rfl, rfl⟩ | ⟨rfl, rfl⟩
    · refine ⟨rfl, rfl, rfl, rfl, rfl, .inl rfl, fun e => ?_⟩
      rw [e] at hb
      simp only [Bool.or_false, Bool.or_eq_false_iff] at hb
      rw [same _ hb.1, same _ hb.2]
    · refine ⟨rfl, rfl, rfl, rfl, rfl, .inr rfl, fun e => ?_⟩
      rw [e] at hb
      simp at hb

/-- C19: the next check is scheduled within 50 s and no later than one interval of each
neighbour's hellos and IHUs. -/
theorem C19_next_check (now : Timeval) (ns : List Nbr) :
    (checkNeighbours now ns).2 ≤ 50000 ∧
    ∀ x ∈ (checkNeighbours now ns).1,
      (x.1.hello.interval > 0 → (checkNeighbours now ns).2 ≤ x.1.hello.interval * 10) ∧
      (x.1.uhello.interval > 0 → (checkNeighbours now ns).2 ≤ x.1.uhello.interval * 10) ∧
      (x.1.ihuInterval > 0 → (checkNeighbours now ns).2 ≤ x.1.ihuInterval * 10) := by
  unfold checkNeighbours
  dsimp only
  generalize ns.filterMap (Nbr.check now) = l
  have step : ∀ (m : Nat) (n : Nbr), n.nextCheck m ≤ m ∧
      (n.hello.interval > 0 → n.nextCheck m ≤ n.hello.interval * 10) ∧
      (n.uhello.interval > 0 → n.nextCheck m ≤ n.uhello.interval * 10) ∧
      (n.ihuInterval > 0 → n.nextCheck m ≤ n.ihuInterval * 10) := by
    intro m n
    unfold Nbr.nextCheck
    dsimp only
    repeat' split
    all_goals omega
  have mono : ∀ (l : List (Nbr × Bool)) (m : Nat), l.foldl (fun m x => x.1.nextCheck m) m ≤ m := by
    intro l
    induction l with
    | nil => exact fun _ => Nat.le_refl _
    | cons x l ih => exact fun m => Nat.le_trans (ih _) (step m x.1).1
  refine ⟨mono l _, ?_⟩
  generalize 50000 = m0
  induction l generalizing m0 with
  | nil => simp
  | cons y l ih =>
    intro x hx
    rcases List.mem_cons.1 hx with rfl | hx
    · have h1 := mono l (x.1.nextCheck m0)
      have h2 := step m0 x.1
      refine ⟨fun h => ?_, fun h => ?_, fun h => ?_⟩ <;> simp only [List.foldl_cons]
      · have := h2.2.1 h; omega
      · have := h2.2.2.1 h; omega
      · have := h2.2.2.2 h; omega
    · exact ih _ x hx

/-- C19: hellos and IHUs update only the part of the neighbour they are about; an IHU is
reported as a change exactly when it changes the transmit cost. -/
theorem C19_heard (now : Timeval) (n : Nbr) (u : Bool) (s : UInt16) (iv c : Nat) :
    (n.hearHello now true s iv).1 = { n with uhello := (n.uhello.hear now s iv).1 } ∧
    (n.hearHello now false s iv).1 = { n with hello := (n.hello.hear now s iv).1 } ∧
    (n.hearHello now true s iv).2 = (n.uhello.hear now s iv).2 ∧
    (n.hearHello now false s iv).2 = (n.hello.hear now s iv).2 ∧
    (n.hearIhu now c iv).1 = { n with txcost := c, ihuTime := now, ihuInterval := iv } ∧
    ((n.hearIhu now c iv).2 = true ↔ c ≠ n.txcost) := by
  refine ⟨rfl, rfl, rfl, rfl, rfl, ?_⟩
  simp [Nbr.hearIhu]

/-! Examples: a neighbour heard three times out of four, hearing us with cost 300. -/
namespace Demo19

def nbr : Nbr :=
  ⟨⟨0b1011000000000000, 400, some 9, ⟨100, 0⟩⟩, Hist.fresh, 300, ⟨98, 0⟩, 1200, 50000, ⟨99, 0⟩⟩
def wired : LinkCfg := ⟨true, false, 96, 42, 10000, 120000, 0⟩
def radio : LinkCfg := ⟨true, true, 256, 42, 10000, 120000, 0⟩
def tunnel : LinkCfg := ⟨true, false, 96, 42, 10000, 120000, 110⟩

example : rxcost ⟨101, 0⟩ wired nbr = 96 := by decide +kernel
example : neighbourCost ⟨101, 0⟩ wired nbr = some 300 := by decide +kernel
example : rxcost ⟨101, 0⟩ radio nbr = 409 := by decide +kernel
example : neighbourCost ⟨101, 0⟩ radio nbr = some 479 := by decide +kernel
example : neighbourCost ⟨101, 0⟩ tunnel nbr = some 340 := by decide +kernel
example : neighbourCost ⟨101, 0⟩ wired { nbr with hello := { nbr.hello with reach := 0x9000 } } =
    some INFINITY := by decide +kernel
example : (nbr.check ⟨101, 0⟩).isSome = true := by decide +kernel
example : nbr.check ⟨401, 0⟩ = none := by decide +kernel
example : (checkNeighbours ⟨101, 0⟩ [nbr]).2 = 4000 := by decide +kernel
example : (nbr.resetTxcost ⟨133, 0⟩) = (nbr, false) ∧ (nbr.resetTxcost ⟨218, 0⟩).2 = true := by
  decide +kernel

end Demo19

/-! ### C20 -/

/-- C20: the penalty as a function of the smoothed RTT: nothing up to `rtt-min`, the maximum
from `rtt-max` on, and linear (rounded down) in between; no assertion fails. -/
theorem C20_penalty (now : Timeval) (i : LinkCfg) (n : Nbr) (hm : i.rttMin < i.rttMax)
    (hp : i.maxRttPenalty ≤ 65535) (hv : timevalMinusMsec now n.rttTime < 180000) :
    (n.rtt ≤ i.rttMin → rttcost now i n = some 0) ∧
    (i.rttMax ≤ n.rtt → rttcost now i n = some i.maxRttPenalty) ∧
    (i.rttMin < n.rtt → n.rtt < i.rttMax → rttcost now i n =
      some (i.maxRttPenalty * (n.rtt - i.rttMin) / (i.rttMax - i.rttMin))) := by
  have mid : i.rttMin < n.rtt → n.rtt ≤ i.rttMax → rttcost now i n =
      some (i.maxRttPenalty * (n.rtt - i.rttMin) / (i.rttMax - i.rttMin)) := by
    intro h1 h2
    unfold rttcost
    by_cases h0 : i.maxRttPenalty = 0
    · rw [if_pos (.inl h0), h0]; simp
    · rw [if_neg (by simp only [h0, false_or, Classical.not_not]; exact hv), if_neg (by omega), if_pos h2]
      dsimp only
      rw [if_pos]
      have : i.maxRttPenalty * (n.rtt - i.rttMin) / (i.rttMax - i.rttMin) ≤ i.maxRttPenalty := by
        apply Nat.div_le_of_le_mul
        rw [Nat.mul_comm]
        exact Nat.mul_le_mul_right _ (by omega)
      omega
  refine ⟨?_, ?_, fun h1 h2 => mid h1 (by omega)⟩
  · intro h
    unfold rttcost
    split
    · rfl
    · rfl
  · intro h
    by_cases h2 : n.rtt = i.rttMax
    · rw [mid (by omega) (by omega), h2, Nat.mul_div_cancel _ (by omega)]
    · unfold rttcost
      split
      · rename_i h0
        rcases h0 with h0 | h0
        · rw [h0]
        · exact absurd (show validRtt now n from hv) h0
      · rw [if_neg (by omega), if_neg (by omega)]

/-- C20: no penalty without a sample in the last three minutes. -/
theorem C20_penalty_stale (now : Timeval) (i : LinkCfg) (n : Nbr) (hv : 180000 ≤ timevalMinusMsec now n.rttTime) :
    rttcost now i n = some 0 := by
  unfold rttcost
  rw [if_pos (.inr (by unfold validRtt; omega))]

/-- C20: the penalty is bounded by the configured maximum and monotone in the RTT. -/
theorem C20_penalty_monotone (now : Timeval) (i : LinkCfg) (n m : Nbr) (hm : i.rttMin < i.rttMax)
    (hp : i.maxRttPenalty ≤ 65535) (ht : n.rttTime = m.rttTime) (hle : n.rtt ≤ m.rtt) :
    ∃ a b, rttcost now i n = some a ∧ rttcost now i m = some b ∧ a ≤ b ∧
      b ≤ i.maxRttPenalty := by
  by_cases hv : validRtt now n
  · have hv' : validRtt now m := by unfold validRtt at *; rwa [← ht]
    obtain ⟨n1, n2, n3⟩ := C20_penalty now i n hm hp hv
    obtain ⟨m1, m2, m3⟩ := C20_penalty now i m hm hp hv'
    have bound : ∀ r, r < i.rttMax →
        i.maxRttPenalty * (r - i.rttMin) / (i.rttMax - i.rttMin) ≤ i.maxRttPenalty := by
      intro r hr
      apply Nat.div_le_of_le_mul
      rw [Nat.mul_comm]
      exact Nat.mul_le_mul_right _ (by omega)
    by_cases a1 : n.rtt ≤ i.rttMin
    · by_cases b1 : m.rtt ≤ i.rttMin
      · exact ⟨_, _, n1 a1, m1 b1, Nat.le_refl _, Nat.zero_le _⟩
      · by_cases b2 : i.rttMax ≤ m.rtt
        · exact ⟨_, _, n1 a1, m2 b2, Nat.zero_le _, Nat.le_refl _⟩
        · exact ⟨_, _, n1 a1, m3 (by omega) (by omega), Nat.zero_le _, bound _ (by omega)⟩
    · by_cases a2 : i.rttMax ≤ n.rtt
      · exact ⟨_, _, n2 a2, m2 (by omega), Nat.le_refl _, Nat.le_refl _⟩
      · by_cases b2 : i.rttMax ≤ m.rtt
        · exact ⟨_, _, n3 (by omega) (by omega), m2 b2, bound _ (by omega), Nat.le_refl _⟩
        · refine ⟨_, _, n3 (by omega) (by omega), m3 (by omega) (by omega), ?_, bound _ (by omega)⟩
          exact Nat.div_le_div_right (Nat.mul_le_mul_left _ (by omega))
  · have hv' : ¬ validRtt now m := by unfold validRtt at *; rwa [← ht]
    exact ⟨0, 0, C20_penalty_stale now i n (Nat.not_lt.1 hv), C20_penalty_stale now i m (Nat.not_lt.1 hv'), Nat.le_refl _,
      Nat.zero_le _⟩

/-- C20: the parameters an interface gets from any configuration accepted by the parser satisfy
the hypotheses of the theorems above: `rtt-min < rtt-max`, decay between 1 and 256. -/
theorem C20_params (d a b p : Nat) (t : Bool) (hd : d ≤ 256) (ha : a ≤ 2147483647)
    (hb : b ≤ 2147483647) (hp : p ≤ 65535) :
    1 ≤ (rttParams d a b p t).1 ∧ (rttParams d a b p t).1 ≤ 256 ∧
    (rttParams d a b p t).2.1 < (rttParams d a b p t).2.2.1 ∧
    (rttParams d a b p t).2.2.2 ≤ 65535 ∧
    (d ≠ 0 → (rttParams d a b p t).1 = d) ∧ (a ≠ 0 → (rttParams d a b p t).2.1 = a) ∧
    (b ≠ 0 → a ≠ 0 → a < b → (rttParams d a b p t).2.2.1 = b) ∧
    (p ≠ 0 ∨ t = false → (rttParams d a b p t).2.2.2 = p) := by
  unfold rttParams u32
  dsimp only
  refine ⟨?_, ?_, ?_, ?_, ?_, ?_, ?_, ?_⟩
  · split <;> omega
  · split <;> omega
  · repeat' split
    all_goals omega
  · split <;> omega
  · intro h; rw [if_pos (by omega)]
  · intro h; rw [if_pos (by omega)]
  · intro h h' h''
    rw [if_pos (by omega : b > 0), if_pos (by omega : a > 0), if_neg (by omega)]
  · rintro (h | h) <;> simp [h]

/-- C20 (partial): the smoothed RTT lies between the previous estimate and the new sample, and
moves strictly towards a different sample.  It is assumed that neither exceeds 16.7 s; see
`C20_smooth_wraps`. -/
theorem C20_smooth_partial (d old rtt : Nat) (hd1 : 1 ≤ d) (hd : d ≤ 256)
    (ho : old ≤ 16777215) (hr : rtt ≤ 16777215) :
    min old rtt ≤ smoothRtt d old rtt ∧ smoothRtt d old rtt ≤ max old rtt ∧
    (rtt < old → smoothRtt d old rtt < old) ∧ (old < rtt → old < smoothRtt d old rtt) := by
  unfold smoothRtt
  have e0 : u32 (256 - d) = 256 - d := Nat.mod_eq_of_lt (by omega)
  have hs : ∀ x y, x ≤ y → d * x + (256 - d) * x = 256 * x ∧ d * x ≤ d * y ∧
      (256 - d) * x ≤ (256 - d) * y ∧ d * x + (256 - d) * y ≤ 256 * y := by
    intro x y h
    have h1 : d * x + (256 - d) * x = 256 * x := by
      rw [← Nat.add_mul]; congr 1; omega
    have h2 : d * y + (256 - d) * y = 256 * y := by
      rw [← Nat.add_mul]; congr 1; omega
    have h3 : d * x ≤ d * y := Nat.mul_le_mul_left _ h
    have h4 : (256 - d) * x ≤ (256 - d) * y := Nat.mul_le_mul_left _ h
    exact ⟨h1, h3, h4, by omega⟩
  have hlt : ∀ x y, x < y → d * x + d ≤ d * y := by
    intro x y h
    have := Nat.mul_le_mul_left d (show x + 1 ≤ y from h)
    rw [Nat.mul_add] at this; omega
  rw [e0]
  dsimp only
  by_cases h : rtt ≤ old
  · obtain ⟨h1, h2, h3, h4⟩ := hs rtt old h
    have h5 := (hs old old (Nat.le_refl _)).1
    have h6 := hlt rtt old
    have e1 : u32 (d * rtt + (256 - d) * old) = d * rtt + (256 - d) * old :=
      Nat.mod_eq_of_lt (by omega)
    rw [e1, if_pos h]
    omega
  · obtain ⟨h1, h2, h3, h4⟩ := hs old rtt (by omega)
    have h5 := (hs rtt rtt (Nat.le_refl _)).1
    have h6 := hlt old rtt (by omega)
    have e1 : u32 (d * rtt + (256 - d) * old) = d * rtt + (256 - d) * old :=
      Nat.mod_eq_of_lt (by omega)
    have e2 : u32 (d * rtt + (256 - d) * old + 255) = d * rtt + (256 - d) * old + 255 :=
      Nat.mod_eq_of_lt (by omega)
    rw [e1, if_neg h, e2]
    omega

/-- C20: below 16.7 s the new estimate is the average of estimate and sample with weights
`256 - decay` and `decay`, rounded towards the sample. -/
theorem C20_smooth_value_partial (d old rtt : Nat) (hd : d ≤ 256)
    (ho : old ≤ 16777215) (hr : rtt ≤ 16777215) :
    smoothRtt d old rtt =
      if rtt ≤ old then (d * rtt + (256 - d) * old) / 256
      else (d * rtt + (256 - d) * old + 255) / 256 := by
  unfold smoothRtt
  have e0 : u32 (256 - d) = 256 - d := Nat.mod_eq_of_lt (by omega)
  have h1 : d * rtt ≤ d * 16777215 := Nat.mul_le_mul_left _ hr
  have h2 : (256 - d) * old ≤ (256 - d) * 16777215 := Nat.mul_le_mul_left _ ho
  have h3 : d * 16777215 + (256 - d) * 16777215 = 256 * 16777215 := by
    rw [← Nat.add_mul]; congr 1; omega
  rw [e0]
  dsimp only
  have e1 : u32 (d * rtt + (256 - d) * old) = d * rtt + (256 - d) * old :=
    Nat.mod_eq_of_lt (by omega)
  have e2 : u32 (d * rtt + (256 - d) * old + 255) = d * rtt + (256 - d) * old + 255 :=
    Nat.mod_eq_of_lt (by omega)
  rw [e1, e2]

/-- C20 is false of the code in full: with an estimate of 20 s and a sample of 20 s (both are
accepted), the new estimate is 3.2 s. -/
theorem C20_smooth_wraps : smoothRtt 42 20000000 20000000 = 3222784 := by decide +kernel

/-- C20: the RTT sample is the time between our hello and the reply, minus the time the
neighbour held it, independently of the offset between the two clocks and of the wrapping of
timestamps; it is rejected when either time is negative or more than ten minutes. -/
theorem C20_sample (t1 t2 t3 t4 : Timeval) (hL : 0 ≤ micros t4 - micros t1)
    (hL2 : micros t4 - micros t1 < 2147483648)
    (hR : 0 ≤ micros t3 - micros t2) (hR2 : micros t3 - micros t2 < 2147483648) :
    rttSample (timeUs t3) (timeUs t2) (timeUs t4) (timeUs t1) =
      if micros t3 - micros t2 ≤ 600000000 ∧ micros t4 - micros t1 ≤ 600000000 then
        some ((micros t4 - micros t1) - (micros t3 - micros t2)).toNat
      else none := by
  have key : ∀ a b : Timeval, 0 ≤ micros a - micros b → micros a - micros b < 2147483648 →
      rttSample.toInt32 (timeUs a + 4294967296 - timeUs b) = micros a - micros b := by
    intro a b h1 h2
    unfold rttSample.toInt32 timeUs u32
    unfold micros at *
    split <;> omega
  unfold rttSample
  dsimp only
  rw [key t3 t2 hR hR2, key t4 t1 hL hL2]
  split
  · rw [if_neg (by omega)]
  · rw [if_pos (by omega)]

/-- C20: samples are at most ten minutes, so that the assertion in the code holds and doubling
the first sample does not overflow. -/
theorem C20_sample_bound (a b c d r : Nat) (h : rttSample a b c d = some r) : r ≤ 600000000 := by
  unfold rttSample at h
  dsimp only at h
  split at h
  · cases h
  · cases h; omega

/-- C20: a first sample is doubled, later ones are averaged in; the sample is dated. -/
theorem C20_add (now : Timeval) (i : LinkCfg) (n : Nbr) (r : Nat) (hr : r ≤ 600000000) :
    (timevalMinusMsec now n.rttTime < 180000 → (n.addRtt now i r).1.rtt = smoothRtt i.rttDecay n.rtt r) ∧
    (180000 ≤ timevalMinusMsec now n.rttTime → (n.addRtt now i r).1.rtt = 2 * r) ∧
    (n.addRtt now i r).1.rttTime = now ∧ (n.addRtt now i r).1.txcost = n.txcost ∧
    (n.addRtt now i r).1.hello = n.hello ∧ (n.addRtt now i r).1.uhello = n.uhello := by
  unfold Nbr.addRtt
  refine ⟨?_, ?_, rfl, rfl, rfl, rfl⟩
  · intro h
    have h : validRtt now n := h
    simp [h]
  · intro h
    have h : ¬ validRtt now n := by unfold validRtt; omega
    simp only [h, if_false]
    exact Nat.mod_eq_of_lt (by omega)

/-- C20: a change of penalty caused by a later sample is reported, so that route metrics are
recomputed. -/
theorem C20_reported_partial (now : Timeval) (i : LinkCfg) (n : Nbr) (r : Nat)
    (hv : timevalMinusMsec now n.rttTime < 180000) :
    (n.addRtt now i r).2 = true ↔ rttcost now i (n.addRtt now i r).1 ≠ rttcost now i n := by
  have hv : validRtt now n := hv
  have h0 : validRtt now (n.addRtt now i r).1 := by
    unfold validRtt Nbr.addRtt
    simp [timevalMinusMsec]
  have h2 : ∀ x y : Nbr, x.rtt = y.rtt → validRtt now x → validRtt now y →
      rttcost now i x = rttcost now i y := by
    intro x y h hx hy
    unfold rttcost
    simp [h, hx, hy]
  have h3 : validRtt now { n with rtt := smoothRtt i.rttDecay n.rtt r } := hv
  rw [h2 (n.addRtt now i r).1 { n with rtt := smoothRtt i.rttDecay n.rtt r }
    (by simp [Nbr.addRtt, hv]) h0 h3]
  simp [Nbr.addRtt, hv]

/-- The restriction to later samples is needed: the penalty caused by the first sample is not
reported (the code compares before dating the sample), and routes keep their metrics. -/
theorem C20_first_unreported :
    ∃ (now : Timeval) (i : LinkCfg) (r : Nat),
      rttcost now i ((Nbr.fresh now).addRtt now i r).1 ≠ rttcost now i (Nbr.fresh now) ∧
      ((Nbr.fresh now).addRtt now i r).2 = false :=
  ⟨⟨1000, 0⟩, Demo19.tunnel, 40000, by decide +kernel, by decide +kernel⟩

namespace Demo20
open Demo19
example : rttcost ⟨101, 0⟩ tunnel nbr = some 40 := by decide +kernel
example : tunnel.rttMin < tunnel.rttMax ∧ tunnel.maxRttPenalty ≤ 65535 ∧ validRtt ⟨101, 0⟩ nbr := by
  decide +kernel
example : smoothRtt 42 50000 80000 = 54922 ∧ smoothRtt 42 80000 50000 = 75078 := by decide +kernel
-- 30 ms round trip, 5 ms of it at the neighbour, clocks 3 hours apart
example : rttSample (timeUs ⟨11000, 20000⟩) (timeUs ⟨11000, 15000⟩) (timeUs ⟨200, 40000⟩)
    (timeUs ⟨200, 10000⟩) = some 25000 := by decide +kernel
example : rttParams 0 0 0 0 true = (42, 10000, 120000, 96) := by decide +kernel
example : rttParams 0 200000 0 0 false = (42, 200000, 210000, 0) := by decide +kernel
example : (nbr.addRtt ⟨101, 0⟩ tunnel 90000).2 = true := by decide +kernel
end Demo20

end Babel
