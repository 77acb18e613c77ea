import Verif.Lemmas.Smooth
import Verif.Lemmas.Demo
/-
C31 metrics and their smoothing.
-/
set_option linter.unusedSimpArgs false
set_option linter.unusedVariables false
namespace Babel
open Spec

/-- C31: the metric of a route is the announced metric plus link cost plus filter addition, or infinity if
that is larger. -/
theorem C31_metric (r : Route) :
    (r.refmetric + r.cost + r.addMetric < INFINITY → routeMetric r = r.refmetric + r.cost + r.addMetric) ∧
    (INFINITY ≤ r.refmetric + r.cost + r.addMetric → routeMetric r = INFINITY) := by
  unfold routeMetric; omega

theorem routeMetric_le (r : Route) : routeMetric r < 65536 := by
  unfold routeMetric INFINITY; omega

/-- C31: recomputing the smoothed metric, whenever it is done and whatever the random numbers are, gives a
value between the previous one and the metric.  (The smoothed metric is an unsigned short.) -/
theorem C31_between (halfLife : Nat) (now : Int) (rnd : Nat → Nat) (r : Route) (h : r.smoothed < 65536) :
    min r.smoothed (routeMetric r) ≤ (smoothedMetric halfLife now rnd r).1 ∧
    (smoothedMetric halfLife now rnd r).1 ≤ max r.smoothed (routeMetric r) := by
  unfold smoothedMetric
  simp only
  split
  · simp only; omega
  · next hc =>
    have := smoothLoop_between halfLife (routeMetric r) now (now - r.smoothedTime).toNat rnd r.smoothed
      r.smoothedTime (by omega) (routeMetric_le r) h
    simp only
    unfold smoothSnap
    simp only
    split <;> omega

theorem shrink30 : Nat.repeat shrink 30 65535 ≤ 3 := by decide +kernel

/-- C31: without smoothing, for an unreachable route, or if the last computation was at least 30
half-lives ago, the smoothed metric is the metric. -/
theorem C31_reached (halfLife : Nat) (now : Int) (rnd : Nat → Nat) (r : Route) (h : r.smoothed < 65536)
    (ht : halfLife = 0 ∨ INFINITY ≤ routeMetric r ∨ r.smoothedTime + 30 * halfLife ≤ now) :
    (smoothedMetric halfLife now rnd r).1 = routeMetric r := by
  unfold smoothedMetric
  simp only
  split
  · rfl
  · next hc =>
    have hl1 : 1 ≤ halfLife := by omega
    have ht' : r.smoothedTime + 30 * halfLife ≤ now := by omega
    have hm := routeMetric_le r
    have := smoothLoop_shrinks halfLife (routeMetric r) now (now - r.smoothedTime).toNat rnd r.smoothed
      r.smoothedTime hl1 hm h 30 65535 (by unfold dist; omega) (by omega) (by omega)
    replace this := Nat.le_trans this shrink30
    simp only
    unfold smoothSnap dist at *
    simp only
    split
    · rfl
    · omega

/-- The claim that the smoothed metric reaches the metric is false if the computation is done every second:
with a half-life of 4 s (the default), a smoothed metric that is 4 or 5 away from the metric stays there
forever, since the increment is rounded to 0. -/
theorem C31_stuck (now : Int) (rnd : Nat → Nat) (r : Route) (hm : routeMetric r < INFINITY)
    (hd : r.smoothed = routeMetric r + 4 ∨ r.smoothed = routeMetric r + 5) (hs : r.smoothed < 65536)
    (ht : now = r.smoothedTime + 1) : (smoothedMetric 4 now rnd r).1 = r.smoothed := by
  subst ht
  have hinc : smoothInc 4 (rnd 0) (routeMetric r) r.smoothed false = 0 := by
    rw [smoothInc_neg_eq]
    unfold smoothInc twoToTheOneOverHl
    simp only [Bool.false_eq_true, if_false]
    have h4 : (r.smoothed : Int) - routeMetric r = 4 ∨ (r.smoothed : Int) - routeMetric r = 5 := by omega
    have : roughly (rnd 0) ((r.smoothed : Int) - routeMetric r) = 3 ∨
        roughly (rnd 0) ((r.smoothed : Int) - routeMetric r) = 4 := by
      rcases h4 with e | e <;> rw [e, roughly_pos_val _ _ (by omega), if_neg (by omega)] <;> omega
    rcases this with e | e <;> rw [e] <;> decide
  unfold smoothedMetric
  simp only
  rw [if_neg (by omega)]
  have e : (r.smoothedTime + 1 - r.smoothedTime).toNat = 1 := by omega
  rw [e]
  simp only [smoothLoop]
  rw [if_neg (by omega), if_pos (by omega)]
  simp only [hinc]
  unfold smoothSnap
  simp only
  rw [if_neg (by omega)]
  omega

/-- C31: the product computed by the smoothing (the only multiplication by a large factor) fits a C int,
unless the half-life is 2. -/
theorem C31_no_overflow_partial (halfLife r m sm : Nat) (h2 : halfLife ≠ 2) (h1 : 2 ≤ halfLife)
    (hm : m < 65536) (hs : sm < 65536) :
    -INT_MAX ≤ roughly r ((m : Int) - sm) * (twoToTheOneOverHl halfLife - 65536) ∧
    roughly r ((m : Int) - sm) * (twoToTheOneOverHl halfLife - 65536) ≤ INT_MAX := by
  have hF : 0 ≤ twoToTheOneOverHl halfLife - 65536 ∧ twoToTheOneOverHl halfLife - 65536 ≤ 17034 := by
    have h0 := hl_factor halfLife h1
    refine ⟨h0.1, ?_⟩
    unfold twoToTheOneOverHl
    split
    · omega
    · omega
    · omega
    · omega
    · omega
    · next n h0 h1 h2 h3 h4 =>
      have h8 : (45426 : Int) / halfLife ≤ 17034 := by
        apply Int.le_of_lt_add_one
        apply Int.ediv_lt_of_lt_mul (by omega)
        omega
      omega
  generalize twoToTheOneOverHl halfLife - 65536 = F at hF
  have key : ∀ x : Int, 0 ≤ x → x < 65536 → 0 ≤ roughly r x * F ∧ roughly r x * F ≤ INT_MAX := by
    intro x h0 h1
    obtain ⟨-, a2, a3⟩ := roughly_nonneg r x h0
    refine ⟨Int.mul_nonneg a3 hF.1, ?_⟩
    have : roughly r x * F ≤ roughly r x * 17034 := Int.mul_le_mul_of_nonneg_left hF.2 a3
    unfold INT_MAX; omega
  by_cases h : sm ≤ m
  · have := key ((m : Int) - sm) (by omega) (by omega)
    unfold INT_MAX at *
    omega
  · have e : (m : Int) - sm = -((sm : Int) - m) := by omega
    have := key ((sm : Int) - m) (by omega) (by omega)
    rw [e, roughly_negate, Int.neg_mul]
    unfold INT_MAX at *
    omega

/-- Smoothing with a half-life of 2 s. -/
def Demo.smoothCfg : Cfg := { Demo.cfg with halfLife := 2 }

/-- A route is announced, retracted, and announced again; a second passes. -/
def Demo.flapping : St := run Demo.smoothCfg Demo.start
  [.update (some (Demo.rid 9)) (Demo.key 1) 7 200 400 1 (some (Demo.ll 1)),
   .update (some (Demo.rid 9)) (Demo.key 1) 7 65535 400 1 (some (Demo.ll 1)),
   .update (some (Demo.rid 9)) (Demo.key 1) 8 10 400 1 (some (Demo.ll 1)), .tick ⟨1001, 0⟩]

/-- C31: with a half-life of 2 the computation does overflow, in a reachable state: the smoothing of this
route at this time multiplies beyond INT_MAX for some outcome of random(). -/
theorem C31_overflow_half_life_2 :
    Reachable Demo.smoothCfg Demo.flapping ∧
    ∃ r ∈ Demo.flapping.routes, routeMetric r < INFINITY ∧ r.smoothedTime < Demo.flapping.now.sec ∧
      Demo.flapping.now.sec < r.smoothedTime + Demo.smoothCfg.halfLife ∧
      roughly 32000 ((routeMetric r : Int) - r.smoothed) *
        (twoToTheOneOverHl Demo.smoothCfg.halfLife - 65536) < -INT_MAX - 1 := by
  refine ⟨Demo.reachable_run (.init ..) _, ?_⟩
  decide +kernel

/-- The half-life of the smoothing is respected: a difference of 1000 becomes about 500 after 4 s. -/
example : (smoothedMetric 4 1004 (fun _ => 250) ⟨[], Demo.key 1, 100, 100, 0, 0, 1, [], 0, 0, 1200, 1000, false⟩).1 = 700 ∧
    (smoothedMetric 4 1120 (fun i => i) ⟨[], Demo.key 1, 100, 100, 0, 0, 1, [], 0, 0, 1200, 1000, false⟩).1 = 200 ∧
    (smoothedMetric 4 1001 (fun i => i) ⟨[], Demo.key 1, 100, 100, 0, 0, 1, [], 0, 0, 205, 1000, false⟩).1 = 205 := by
  decide +kernel

end Babel
