import Verif.Lemmas.Store
import Verif.Props.Selected
/-
C28 choice among the routes to a destination.
-/
set_option linter.unusedSimpArgs false
set_option linter.unusedVariables false
namespace Babel
open Spec

theorem usable_iff (s : St) (fe : Bool) (ex : Option NeighId) (r : Route) :
    routeAcceptable s r fe ex = true ↔ Usable s fe ex r := by
  unfold routeAcceptable Usable
  have hf : routeFeasible s r = true ↔ Feasible (s.sources.find? (·.skey == r.skey)) s.now.sec (r.seqno, r.refmetric) :=
    updateFeasible_iff
  rw [← hf]
  unfold routeExpired
  cases fe <;> cases h : routeFeasible s r <;> simp [h] <;> omega

/-- C28: if a best route to `k` is found, it is a candidate, and no candidate has a smaller smoothed
metric; all smoothed metrics that were compared have just been computed. -/
theorem C28_best {c : Cfg} {s : St} (h : Reachable c s) {k : PKey} {fe : Bool} {ex : Option NeighId}
    {b : NeighId} {s' : St} (hb : findBest c s k fe ex = (some b, s')) :
    ∃ rb ∈ s'.routes, rb.key = k ∧ rb.neigh = b ∧ Usable s' fe ex rb ∧
      ∀ r ∈ s'.routes, r.key = k → Usable s' fe ex r → r ≠ rb →
        rb.smoothed ≤ r.smoothed ∧ r.smoothedTime = s'.now.sec ∧ rb.smoothedTime = s'.now.sec := by
  have hbest := findBest_best c s k fe ex
  have hfr := findBest_frame hb
  rw [hb] at hbest
  simp only at hbest
  have hl : LInv c s'.routes := (hfr.ms (A := {}) (c := c) []).inv h.inv |>.lst
  obtain ⟨rb, hrb, ha⟩ := hbest.1 b rfl
  obtain ⟨h1, h2, h3⟩ := findRoute_mem hrb
  refine ⟨rb, h1, h2, h3, (usable_iff ..).1 ha, fun r hr hk hu hne => ?_⟩
  have hfind : findRoute s' k r.neigh = some r := by rw [← hk]; exact findRoute_of_mem hl hr
  have hmem : r.neigh ∈ (slotOf s.routes k).map (·.neigh) := by
    obtain ⟨r0, h0, e0⟩ := hfr.route_inv hfind
    exact mem_slot_of_find h0
  obtain ⟨b', e, hx⟩ := hbest.2 r.neigh hmem ⟨r, hfind, (usable_iff ..).2 hu⟩
  cases e
  rcases hx with hx | ⟨v, w, ⟨r1, a1, a2, a3, -⟩, ⟨r2, b1, b2, b3, -⟩, hvw⟩
  · rw [hx, hrb] at hfind
    exact absurd (Option.some.inj hfind).symm hne
  · rw [hrb] at a1; cases a1
    rw [hfind] at b1; cases b1
    exact ⟨by rw [a2, b2]; exact hvw, b3, a3⟩

/-- C28: if no best route to `k` is found, there is no candidate. -/
theorem C28_none {c : Cfg} {s : St} (h : Reachable c s) {k : PKey} {fe : Bool} {ex : Option NeighId}
    {s' : St} (hb : findBest c s k fe ex = (none, s')) : ∀ r ∈ s'.routes, r.key = k → ¬ Usable s' fe ex r := by
  intro r hr hk hu
  have hbest := findBest_best c s k fe ex
  have hfr := findBest_frame hb
  rw [hb] at hbest
  simp only at hbest
  have hl : LInv c s'.routes := (hfr.ms (A := {}) (c := c) []).inv h.inv |>.lst
  have hfind : findRoute s' k r.neigh = some r := by rw [← hk]; exact findRoute_of_mem hl hr
  have hmem : r.neigh ∈ (slotOf s.routes k).map (·.neigh) := by
    obtain ⟨r0, h0, e0⟩ := hfr.route_inv hfind
    exact mem_slot_of_find h0
  obtain ⟨b', e, -⟩ := hbest.2 r.neigh hmem ⟨r, hfind, (usable_iff ..).2 hu⟩
  simp at e

theorem smooth_only (c : Cfg) (s : St) (k : PKey) (n : NeighId) :
    ∃ l g, (smoothRoute c s k n).2 = { s with routes := l, rand := g } ∧
      l.map Route.core = s.routes.map Route.core := by
  have := (frame_smooth c s k n).routes
  unfold smoothRoute at this ⊢
  split
  · exact ⟨s.routes, s.rand, rfl, rfl⟩
  · next r hr =>
    rw [hr] at this
    exact ⟨_, _, rfl, this⟩

theorem scan_only (c : Cfg) (k : PKey) (fe : Bool) (ex : Option NeighId) (l : List NeighId)
    (b : Option NeighId) (s : St) :
    ∃ rs g, (bestScan c k fe ex l b s).2 = { s with routes := rs, rand := g } ∧
      rs.map Route.core = s.routes.map Route.core := by
  induction l generalizing b s with
  | nil => exact ⟨s.routes, s.rand, rfl, rfl⟩
  | cons m l ih =>
    unfold bestScan
    split
    · exact ih ..
    · split
      · exact ih ..
      · split
        · exact ih ..
        · next b' =>
          simp only
          obtain ⟨l1, g1, e1, h1⟩ := smooth_only c s k m
          obtain ⟨l2, g2, e2, h2⟩ := smooth_only c (smoothRoute c s k m).2 k b'
          obtain ⟨l3, g3, e3, h3⟩ := ih (if (smoothRoute c s k m).1 < (smoothRoute c (smoothRoute c s k m).2 k b').1
            then some m else some b') (smoothRoute c (smoothRoute c s k m).2 k b').2
          refine ⟨l3, g3, ?_, ?_⟩
          · rw [e3, e2, e1]
          · rw [h3, e2]
            show l2.map Route.core = _
            rw [h2, e1]
            exact h1

/-- C28: looking for the best route changes nothing but smoothed metrics (and uses random numbers). -/
theorem C28_search_is_pure (c : Cfg) (s : St) (k : PKey) (fe : Bool) (ex : Option NeighId) :
    ∃ rs g, (findBest c s k fe ex).2 = { s with routes := rs, rand := g } ∧
      rs.map (fun r => { r with smoothed := 0, smoothedTime := 0 }) =
      s.routes.map (fun r => { r with smoothed := 0, smoothedTime := 0 }) :=
  scan_only ..

/-- C28: a selected route is only ever replaced by a reachable route, and only if it is itself unreachable or
both its metric and its smoothed metric are worse (the metric not strictly). -/
theorem C28_hysteresis {c : Cfg} {s : St} (h : Reachable c s) (ev : Ev) {r o : Route} {fd : Option Source} {t : Int}
    (hs : Out.selected r fd t (some o) ∈ sent c s ev) :
    routeMetric r < INFINITY ∧
      (INFINITY ≤ routeMetric o ∨ (routeMetric r ≤ routeMetric o ∧ r.smoothed < o.smoothed)) :=
  (C27_selection h ev _ hs).2.2 o rfl

/-- In the running example the best route is through neighbour 2; excluding it, through neighbour 1; from
neighbour 1's route nothing else is left once neighbour 2 is gone. -/
example : (findBest Demo.cfg (run Demo.cfg Demo.start Demo.evs) (Demo.key 1) true none).1 = some 2 ∧
    (findBest Demo.cfg (run Demo.cfg Demo.start Demo.evs) (Demo.key 1) true (some 2)).1 = some 1 ∧
    (findBest Demo.cfg (run Demo.cfg Demo.start Demo.evs) (Demo.key 2) true none).1 = none ∧
    (findBest Demo.cfg (run Demo.cfg Demo.start (Demo.evs ++ [.tick ⟨1025, 0⟩])) (Demo.key 1) true none).1 = none := by
  decide +kernel

/-- The candidate need not be reachable: an unreachable route is the best one if it is the only candidate. -/
example : (findBest Demo.cfg (run Demo.cfg Demo.start [.update (some (Demo.rid 9)) (Demo.key 1) 7 200 400 1 (some (Demo.ll 1)),
      .update (some (Demo.rid 9)) (Demo.key 1) 7 65535 400 1 (some (Demo.ll 1))]) (Demo.key 1) true none).1 = some 1 := by
  decide +kernel

end Babel
