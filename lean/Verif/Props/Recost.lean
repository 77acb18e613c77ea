import Verif.Lemmas.Recost
import Verif.Lemmas.Demo
import Verif.Lemmas.Reach
/-
C58 a change of the cost of a link reaches the routes through it.
-/
set_option linter.unusedSimpArgs false
set_option linter.unusedVariables false
namespace Babel
open Spec

/-- C58: after the update that follows a change of the cost of a neighbour, every route through the neighbour has the
current cost, or has been retracted if it is past its hold time; no other route is touched.  (The walk over a
destination's routes needs as many steps as there are routes.) -/
theorem C58_neighbour {c : Cfg} {s : St} (h : Reachable c s) {fuel : Nat} (hf : s.routes.length ≤ fuel) (n : NeighId)
    {r : Route} (hr : r ∈ s.routes) :
    ∃ r' ∈ (step c s (.updNeigh fuel n)).routes,
      (r.neigh = n → Refreshed c s r r') ∧ (r.neigh ≠ n → SameContent r r') := by
  have key := walk_route (c := c) (updateRouteMetric c) (fun m => m == n) (Refreshed c) (sl_updateRouteMetric c)
    (fun s k n => updateRouteMetric_ms c {} s [] k n) (fun s k n k' n' => updateRouteMetric_other) (update_self c)
    ?_ ?_ h hf hr (fun x hx y hy hxk hyk hpx hpy => by simp at hpx hpy; rw [hpx, hpy])
  · obtain ⟨r', h1, h2, h3⟩ := key
    exact ⟨r', h1, fun e => h2 (by simpa using e), fun e => h3 (by simpa using e)⟩
  · exact refreshed_found c
  · exact refreshed_congr c

/-- C58: when a neighbour retracts all its routes, every route through it is retracted, and no other route is
touched. -/
theorem C58_retracted {c : Cfg} {s : St} (h : Reachable c s) {fuel : Nat} (hf : s.routes.length ≤ fuel) (n : NeighId)
    {r : Route} (hr : r ∈ s.routes) :
    ∃ r' ∈ (step c s (.retractNeigh fuel n)).routes,
      (r.neigh = n → Withdrawn r r' r.seqno) ∧ (r.neigh ≠ n → SameContent r r') := by
  have key := walk_route (c := c) (retractOne c) (fun m => m == n) (fun _ r r' => Withdrawn r r' r.seqno) (sl_retractOne c)
    (fun s k n => retractOne_ms c {} s [] k n) (fun s k n k' n' => retractOne_other) (retract_self c)
    ?_ ?_ h hf hr (fun x hx y hy hxk hyk hpx hpy => by simp at hpx hpy; rw [hpx, hpy])
  · obtain ⟨r', h1, h2, h3⟩ := key
    exact ⟨r', h1, fun e => h2 (by simpa using e), fun e => h3 (by simpa using e)⟩
  · exact fun s r h => retractOne_find h
  · intro s s' r r0 r' r'' _ _ e e' hw
    have : r0.seqno = r.seqno := by rw [core_eq e]
    rw [← this]
    exact withdrawn_core e e' hw

/-- C58: the same for an interface, for every destination to which there is at most one route through the interface.
What is missing: if there are several, then a route may keep the old cost (`C58_skipped`). -/
theorem C58_interface_partial {c : Cfg} {s : St} (h : Reachable c s) {fuel : Nat} (hf : s.routes.length ≤ fuel) (i : IfId)
    {r : Route} (hr : r ∈ s.routes)
    (hone : ∀ x ∈ s.routes, ∀ y ∈ s.routes, x.key = r.key → y.key = r.key → c.ifOf x.neigh = i → c.ifOf y.neigh = i →
      x.neigh = y.neigh) :
    ∃ r' ∈ (step c s (.updIface fuel i)).routes,
      (c.ifOf r.neigh = i → Refreshed c s r r') ∧ (c.ifOf r.neigh ≠ i → SameContent r r') := by
  have key := walk_route (c := c) (updateRouteMetric c) (fun m => c.ifOf m == i) (Refreshed c) (sl_updateRouteMetric c)
    (fun s k n => updateRouteMetric_ms c {} s [] k n) (fun s k n k' n' => updateRouteMetric_other) (update_self c)
    ?_ ?_ h hf hr (fun x hx y hy hxk hyk hpx hpy => hone x hx y hy hxk hyk (by simpa using hpx) (by simpa using hpy))
  · obtain ⟨r', h1, h2, h3⟩ := key
    exact ⟨r', h1, fun e => h2 (by simpa using e), fun e => h3 (by simpa using e)⟩
  · exact refreshed_found c
  · exact refreshed_congr c

namespace Demo

/-- Neighbours 2, 3 and 4, all on interface 20, announce the prefix with metrics 100, 150 and 180; then the cost of the
interface is raised from 96 to 500. -/
def raised : St := run cfg start
  [.update (some (rid 9)) (key 1) 7 100 400 2 (some (ll 2)),
   .update (some (rid 9)) (key 1) 7 150 400 3 (some (ll 3)),
   .update (some (rid 9)) (key 1) 7 180 400 4 (some (ll 4)),
   .setCost 2 500, .setCost 3 500, .setCost 4 500]

/-- The neighbours one by one: all routes get the new cost.  The route through neighbour 2 is retracted, or has
expired. -/
example : raised.routes.map (fun r => (r.neigh, r.installed, routeMetric r)) = [(2, true, 196), (3, false, 246), (4, false, 276)] ∧
    (step cfg raised (.updNeigh 3 2)).routes.map (fun r => (r.neigh, r.installed, routeMetric r)) =
      [(3, true, 246), (2, false, 600), (4, false, 276)] ∧
    (step cfg raised (.retractNeigh 3 2)).routes.map (fun r => (r.neigh, r.installed, routeMetric r)) =
      [(3, true, 246), (2, false, 65535), (4, false, 276)] ∧
    (run cfg raised [.tick ⟨1100, 0⟩, .updNeigh 3 2]).routes.map (fun r => (r.neigh, r.installed, routeMetric r)) =
      [(2, true, 65535), (3, false, 246), (4, false, 276)] := by decide +kernel

end Demo

theorem walkFrom_some (act : St → NeighId → St) (k : PKey) (f : Nat) (n : NeighId) (s : St) :
    walkFrom act k (f + 1) (some n) s = walkFrom act k f (succOf (slotOf (act s n).routes k) n) (act s n) := rfl

theorem walk_two {c : Cfg} {s : St} {i : IfId} {k : PKey} {a b : NeighId} (hk : slotKeys s = [k])
    (h1 : (slotOf s.routes k).head?.map (·.neigh) = some a) (ha : c.ifOf a = i)
    (h2 : succOf (slotOf (updateRouteMetric c s k a).routes k) a = some b) (hb : c.ifOf b = i)
    (h3 : succOf (slotOf (updateRouteMetric c (updateRouteMetric c s k a) k b).routes k) b = none) (f : Nat) :
    step c s (.updIface (f + 2) i) = updateRouteMetric c (updateRouteMetric c s k a) k b := by
  show (slotKeys s).foldl _ _ = _
  rw [hk, List.foldl_cons, List.foldl_nil]
  unfold walkSlot
  rw [h1, walkFrom_some]
  simp only
  rw [if_pos (show (c.ifOf a == i) = true by simpa using ha), h2, walkFrom_some]
  rw [if_pos (show (c.ifOf b == i) = true by simpa using hb), h3]
  cases f <;> rfl

/-- C58: when the cost of an interface changes, a route through it may keep the old cost: if the first route
treated is no longer the best, then the walk goes on behind its new place in the table, and misses the
route that was moved to the front.  That route is the selected one, with a metric that is too small. -/
theorem C58_skipped : ∃ (c : Cfg) (s : St) (i : IfId), Reachable c s ∧ ∀ fuel, 3 ≤ fuel →
    ∃ r ∈ (step c s (.updIface fuel i)).routes, c.ifOf r.neigh = i ∧ r.installed = true ∧
      s.now.sec ≤ r.time + r.holdTime ∧ r.cost < s.ncost r.neigh := by
  refine ⟨Demo.cfg, Demo.raised, 20, Demo.reachable_run (.init ..) _, fun fuel hf => ?_⟩
  obtain ⟨f, rfl⟩ : ∃ f, fuel = f + 2 := ⟨fuel - 2, by omega⟩
  have e : step Demo.cfg Demo.raised (.updIface (f + 2) 20) =
      updateRouteMetric Demo.cfg (updateRouteMetric Demo.cfg Demo.raised (Demo.key 1) 2) (Demo.key 1) 4 :=
    walk_two (by decide +kernel) (by decide +kernel) (by decide) (by decide +kernel) (by decide) (by decide +kernel) f
  rw [e]
  have := (by decide +kernel : (updateRouteMetric Demo.cfg (updateRouteMetric Demo.cfg Demo.raised (Demo.key 1) 2)
    (Demo.key 1) 4).routes.any (fun r => Demo.cfg.ifOf r.neigh == 20 && r.installed &&
      decide (Demo.raised.now.sec ≤ r.time + r.holdTime) && decide (r.cost < Demo.raised.ncost r.neigh)) = true)
  obtain ⟨r, hr, h⟩ := List.any_eq_true.1 this
  simp only [Bool.and_eq_true, beq_iff_eq, decide_eq_true_eq] at h
  exact ⟨r, hr, h.1.1.1, h.1.1.2, h.1.2, h.2⟩

end Babel
