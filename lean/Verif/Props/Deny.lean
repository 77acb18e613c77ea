import Verif.Lemmas.Deny
import Verif.Spec.Deny
import Verif.Lemmas.Demo
/-
C42: the install filter.
-/
set_option linter.unusedSimpArgs false
set_option linter.unusedVariables false
namespace Babel
open Spec

/-- **C42**: when there was no selected route for the destination, the route that gets selected is not
denied by the install filter. -/
theorem C42_first {c : Cfg} {s : St} (h : Reachable c s) (ev : Ev) {r : Route} {fd : Option Source}
    {t : Int} (ho : Out.selected r fd t none ∈ sent c s ev) : ¬ Denied c r := by
  rcases (run_ms c h.take.inv ev).admits h.take.inv ho with h1 | h1
  · simp at h1
  · unfold Denied Denies; omega

/-- **C42**: at all times, any destination which has a route in the kernel, or a selected route, is
admitted by the install filter for some router and some interface. -/
theorem C42_admitted {c : Cfg} {s : St} (h : Reachable c s) (k : PKey)
    (hk : (∃ e ∈ s.fib, e.key = k) ∨ ∃ n, Selected s k n) : ∃ id i, ¬ Denies c id k i := by
  have hd := h.den
  have : Adm c k := by
    rcases hk with ⟨e, h1, h2⟩ | ⟨n, h1⟩
    · rw [← h2]; exact hd.fib e h1
    · exact hd.sel k n h1
  obtain ⟨id, i, h⟩ := this
  exact ⟨id, i, by unfold Denies; omega⟩

/-- **C42** if denials depend on the destination only: a denied destination never has a route in the
kernel, nor a selected route.

Missing for the full property: a filter that denies some routers or some interfaces for a destination
and not others is only applied when a route is selected for a destination that has no selected route.
It is not applied when the selection changes, nor when the router-id of the selected route changes;
see `C42_false`. -/
theorem C42_partial {c : Cfg} (hc : DeniesByDestination c) {s : St} (h : Reachable c s)
    (id : Bytes) (k : PKey) (i : IfId) (hk : Denies c id k i) :
    (∀ e ∈ s.fib, e.key ≠ k) ∧ ∀ n, ¬ Selected s k n := by
  refine ⟨fun e he hek => ?_, fun n hn => ?_⟩
  · obtain ⟨id', i', h1⟩ := C42_admitted h k (.inl ⟨e, he, hek⟩)
    exact h1 (hc _ _ _ _ _ hk)
  · obtain ⟨id', i', h1⟩ := C42_admitted h k (.inr ⟨n, hn⟩)
    exact h1 (hc _ _ _ _ _ hk)

namespace DenyDemo

/-- Deny everything that is reached through interface 20. -/
def byIf : Cfg := { Demo.cfg with installFilter := fun _ _ i => (if i = 20 then INFINITY else 0, 0) }

/-- Deny everything announced by the router 8. -/
def byId : Cfg :=
  { Demo.cfg with installFilter := fun id _ _ => (if id = Demo.rid 8 then INFINITY else 0, 0) }

/-- Deny the destination 1 whoever announces it. -/
def byKey : Cfg :=
  { Demo.cfg with installFilter := fun _ k _ => (if k = Demo.key 1 then INFINITY else 0, 0) }

/-- Neighbour 1 announces a destination, then changes the router-id. -/
def rename : List Ev :=
  [.update (some (Demo.rid 9)) (Demo.key 1) 7 200 400 1 (some (Demo.ll 1)),
   .update (some (Demo.rid 8)) (Demo.key 1) 7 200 400 1 (some (Demo.ll 1))]

/-- Two destinations. -/
def two : List Ev :=
  [.update (some (Demo.rid 9)) (Demo.key 1) 7 200 400 1 (some (Demo.ll 1)),
   .update (some (Demo.rid 9)) (Demo.key 2) 7 200 400 1 (some (Demo.ll 1))]

theorem byKey_byDestination : DeniesByDestination byKey := fun _ _ _ _ _ h => h

/-- The denied destination is not used, the other one is. -/
example : ((run byKey Demo.start two).fib.map (·.key) = [Demo.key 2]) ∧
    ((run byKey Demo.start two).routes.map (fun r => (r.key, r.installed)) =
      [(Demo.key 2, true), (Demo.key 1, false)]) := by decide +kernel

example : ∀ e ∈ (run byKey Demo.start two).fib, e.key ≠ Demo.key 1 :=
  (C42_partial byKey_byDestination (Demo.reachable_run (.init ..) _) (Demo.rid 9) (Demo.key 1) 10
    (by show 65535 ≤ _; decide +kernel)).1

/-- A first selection, to which `C42_first` applies. -/
example : (sent byIf Demo.start (.update (some (Demo.rid 9)) (Demo.key 1) 7 200 400 1
    (some (Demo.ll 1)))).any (fun | .selected r _ _ none => r.key == Demo.key 1 | _ => false) = true := by
  decide +kernel

end DenyDemo

/-- **C42 is false of the code**: a denied route can be put in the kernel's table, because the filter is
not consulted when a route replaces another one (here: neighbour 2 announces a better route than
neighbour 1, through an interface for which the filter denies everything), nor when the router-id
changes. -/
theorem C42_false :
    (∃ c s, (∀ id id' k i, c.installFilter id k i = c.installFilter id' k i) ∧ Reachable c s ∧
      ∃ r ∈ s.routes, r.installed = true ∧ Denied c r ∧
        ⟨254, r.key, some (r.nexthop, c.ifOf r.neigh, 0)⟩ ∈ s.fib) ∧
    (∃ c s, (∀ id k i i', c.installFilter id k i = c.installFilter id k i') ∧ Reachable c s ∧
      ∃ r ∈ s.routes, r.installed = true ∧ Denied c r ∧
        ⟨254, r.key, some (r.nexthop, c.ifOf r.neigh, 0)⟩ ∈ s.fib) := by
  refine ⟨⟨DenyDemo.byIf, run DenyDemo.byIf Demo.start Demo.evs, fun _ _ _ _ => rfl,
      Demo.reachable_run (.init ..) _, ?_⟩,
    ⟨DenyDemo.byId, run DenyDemo.byId Demo.start DenyDemo.rename, fun _ _ _ _ => rfl,
      Demo.reachable_run (.init ..) _, ?_⟩⟩
  · have h : (run DenyDemo.byIf Demo.start Demo.evs).routes.any (fun r => r.installed &&
        decide (INFINITY ≤ (DenyDemo.byIf.installFilter r.id r.key (DenyDemo.byIf.ifOf r.neigh)).1) &&
        decide (⟨254, r.key, some (r.nexthop, DenyDemo.byIf.ifOf r.neigh, 0)⟩ ∈
          (run DenyDemo.byIf Demo.start Demo.evs).fib)) = true := by
      decide +kernel
    obtain ⟨r, h1, h2⟩ := List.any_eq_true.1 h
    simp only [Bool.and_eq_true, decide_eq_true_eq, beq_iff_eq] at h2
    exact ⟨r, h1, h2.1.1, h2.1.2, h2.2⟩
  · have h : (run DenyDemo.byId Demo.start DenyDemo.rename).routes.any (fun r => r.installed &&
        decide (INFINITY ≤ (DenyDemo.byId.installFilter r.id r.key (DenyDemo.byId.ifOf r.neigh)).1) &&
        decide (⟨254, r.key, some (r.nexthop, DenyDemo.byId.ifOf r.neigh, 0)⟩ ∈
          (run DenyDemo.byId Demo.start DenyDemo.rename).fib)) = true := by
      decide +kernel
    obtain ⟨r, h1, h2⟩ := List.any_eq_true.1 h
    simp only [Bool.and_eq_true, decide_eq_true_eq, beq_iff_eq] at h2
    exact ⟨r, h1, h2.1.1, h2.1.2, h2.2⟩

end Babel
