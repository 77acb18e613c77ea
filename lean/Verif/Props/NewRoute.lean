import Verif.Lemmas.NewRoute
import Verif.Lemmas.Asked
import Verif.Lemmas.Demo
import Verif.Props.Metric
/-
C59 which new routes are taken into use; C60 routes to redistributed destinations; C61 requests for newer sequence numbers.
-/
set_option linter.unusedSimpArgs false
set_option linter.unusedVariables false
namespace Babel
open Spec

theorem find_none {s : St} {k : PKey} {n : NeighId} (h : ∀ r ∈ s.routes, ¬ (r.key = k ∧ r.neigh = n)) : findRoute s k n = none := by
  cases e : findRoute s k n with
  | none => rfl
  | some r =>
    obtain ⟨h1, h2⟩ := findRoute_mem e
    exact absurd h2 (h r h1)

theorem shadowed_congr {c : Cfg} {s s' : St} (h : s'.xroutes = s.xroutes) (k : PKey) : Shadowed c s' k ↔ Shadowed c s k := by
  unfold Shadowed exported; rw [h]

/-- What becomes of a new route that is not feasible, when no route is selected. -/
theorem new_unfeasible {c : Cfg} {s : St} {id : Bytes} {k : PKey} {q : UInt16}
    {refm int : Nat} {n : NeighId} {nh : Bytes} (hi : ¬ Ignored c (some id) k refm n) (hm : refm < INFINITY)
    (hn : findRoute s k n = none) (ho : findInstalled s k = none)
    (hf : updateFeasible s (findSource s ⟨id, k⟩) q refm = false) :
    step c s (.update (some id) k q refm int n (some nh)) = withNew (sendUnfeasibleRequest c (ensureSource s ⟨id, k⟩ q) n false q
      (routeMetric (received c s id k q refm int n nh)) ⟨id, k⟩) (received c s id k q refm int n nh) := by
  rw [step_new hi hm hn]
  simp only [hf, Bool.false_eq_true, if_false]
  obtain ⟨x, hx⟩ : ∃ x, findSource s ⟨id, k⟩ = some x := by
    cases e : findSource s ⟨id, k⟩ with
    | some x => exact ⟨x, rfl⟩
    | none =>
      rw [e] at hf
      have : updateFeasible s none q refm = true := updateFeasible_iff.2 (.inr trivial)
      rw [hf] at this; cases this
  have hen : ensureSource s ⟨id, k⟩ q = s := by unfold ensureSource; rw [hx]
  rw [hen]
  obtain ⟨s2, hs2⟩ : ∃ s2, s2 = sendUnfeasibleRequest c s n false q (routeMetric (received c s id k q refm int n nh)) ⟨id, k⟩ := ⟨_, rfl⟩
  have hq : QMs c s s2 := by rw [hs2]; exact qms_sendUnfeasible ..
  rw [← hs2]
  have hn2 : findRoute s2 k n = none := by
    have := hq.same.findRoute k n
    rw [hn] at this
    cases e : findRoute s2 k n with
    | none => rfl
    | some x => rw [e] at this; simp at this
  refine considerRoute_unfeasible (r := received c s id k q refm int n nh) (withNew_find hn2) ?_
  rw [withNew_feasible]
  show updateFeasible s2 (findSource s2 ⟨id, k⟩) q refm = false
  rw [hq.source_same (sk := ⟨id, k⟩) ho]
  rw [← hf]
  unfold updateFeasible
  rw [hq.same.now]

/-- C59: an update for a route that is not known yet, to a destination for which no route is selected, makes that route the
selected one exactly if it is feasible, the destination is not redistributed (or duplicates are allowed), the install
filter does not deny it and the kernel takes it. -/
theorem C59_first {c : Cfg} {s : St} (h : Reachable c s) {id : Bytes} {k : PKey} {q : UInt16} {refm int : Nat} {n : NeighId}
    {nh : Bytes} (hi : ¬ Ignored c (some id) k refm n) (hm : refm < INFINITY)
    (hn : ∀ r ∈ s.routes, ¬ (r.key = k ∧ r.neigh = n)) (hs : ∀ m, ¬ Selected s k m) :
    Selected (step c s (.update (some id) k q refm int n (some nh))) k n ↔
      Feasible (s.sources.find? (·.skey == ⟨id, k⟩)) s.now.sec (q, refm) ∧ ¬ Shadowed c s k ∧
      ¬ Denies c id k (c.ifOf n) ∧ KernelTakes c s (received c s id k q refm int n nh) := by
  have hl := h.inv.lst
  have hn := find_none hn
  have ho : findInstalled s k = none := by
    cases e : findInstalled s k with
    | none => rfl
    | some o =>
      obtain ⟨h1, h2, h3⟩ := findInstalled_mem e
      exact absurd ⟨o, h1, h2, rfl, h3⟩ (hs o.neigh)
  rw [show Feasible (s.sources.find? (·.skey == ⟨id, k⟩)) s.now.sec (q, refm) ↔ updateFeasible s (findSource s ⟨id, k⟩) q refm = true from
    updateFeasible_iff.symm]
  cases hf : updateFeasible s (findSource s ⟨id, k⟩) q refm with
  | false =>
    rw [new_unfeasible hi hm hn ho hf]
    simp only [Bool.false_eq_true, false_and, iff_false]
    intro h
    have h : Sel (withNew _ _).routes k n := h
    rw [withNew_routes] at h
    have := Sel.insert (x := received c s id k q refm int n nh) rfl h
    have := this.core (qms_sendUnfeasible ..).same.routes
    rw [(ensure_fields ..).2.2.2.2.1] at this
    exact hs n this
  | true =>
    rw [step_new hi hm hn]
    simp only [hf, if_true, true_and]
    obtain ⟨e1, e2, e3, -, e5, -⟩ := ensure_fields s ⟨id, k⟩ q
    obtain ⟨s1, hs1⟩ : ∃ s1, s1 = ensureSource s ⟨id, k⟩ q := ⟨_, rfl⟩
    have hfs : updateFeasible s1 (findSource s1 ⟨id, k⟩) q refm = true := by rw [hs1, ensure_feasible _ _ _ hm]; exact hf
    rw [← hs1] at e1 e2 e3 e5 ⊢
    obtain ⟨g1, g2, g3, -⟩ := withNew_fields s1 (received c s id k q refm int n nh)
    have hn1 : findRoute s1 k n = none := by unfold findRoute; rw [e5]; exact hn
    have := considerRoute_first (c := c) (k := k) (n := n) (withNew_find (r := received c s id k q refm int n nh) hn1) rfl
      (by rw [withNew_feasible]; exact hfs) (by rw [withNew_installed rfl]; unfold findInstalled; rw [e5]; exact ho)
    show Sel _ k n ↔ _
    rw [this, shadowed_congr (g3.trans e3)]
    have hns : ¬ Sel (withNew s1 (received c s id k q refm int n nh)).routes k n := by
      rw [withNew_routes, e5]
      exact fun h => hs n (Sel.insert (x := received c s id k q refm int n nh) rfl h)
    simp only [hns, false_or]
    unfold KernelTakes
    rw [g2, e2]
    exact Iff.rfl

/-- The decision for a destination with a selected route. -/
theorem new_other {c : Cfg} {s : St} (h : Reachable c s) {id : Bytes} {k : PKey} {q : UInt16} {refm int : Nat} {n : NeighId}
    {nh : Bytes} (hi : ¬ Ignored c (some id) k refm n) (hm : refm < INFINITY)
    (hfe : Feasible (s.sources.find? (·.skey == ⟨id, k⟩)) s.now.sec (q, refm)) (hn : ∀ r ∈ s.routes, ¬ (r.key = k ∧ r.neigh = n)) {o : Route} (hor : o ∈ s.routes) (hok : o.key = k) (hoi : o.installed = true)
    (hk : ∀ i, s.kres i ≠ .fail) (h1 : Expressible c k o.nexthop) (h2 : Expressible c k nh) :
    Selected (step c s (.update (some id) k q refm int n (some nh))) k n ↔
      ¬ Shadowed c s k ∧
      (routeMetric (received c s id k q refm int n nh) < INFINITY ∧ (INFINITY ≤ routeMetric o ∨
        (routeMetric (received c s id k q refm int n nh) ≤ routeMetric o ∧
        (if c.halfLife = 0 ∨ 32763 < routeMetric (received c s id k q refm int n nh) then routeMetric (received c s id k q refm int n nh)
          else 32767) < (smoothedMetric c.halfLife s.now.sec s.rand o).1))) := by
  have hl := h.inv.lst
  have hne : o.neigh ≠ n := fun e => hn o hor ⟨hok, e⟩
  have hnn := hn
  have hn := find_none hn
  have hs : ¬ Sel s.routes k n := fun ⟨r, g1, g2, g3, _⟩ => hnn r g1 ⟨g2, g3⟩
  have ho : findInstalled s k = some o := (findInstalled_iff hl).2 ⟨hor, hok, hoi⟩
  have hfo : findRoute s k o.neigh = some o := by rw [← hok]; exact findRoute_of_mem hl hor
  have hf : updateFeasible s (findSource s ⟨id, k⟩) q refm = true := updateFeasible_iff.2 hfe
  rw [step_new hi hm hn]
  simp only [hf, if_true]
  obtain ⟨e1, e2, e3, -, e5, e6, e7, -⟩ := ensure_fields s ⟨id, k⟩ q
  obtain ⟨s1, hs1⟩ : ∃ s1, s1 = ensureSource s ⟨id, k⟩ q := ⟨_, rfl⟩
  have hfs : updateFeasible s1 (findSource s1 ⟨id, k⟩) q refm = true := by rw [hs1, ensure_feasible _ _ _ hm]; exact hf
  rw [← hs1] at e1 e2 e3 e5 e7 ⊢
  obtain ⟨g1, g2, g3, -, g5⟩ := withNew_fields s1 (received c s id k q refm int n nh)
  have hn1 : findRoute s1 k n = none := by unfold findRoute; rw [e5]; exact hn
  have hfn := withNew_find (r := received c s id k q refm int n nh) hn1
  have hns : ¬ Sel (withNew s1 (received c s id k q refm int n nh)).routes k n := by
    rw [withNew_routes, e5]
    exact fun h => hs (Sel.insert (x := received c s id k q refm int n nh) rfl h)
  have key := considerRoute_other (c := c) (k := k) (n := n) (o := o) hfn rfl hns
    (by rw [withNew_feasible]; exact hfs) (by rw [withNew_installed rfl]; unfold findInstalled; rw [e5]; exact ho)
    (by rw [g2, e2]; exact hk) h1 h2
  have hfo1 : findRoute (withNew s1 (received c s id k q refm int n nh)) k o.neigh = some o := by
    unfold findRoute
    rw [withNew_routes, e5]
    show flatFind (flatInsert s.routes _) _ _ = _
    rw [flatFind_insert (show flatFind s.routes (received c s id k q refm int n nh).key (received c s id k q refm int n nh).neigh = none from hn),
      if_neg (fun hh => hne hh.2)]
    exact hfo
  have := shouldSwitch_new (c := c) (k := k) (n := n) hfn hfo1 hne (by rw [g1, e1]; rfl) rfl
  show Sel _ k n ↔ _
  rw [key, shadowed_congr (g3.trans e3), this, g1, g5, e1, e7]

/-- C59: without smoothing of metrics, a feasible update for a route that is not known yet replaces the selected route to the
destination exactly if the new route has a smaller metric (and the destination is not redistributed).  Both routes
can be expressed by the kernel, which answers without errors. -/
theorem C59_replaces {c : Cfg} (hc : c.halfLife = 0) {s : St} (h : Reachable c s) {id : Bytes} {k : PKey} {q : UInt16}
    {refm int : Nat} {n : NeighId} {nh : Bytes} (hi : ¬ Ignored c (some id) k refm n) (hm : refm < INFINITY)
    (hfe : Feasible (s.sources.find? (·.skey == ⟨id, k⟩)) s.now.sec (q, refm)) (hn : ∀ r ∈ s.routes, ¬ (r.key = k ∧ r.neigh = n)) {o : Route} (hor : o ∈ s.routes) (hok : o.key = k) (hoi : o.installed = true)
    (hk : ∀ i, s.kres i ≠ .fail) (h1 : Expressible c k o.nexthop) (h2 : Expressible c k nh) :
    Selected (step c s (.update (some id) k q refm int n (some nh))) k n ↔
      ¬ Shadowed c s k ∧
      refm + s.ncost n + c.inputFilter (some id) k (some n) (c.ifOf n) < routeMetric o := by
  rw [new_other h hi hm hfe hn hor hok hoi hk h1 h2]
  have e : (smoothedMetric c.halfLife s.now.sec s.rand o).1 = routeMetric o := by
    unfold smoothedMetric; rw [if_pos (.inl hc)]
  rw [e, if_pos (.inl hc)]
  have hr : routeMetric (received c s id k q refm int n nh) =
    min (refm + s.ncost n + c.inputFilter (some id) k (some n) (c.ifOf n)) INFINITY := rfl
  have ho : routeMetric o ≤ INFINITY := by unfold routeMetric; omega
  refine and_congr_right (fun _ => ?_)
  rw [hr]
  omega

/-- C59: with smoothing of metrics, a new route of metric at most 32763 never replaces at once a selected route whose metric and
smoothed metric are at most 32767, however good it is. -/
theorem C59_waits {c : Cfg} (hc : c.halfLife ≠ 0) {s : St} (h : Reachable c s) {id : Bytes} {k : PKey} {q : UInt16}
    {refm int : Nat} {n : NeighId} {nh : Bytes} (hi : ¬ Ignored c (some id) k refm n) (hm : refm < INFINITY)
    (hfe : Feasible (s.sources.find? (·.skey == ⟨id, k⟩)) s.now.sec (q, refm)) (hn : ∀ r ∈ s.routes, ¬ (r.key = k ∧ r.neigh = n)) {o : Route} (hor : o ∈ s.routes) (hok : o.key = k) (hoi : o.installed = true)
    (hom : routeMetric o ≤ 32767) (hos : o.smoothed ≤ 32767)
    (hk : ∀ i, s.kres i ≠ .fail) (h1 : Expressible c k o.nexthop) (h2 : Expressible c k nh)
    (h9 : refm + s.ncost n + c.inputFilter (some id) k (some n) (c.ifOf n) ≤ 32763) :
    ¬ Selected (step c s (.update (some id) k q refm int n (some nh))) k n := by
  rw [new_other h hi hm hfe hn hor hok hoi hk h1 h2]
  have hb := (C31_between c.halfLife s.now.sec s.rand o (by omega)).2
  have hr : routeMetric (received c s id k q refm int n nh) =
    min (refm + s.ncost n + c.inputFilter (some id) k (some n) (c.ifOf n)) INFINITY := rfl
  have : INFINITY = 65535 := rfl
  rintro ⟨-, -, h3 | ⟨-, h3⟩⟩
  · omega
  · rw [if_neg (by rw [hr]; omega)] at h3
    omega

/-! ### Redistributed destinations -/

/-- C60: duplicates are allowed the wrong way around: with `allow-duplicates 100`, which is documented to allow
duplicates of redistributed routes of metric 100 or more, a route to a destination redistributed with metric 50 is taken into use,
and a route to a destination redistributed with metric 200 is not. -/
theorem C60_false : ∃ (c : Cfg) (s : St) (id : Bytes) (k k' : PKey) (n : NeighId) (nh : Bytes) (x x' : Xroute),
    Reachable c s ∧ c.allowDup = some 100 ∧ exported s k = some x ∧ x.metric = 50 ∧ exported s k' = some x' ∧ x'.metric = 200 ∧
    Selected (after c s (.update (some id) k 7 100 400 n (some nh))) k n ∧
    ∀ m, ¬ Selected (after c s (.update (some id) k' 7 100 400 n (some nh))) k' m := by
  obtain ⟨c, hc⟩ : ∃ c : Cfg, c = { Demo.cfg with
    allowDup := some 100, redistFilter := fun k _ _ => (if k = Demo.key 1 then 50 else 200, none) } := ⟨_, rfl⟩
  obtain ⟨s, hs⟩ : ∃ s, s = run c Demo.start [.checkXroutes [⟨Demo.key 1, 0, 10, 3⟩, ⟨Demo.key 2, 0, 10, 3⟩] true] := ⟨_, rfl⟩
  refine ⟨c, s, Demo.rid 9, Demo.key 1, Demo.key 2, 2, Demo.ll 2, (exported s (Demo.key 1)).getD default, (exported s (Demo.key 2)).getD default,
    ?_, ?_, ?_, ?_, ?_, ?_, ?_, ?_⟩
  · rw [hs]; exact Demo.reachable_run (.init ..) _
  · rw [hc]
  · subst hs hc; decide +kernel
  · subst hs hc; decide +kernel
  · subst hs hc; decide +kernel
  · subst hs hc; decide +kernel
  · have : ∃ r ∈ (after c s (.update (some (Demo.rid 9)) (Demo.key 1) 7 100 400 2 (some (Demo.ll 2)))).routes,
      r.key = Demo.key 1 ∧ r.neigh = 2 ∧ r.installed = true := by subst hs hc; decide +kernel
    exact this
  · rintro m ⟨r, hr, -, -, hi⟩
    have : ∀ r ∈ (after c s (.update (some (Demo.rid 9)) (Demo.key 2) 7 100 400 2 (some (Demo.ll 2)))).routes, r.installed = false := by
      subst hs hc; decide +kernel
    rw [this r hr] at hi; cases hi

/-! ### Cases -/

namespace Demo

/-- The first route to a destination is selected.  It is not if the kernel refuses it, if the install filter denies it, or if its
next hop is an IPv4 address. -/
example : ((step cfg start (.update (some (rid 9)) (key 1) 7 200 400 1 (some (ll 1)))).routes.map (·.installed)) = [true] ∧
    ((step cfg { start with kres := fun _ => .fail } (.update (some (rid 9)) (key 1) 7 200 400 1 (some (ll 1)))).routes.map (·.installed)) = [false] ∧
    ((step { cfg with installFilter := fun _ _ _ => (INFINITY, 0) } start
      (.update (some (rid 9)) (key 1) 7 200 400 1 (some (ll 1)))).routes.map (·.installed)) = [false] ∧
    ((step cfg start (.update (some (rid 9)) (key 1) 7 200 400 1
      (some [0, 0, 0, 0, 0, 0, 0, 0, 0, 0, 0xff, 0xff, 192, 0, 2, 1]))).routes.map (·.installed)) = [false] := by decide +kernel

example : Expressible cfg (key 1) (ll 1) := by unfold Expressible; decide +kernel

/-- The second route to a destination: with a smaller metric it replaces the first one if metrics are not smoothed. -/
example : let s := step cfg start (.update (some (rid 9)) (key 1) 7 200 400 1 (some (ll 1)))
    ((step cfg s (.update (some (rid 8)) (key 1) 7 199 400 2 (some (ll 2)))).routes.map (fun r => (r.neigh, r.installed))) =
      [(2, true), (1, false)] ∧
    ((step cfg s (.update (some (rid 8)) (key 1) 7 200 400 2 (some (ll 2)))).routes.map (fun r => (r.neigh, r.installed))) =
      [(1, true), (2, false)] := by decide +kernel

/-- With smoothing it does not, once the smoothed metric of the first one is small. -/
example : let c := { cfg with halfLife := 4 }
    let s := run c start [.update (some (rid 9)) (key 1) 7 200 400 1 (some (ll 1)), .tick ⟨1030, 0⟩,
      .update (some (rid 9)) (key 1) 7 200 400 1 (some (ll 1))]
    s.routes.map (fun r => (r.installed, decide (r.smoothed ≤ 32767))) = [(true, true)] ∧
    ((step c s (.update (some (rid 8)) (key 1) 7 1 400 2 (some (ll 2)))).routes.map (fun r => (r.neigh, r.installed))) =
      [(1, true), (2, false)] := by decide +kernel

end Demo

end Babel
