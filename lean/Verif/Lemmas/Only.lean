import Verif.Lemmas.Told
import Verif.Lemmas.Xroute
/-
Steps that concern one destination only.
-/
set_option linter.unusedSimpArgs false
set_option linter.unusedVariables false
set_option linter.unusedSectionVars false
namespace Babel
open Spec

/-- Nothing changes for destinations other than `k`, and the queues are not touched. -/
structure Only (k : PKey) (s s' : St) : Prop where
  hard : Hard s s'
  myseqno : s'.myseqno = s.myseqno
  slots : ∀ k', k' ≠ k → (slotOf s'.routes k').map Route.core = (slotOf s.routes k').map Route.core
  exported : ∀ k', k' ≠ k → exported s' k' = exported s k'

theorem Only.refl (k : PKey) (s : St) : Only k s s := ⟨.refl s, rfl, fun _ _ => rfl, fun _ _ => rfl⟩

theorem Only.trans {k : PKey} {a b d : St} (h : Only k a b) (g : Only k b d) : Only k a d :=
  ⟨h.hard.trans g.hard, g.myseqno.trans h.myseqno, fun k' e => (g.slots k' e).trans (h.slots k' e),
   fun k' e => (g.exported k' e).trans (h.exported k' e)⟩

theorem selectedRoute_slot (s : St) (k : PKey) : selectedRoute s k = (slotOf s.routes k).find? (·.installed) := by
  unfold selectedRoute slotOf
  rw [List.find?_filter]
  congr 1
  funext r
  by_cases e : r.key = k <;> simp [e]

theorem selectedRoute_slots {s s' : St} {k : PKey}
    (h : (slotOf s'.routes k).map Route.core = (slotOf s.routes k).map Route.core) :
    (selectedRoute s' k).map Route.core = (selectedRoute s k).map Route.core := by
  rw [selectedRoute_slot, selectedRoute_slot]
  exact find_core h _ (fun _ => rfl)

theorem Only.upToDate {c : Cfg} {k : PKey} {s s' : St} (h : Only k s s') {i : IfId} {k' : PKey} (hk : k' ≠ k)
    (hu : UpToDate c s i k') : UpToDate c s' i k' :=
  h.hard.upToDate (selectedRoute_slots (h.slots k' hk)) (h.exported k' hk) h.myseqno hu

/-- Only the table of routes and the outputs change. -/
theorem Only.routes {k : PKey} {s s' : St} (h : Hard s s') (hq : s'.myseqno = s.myseqno) (hx : s'.xroutes = s.xroutes)
    (hs : ∀ k', k' ≠ k → (slotOf s'.routes k').map Route.core = (slotOf s.routes k').map Route.core) : Only k s s' :=
  ⟨h, hq, hs, fun k' _ => by unfold Spec.exported; rw [hx]⟩

theorem Only.core {k : PKey} {s s' : St} (h : Hard s s') (f : Frame s s') : Only k s s' :=
  .routes h f.myseqno f.xroutes fun k' _ => f.slotOf k'

theorem only_emit (k : PKey) (s : St) (o : Out) (h : o.silent = true) : Only k s (emit s o) :=
  .routes (hard_silent s o h) rfl rfl fun _ _ => rfl

theorem only_notify (k : PKey) (s : St) (kd : NKind) (k' : PKey) (n : NeighId) : Only k s (notifyRoute s kd k' n) :=
  .routes (hard_notify ..) (notifyRoute_myseqno ..) (notifyRoute_xroutes ..) fun _ _ => by rw [notifyRoute_routes]

theorem KOnly.only {k : PKey} {s s' : St} (h : KOnly s s') : Only k s s' :=
  .routes h.hard h.myseqno h.xroutes fun _ _ => by rw [h.routes]

theorem only_modRoute (s : St) (k : PKey) (n : NeighId) {f : Route → Route} (hf : KeepsId f) : Only k s (modRoute s k n f) :=
  .routes (hard_modRoute ..) rfl rfl fun k' e => by rw [slotOf_modRoute_ne _ _ _ _ _ hf e]

theorem only_mark (s : St) (k : PKey) (n : NeighId) (o : Option Route) : Only k s (markInstalled s k n o) := by
  refine .routes (hard_mark ..) rfl rfl fun k' e => ?_
  show (slotOf (flatMove _ k n) k').map Route.core = _
  rw [slotOf_move_ne _ _ _ _ e, slotOf_modRoute_ne _ _ _ _ _ (keepsId_installed _) e]

theorem only_warn (k : PKey) (s : St) (r : Route) : Only k s (warnIfUnfeasible s r) := by
  unfold warnIfUnfeasible
  split
  · exact .refl k s
  · exact only_emit _ _ _ rfl

theorem only_install (c : Cfg) (s : St) (k : PKey) (n : NeighId) : Only k s (installRoute c s k n) := by
  unfold installRoute
  split
  · exact .refl k s
  · split
    · exact .refl k s
    · simp only
      split
      · exact (only_warn ..).trans (only_emit _ _ _ rfl)
      · split
        · exact (only_warn ..).trans (konly_changeAdd ..).only
        · exact (((only_warn ..).trans (konly_changeAdd ..).only).trans (only_mark ..)).trans (only_notify ..)

theorem only_uninstall (c : Cfg) (s : St) (k : PKey) (n : NeighId) : Only k s (uninstallRoute c s k n) := by
  unfold uninstallRoute
  split
  · exact .refl k s
  · split
    · exact .refl k s
    · simp only
      split
      · exact ((only_modRoute _ _ _ (keepsId_installed _)).trans (konly_changeFlush ..).only).trans (only_notify ..)
      · exact (only_modRoute _ _ _ (keepsId_installed _)).trans (konly_changeFlush ..).only

theorem only_switch (c : Cfg) (s : St) (k : PKey) (m n : NeighId) : Only k s (switchRoutes c s k m n) := by
  unfold switchRoutes
  split
  · split
    · exact .refl k s
    · simp only
      split
      · exact (only_warn ..).trans (konly_changeModify ..).only
      · exact (((((only_warn ..).trans (konly_changeModify ..).only).trans (only_modRoute _ _ _ (keepsId_installed _))).trans
          (only_mark ..)).trans (only_notify ..)).trans (only_notify ..)
  · exact .refl k s

theorem only_smooth (c : Cfg) (s : St) (k k' : PKey) (n : NeighId) : Only k s (smoothRoute c s k' n).2 :=
  .core (hard_smooth ..) (frame_smooth ..)

theorem only_findBest {c : Cfg} {s s1 : St} {k k' : PKey} {fe : Bool} {ex b : Option NeighId}
    (h : findBest c s k' fe ex = (b, s1)) : Only k s s1 := by
  have h1 := frame_findBest c s k' fe ex
  rw [h] at h1
  exact .core (hard_findBest' h) h1

theorem only_metric (c : Cfg) (s : St) (k : PKey) (n : NeighId) (a b d : Nat) :
    Only k s (changeRouteMetric c s k n a b d) := by
  unfold changeRouteMetric
  split
  · exact .refl k s
  · next r hr =>
    simp only
    generalize hp : (if r.installed = true ∧ metricToKernel c (routeMetric r) ≠ metricToKernel c (min (a + b + d) INFINITY)
      then changeModify c s r (metricToKernel c (routeMetric r)) r.nexthop (c.ifOf r.neigh)
        (metricToKernel c (min (a + b + d) INFINITY)) else (true, s)) = p
    have : Only k s p.2 := by
      rw [← hp]; split
      · exact (konly_changeModify ..).only
      · exact .refl k s
    split
    · exact this
    · exact ((this.trans (only_smooth ..)).trans (only_modRoute _ _ _ (fun r => keepsId_setMetric _ _ _ _ _ r))).trans (only_notify ..)

theorem only_sources (k : PKey) (s : St) (l : List Source) : Only k s { s with sources := l } :=
  .routes (hard_sources ..) rfl rfl fun _ _ => rfl

theorem only_ensure (k : PKey) (s : St) (sk : SKey) (q : UInt16) : Only k s (ensureSource s sk q) := by
  unfold ensureSource
  split
  · exact .refl k s
  · exact only_sources ..

theorem only_shouldSwitch (c : Cfg) (s : St) (k : PKey) (r : Route) (o : Option Route) : Only k s (shouldSwitch c s r o).2 := by
  unfold shouldSwitch
  split
  · exact .refl k s
  · split
    · exact .refl k s
    · split
      · exact .refl k s
      · split
        · exact (only_smooth ..).trans (only_smooth ..)
        · exact .refl k s

theorem only_apply (c : Cfg) (s : St) (k : PKey) (n : NeighId) (id : Bytes) (q : UInt16) (a b d : Nat) (u : Bool) :
    Only k s (applyUpdate c s k n id q a b d u) := by
  unfold applyUpdate
  simp only
  have h1 : Only k s (if u then uninstallRoute c s k n else s) := by
    split
    · exact only_uninstall ..
    · exact .refl k s
  have h2 : Only k s (retainSource (if u then uninstallRoute c s k n else s) ⟨id, k⟩) := h1.trans (only_sources ..)
  have h3 := h2.trans (only_modRoute _ k n (f := fun r => { r with
    id := id, seqno := q, time := if a < INFINITY then s.now.sec else r.time }) (fun _ => ⟨rfl, rfl⟩))
  have h4 := h3.trans (only_metric c _ k n a (s.ncost n) b)
  exact h4.trans (only_modRoute _ k n (f := fun r => { r with holdTime := d }) (fun _ => ⟨rfl, rfl⟩))

theorem only_sourceFor (k : PKey) (s : St) (r : Option Route) (sk : SKey) (q : UInt16) : Only k s (sourceFor s r sk q) := by
  unfold sourceFor
  split
  · exact .refl k s
  · exact only_ensure ..

theorem only_flushDuplicate (c : Cfg) (s : St) (kr : KRoute) : Only kr.key s (flushDuplicateRoute c s kr) := by
  unfold flushDuplicateRoute
  split
  · exact .refl _ s
  · split
    · exact only_uninstall ..
    · exact .refl _ s

theorem find_xInsert {x : Xroute} {l : List Xroute} {k : PKey} (h : k ≠ x.key) :
    (xInsert x l).find? (fun y => y.key == k) = l.find? (fun y => y.key == k) := by
  have hx : (x.key == k) = false := by simpa using Ne.symm h
  induction l with
  | nil => simp [xInsert, hx]
  | cons a l ih =>
    unfold xInsert
    split
    · rw [List.find?_cons, List.find?_cons, ih]
    · rw [List.find?_cons, hx]

theorem find_filter_key {x : PKey} {l : List Xroute} {k : PKey} (h : k ≠ x) :
    (l.filter (fun y => !(y.key == x))).find? (fun y => y.key == k) = l.find? (fun y => y.key == k) := by
  rw [List.find?_filter]
  congr 1
  funext y
  by_cases e : y.key = k
  · simp [e, h]
  · simp [e]

theorem find_xModify {x : Xroute} {kr : KRoute} {l : List Xroute} {k : PKey} (h : k ≠ x.key) :
    (xModify x kr l).find? (fun y => y.key == k) = l.find? (fun y => y.key == k) := by
  unfold xModify
  induction l with
  | nil => rfl
  | cons a l ih =>
    rw [List.map_cons, List.find?_cons, List.find?_cons, ih]
    have hx : (x.key == k) = false := by simpa using Ne.symm h
    by_cases e : a.key = x.key
    · simp [e, hx]
    · simp [e]

theorem only_addXroute (s : St) (kr : KRoute) : Only kr.key s (addXroute s kr).1 := by
  refine ⟨hard_addXroute .., ?_, ?_, ?_⟩
  all_goals unfold addXroute
  · split <;> rfl
  · intro k' _; split <;> rfl
  · intro k' e
    split
    · rfl
    · exact find_xInsert e

end Babel
