import Verif.Lemmas.Keys
/-
Where the destinations and router-ids come from: selection of routes, redistribution, and all events.
-/
set_option linter.unusedSimpArgs false
set_option linter.unusedVariables false
set_option linter.unusedSectionVars false
namespace Babel

section
variable {c : Cfg} {P X : PKey → Prop} {I : Bytes → Prop}

theorem tame_kernelAdd {s : St} (h : Keys P X I s) (t : Nat) (k : PKey) (g : Bytes) (i : IfId) (m : Nat) :
    Tame P X I s (kernelAdd c s t k g i m).2 := by
  unfold kernelAdd
  split
  · exact .refl h
  · split
    · exact .refl h
    · simp only [popK]
      exact iteInduction (motive := fun x : KRes × St => Tame P X I s x.2) (fun _ => tame_kernel h _ _) fun _ => tame_kernel h _ _

theorem tame_kernelFlush {s : St} (h : Keys P X I s) (t : Nat) (k : PKey) (g : Bytes) (i : IfId) (m : Nat) :
    Tame P X I s (kernelFlush c s t k g i m).2 := by
  unfold kernelFlush
  split
  · exact .refl h
  · split
    · exact .refl h
    · simp only [popK]
      exact iteInduction (motive := fun x : KRes × St => Tame P X I s x.2) (fun _ => tame_kernel h _ _) fun _ => tame_kernel h _ _

theorem tame_kernelModify {s : St} (h : Keys P X I s) (t : Nat) (k : PKey) (g : Bytes) (i : IfId) (m : Nat) (g' : Bytes)
    (i' : IfId) (m' : Nat) : Tame P X I s (kernelModify c s t k g i m g' i' m').2 := by
  unfold kernelModify
  split
  · exact .refl h
  · split
    · exact .refl h
    · have h1 := tame_kernelFlush (c := c) h t k g i m
      exact h1.trans (tame_kernelAdd h1.keys ..)

theorem tame_changeAdd {s : St} (h : Keys P X I s) (r : Route) (m : Nat) : Tame P X I s (changeAdd c s r m).2 := by
  unfold changeAdd
  split
  · exact .refl h
  · exact tame_kernelAdd h ..

theorem tame_changeFlush {s : St} (h : Keys P X I s) (r : Route) (m : Nat) : Tame P X I s (changeFlush c s r m).2 :=
  tame_kernelFlush h ..

theorem tame_changeModify {s : St} (h : Keys P X I s) (r : Route) (m : Nat) (g : Bytes) (i : IfId) (m' : Nat) :
    Tame P X I s (changeModify c s r m g i m').2 := tame_kernelModify h ..

theorem tame_notify {s : St} (h : Keys P X I s) (kd : NKind) (k : PKey) (n : NeighId) : Tame P X I s (notifyRoute s kd k n) := by
  unfold notifyRoute
  split
  · exact tame_emit h _ trivial
  · exact .refl h

theorem tame_smooth {s : St} (h : Keys P X I s) (k : PKey) (n : NeighId) : Tame P X I s (smoothRoute c s k n).2 := by
  unfold smoothRoute
  split
  · exact .refl h
  · next r hr =>
    have h1 := tame_modRoute h k n (fun r' => { r' with
      smoothed := (smoothedMetric c.halfLife s.now.sec s.rand r).1, smoothedTime := s.now.sec }) fun _ hr => hr
    exact h1.trans (tame_rand h1.keys _)

theorem tame_mark {s : St} (h : Keys P X I s) (k : PKey) (n : NeighId) (o : Option Route) :
    Tame P X I s (markInstalled s k n o) := by
  have h1 := tame_modRoute h k n (fun r => { r with installed := true }) fun _ hr => hr
  refine ⟨⟨fun r hr => ?_, h.xroutes, h.queue, h.resends, fun o' ho => ?_⟩, rfl, rfl, rfl, _, rfl⟩
  · have hr : r ∈ flatMove (modRoute s k n (fun r => { r with installed := true })).routes k n := hr
    unfold flatMove at hr
    split at hr
    · exact h1.keys.routes r hr
    · next r' hr' =>
      rcases List.mem_cons.1 hr with e | hr
      · rw [e]; exact h1.keys.routes r' (List.mem_of_find?_eq_some hr')
      · exact h1.keys.routes r (List.mem_filter.1 hr).1
  · have ho : o' ∈ selectionLog s k n o ++ s.out := ho
    rcases List.mem_append.1 ho with ho | ho
    · unfold selectionLog at ho
      split at ho
      · exact absurd ho List.not_mem_nil
      · rw [List.mem_singleton.1 ho]; trivial
    · exact h.out o' ho

theorem tame_warn {s : St} (h : Keys P X I s) (r : Route) : Tame P X I s (warnIfUnfeasible s r) := by
  unfold warnIfUnfeasible
  split
  · exact .refl h
  · exact tame_emit h _ trivial

theorem tame_install {s : St} (h : Keys P X I s) (k : PKey) (n : NeighId) : Tame P X I s (installRoute c s k n) := by
  unfold installRoute
  split
  · exact .refl h
  · next r hr =>
    split
    · exact .refl h
    · simp only
      have h1 := tame_warn h r
      split
      · exact h1.trans (tame_emit h1.keys _ trivial)
      · have h2 := h1.trans (tame_changeAdd (c := c) h1.keys r (metricToKernel c (routeMetric r)))
        split
        · exact h2
        · have h3 := h2.trans (tame_mark h2.keys k n none)
          exact h3.trans (tame_notify h3.keys ..)

theorem tame_uninstall {s : St} (h : Keys P X I s) (k : PKey) (n : NeighId) : Tame P X I s (uninstallRoute c s k n) := by
  unfold uninstallRoute
  split
  · exact .refl h
  · next r hr =>
    split
    · exact .refl h
    · simp only
      have h1 := tame_modRoute h k n (fun r => { r with installed := false }) fun _ hr => hr
      have h2 := h1.trans (tame_changeFlush (c := c) h1.keys r (metricToKernel c (routeMetric r)))
      split
      · exact h2.trans (tame_notify h2.keys ..)
      · exact h2

theorem tame_switch {s : St} (h : Keys P X I s) (k : PKey) (m n : NeighId) : Tame P X I s (switchRoutes c s k m n) := by
  unfold switchRoutes
  split
  · next o r ho hr =>
    split
    · exact .refl h
    · simp only
      have h1 := tame_warn h r
      have h2 := h1.trans (tame_changeModify (c := c) h1.keys o (metricToKernel c (routeMetric o)) r.nexthop (c.ifOf r.neigh)
        (metricToKernel c (routeMetric r)))
      split
      · exact h2
      · have h3 := h2.trans (tame_modRoute h2.keys k m (fun r => { r with installed := false }) fun _ hr => hr)
        have h4 := h3.trans (tame_mark h3.keys k n (some o))
        have h5 := h4.trans (tame_notify h4.keys .change k m)
        exact h5.trans (tame_notify h5.keys ..)
  · exact .refl h

theorem setMetric_keys (now : Int) (a b d : Nat) (r : Route) :
    (setMetric c now a b d r).key = r.key ∧ (setMetric c now a b d r).id = r.id := by
  unfold setMetric
  simp only
  split <;> exact ⟨rfl, rfl⟩

theorem tame_metric {s : St} (h : Keys P X I s) (k : PKey) (n : NeighId) (a b d : Nat) :
    Tame P X I s (changeRouteMetric c s k n a b d) := by
  unfold changeRouteMetric
  split
  · exact .refl h
  · next r hr =>
    simp only
    generalize hp : (if r.installed = true ∧ metricToKernel c (routeMetric r) ≠ metricToKernel c (min (a + b + d) INFINITY)
      then changeModify c s r (metricToKernel c (routeMetric r)) r.nexthop (c.ifOf r.neigh)
        (metricToKernel c (min (a + b + d) INFINITY)) else (true, s)) = p
    have h1 : Tame P X I s p.2 := by
      rw [← hp]; split
      · exact tame_changeModify h ..
      · exact .refl h
    split
    · exact h1
    · have h2 := h1.trans (tame_smooth (c := c) h1.keys k n)
      have h3 := h2.trans (tame_modRoute h2.keys k n (setMetric c s.now.sec a b d) fun r hr => by
        rw [(setMetric_keys ..).1, (setMetric_keys ..).2]; exact hr)
      exact h3.trans (tame_notify h3.keys ..)

theorem tame_retract {s : St} (h : Keys P X I s) (k : PKey) (n : NeighId) : Tame P X I s (retractRoute c s k n) :=
  tame_metric h ..

/-! ### Selection -/

theorem tame_bestScan (k : PKey) (fe : Bool) (ex : Option NeighId) (l : List NeighId) (b : Option NeighId) {s : St}
    (h : Keys P X I s) : Tame P X I s (bestScan c k fe ex l b s).2 := by
  induction l generalizing b s with
  | nil => exact .refl h
  | cons n l ih =>
    unfold bestScan
    split
    · exact ih b h
    · split
      · exact ih b h
      · split
        · exact ih _ h
        · next b' =>
          simp only
          have h1 := tame_smooth (c := c) h k n
          have h2 := h1.trans (tame_smooth (c := c) h1.keys k b')
          exact h2.trans (ih _ h2.keys)

theorem tame_findBest {s : St} (h : Keys P X I s) (k : PKey) (fe : Bool) (ex : Option NeighId) :
    Tame P X I s (findBest c s k fe ex).2 := tame_bestScan k fe ex _ _ h

theorem tame_findBest' {s s1 : St} (h : Keys P X I s) {k : PKey} {fe : Bool} {ex b : Option NeighId}
    (e : findBest c s k fe ex = (b, s1)) : Tame P X I s s1 := by
  have := tame_findBest (c := c) h k fe ex
  rw [e] at this
  exact this

variable (R : Rules c P X I)
include R

theorem tame_requestResend {s : St} (h : Keys P X I s) {k : PKey} (hk : P k) (q : UInt16) {id : Bytes} (hid : I id) :
    Tame P X I s (sendRequestResend c s k q id) := by
  unfold sendRequestResend
  split
  · next n s1 e =>
    have h1 := tame_findBest' h e
    have h2 := h1.trans (tame_ucMh R h1.keys n hk q hid (hop := 127) (by decide))
    exact h2.trans (tame_record h2.keys .request hk _ _ (fun _ => ⟨id, rfl, hid⟩) _ _)
  · next s1 e =>
    have h1 := tame_findBest' h e
    refine h1.trans (.foldl _ _ h1.keys fun i _ s' h' => ?_)
    split
    · exact tame_sendMh h' i none hk q hid (by decide)
    · exact .refl h'

theorem tame_unfeasible {s : St} (h : Keys P X I s) (n : NeighId) (f : Bool) (q : UInt16) (m : Nat) {sk : SKey}
    (hk : P sk.key) (hid : I sk.id) : Tame P X I s (sendUnfeasibleRequest c s n f q m sk) := by
  unfold sendUnfeasibleRequest
  split
  · exact .refl h
  · split
    · exact .refl h
    · exact iteInduction (motive := fun x => Tame P X I s x)
        (fun _ => tame_ucMh R h n hk _ hid (hop := 127) (by decide)) fun _ => .refl h

theorem tame_triggered {s : St} (h : Keys P X I s) {k : PKey} (hk : P k) (n : NeighId) (o : SKey) (m : Nat) :
    Tame P X I s (sendTriggeredUpdate c s k n o m) := by
  unfold sendTriggeredUpdate
  split
  · exact .refl h
  · split
    · exact .refl h
    · split
      · exact .refl h
      · next u _ =>
        simp only
        have h1 : Tame P X I s (if u ≥ 2 then sendUpdateResend c s k else sendUpdate c s (u == 1) k) := by
          split
          · exact tame_sendUpdateResend R h hk
          · exact tame_sendUpdate R h _ hk
        split
        · exact h1.trans (tame_mcRequest R h1.keys fun k' e => by cases e; exact hk)
        · exact h1

omit R in
theorem tame_shouldSwitch {s : St} (h : Keys P X I s) (r : Route) (o : Option Route) : Tame P X I s (shouldSwitch c s r o).2 := by
  unfold shouldSwitch
  split
  · exact .refl h
  · next o =>
    split
    · exact .refl h
    · split
      · exact .refl h
      · split
        · simp only
          have h1 := tame_smooth (c := c) h r.key o.neigh
          exact h1.trans (tame_smooth h1.keys ..)
        · exact .refl h

theorem tame_considerInstall {s : St} (h : Keys P X I s) {k : PKey} (hk : P k) (n : NeighId) (o : Option Route) :
    Tame P X I s (considerInstall c s k n o) := by
  unfold considerInstall
  split
  · have h1 := tame_install (c := c) h k n
    exact h1.trans (tame_sendUpdate R h1.keys true hk)
  · next o =>
    simp only
    have h1 := tame_switch (c := c) h k o.neigh n
    split
    · exact h1
    · split
      · exact h1.trans (tame_triggered R h1.keys hk ..)
      · exact h1.trans (tame_sendUpdate R h1.keys true hk)

theorem tame_consider {s : St} (h : Keys P X I s) (k : PKey) (n : NeighId) : Tame P X I s (considerRoute c s k n) := by
  unfold considerRoute
  split
  · exact .refl h
  · next r hr =>
    have hk := (h.find hr).1
    split
    · exact .refl h
    · split
      · exact .refl h
      · split
        · exact .refl h
        · simp only
          have h1 := tame_shouldSwitch (c := c) h r (findInstalled s k)
          split
          · exact h1.trans (tame_considerInstall R h1.keys hk ..)
          · exact h1

theorem tame_changedBetter {s : St} (h : Keys P X I s) (k : PKey) (n : NeighId) : Tame P X I s (routeChangedBetter c s k n) := by
  unfold routeChangedBetter
  split
  · exact .refl h
  · split
    · split
      · next e => exact tame_findBest' h e
      · next e =>
        have h1 := tame_findBest' h e
        split
        · exact h1
        · split
          · exact h1.trans (tame_consider R h1.keys ..)
          · exact h1
    · exact .refl h

theorem tame_changed {s : St} (h : Keys P X I s) (k : PKey) (n : NeighId) (o : SKey) (m : Nat) :
    Tame P X I s (routeChanged c s k n o m) := by
  unfold routeChanged
  simp only
  have h1 := tame_changedBetter R h k n
  split
  · exact h1
  · next r hr =>
    split
    · exact h1.trans (tame_triggered R h1.keys (h1.keys.find hr).1 ..)
    · exact h1.trans (tame_consider R h1.keys ..)

theorem tame_announceLost {s : St} (h : Keys P X I s) {sk : SKey} (hk : P sk.key) (hid : I sk.id) (m : Nat) :
    Tame P X I s (announceLost c s sk m) := by
  unfold announceLost
  split
  · simp only
    have h1 := tame_sendUpdateResend R h hk
    split
    · split
      · exact h1
      · exact h1.trans (tame_requestResend R h1.keys hk _ hid)
    · exact h1
  · exact .refl h

theorem tame_lost {s : St} (h : Keys P X I s) {sk : SKey} (hk : P sk.key) (hid : I sk.id) (m : Nat) :
    Tame P X I s (routeLost c s sk m) := by
  unfold routeLost
  split
  · next e =>
    have h1 := tame_findBest' h e
    exact h1.trans (tame_announceLost R h1.keys hk hid m)
  · next e =>
    have h1 := tame_findBest' h e
    split
    · exact h1
    · split
      · exact h1.trans (tame_consider R h1.keys ..)
      · exact h1.trans (tame_announceLost R h1.keys hk hid m)

omit R in
theorem tame_unlink {s : St} (h : Keys P X I s) (k : PKey) (n : NeighId) : Tame P X I s (unlinkRoute s k n) :=
  tame_routes h _ fun r hr => h.routes r (List.mem_filter.1 hr).1

theorem tame_flushRoute {s : St} (h : Keys P X I s) (k : PKey) (n : NeighId) : Tame P X I s (flushRoute c s k n) := by
  unfold flushRoute
  split
  · exact .refl h
  · next r hr =>
    obtain ⟨hm, -, -⟩ := findRoute_mem hr
    have hr' := h.routes r hm
    simp only
    have h1 : Tame P X I s (if r.installed = true then uninstallRoute c s k n else s) := by
      split
      · exact tame_uninstall h ..
      · exact .refl h
    have h2 := h1.trans (tame_notify h1.keys .flush k n)
    have h3 := h2.trans (tame_unlink h2.keys k n)
    have h4 : Tame P X I s (if r.installed = true then routeLost c (unlinkRoute (notifyRoute
        (if r.installed = true then uninstallRoute c s k n else s) .flush k n) k n) r.skey (routeMetric r) else
        unlinkRoute (notifyRoute (if r.installed = true then uninstallRoute c s k n else s) .flush k n) k n) := by
      refine iteInduction (motive := fun x => Tame P X I s x) (fun _ => ?_) fun _ => h3
      exact h3.trans (tame_lost R h3.keys (sk := r.skey) hr'.1 hr'.2 _)
    exact h4.trans (tame_modSource h4.keys ..)

theorem tame_updateRouteMetric {s : St} (h : Keys P X I s) (k : PKey) (n : NeighId) :
    Tame P X I s (updateRouteMetric c s k n) := by
  unfold updateRouteMetric
  split
  · exact .refl h
  · next r hr =>
    simp only
    have h1 := tame_smooth (c := c) h k n
    split
    · split
      · have h2 := fun q => h1.trans (tame_modRoute h1.keys k n (fun r' => { r' with seqno := q }) fun _ hr => hr)
        have h3 := fun q => (h2 q).trans (tame_retract (c := c) (h2 q).keys k n)
        split
        · exact (h3 _).trans (tame_changed R (h3 _).keys ..)
        · exact h3 _
      · exact h1
    · have h2 := h1.trans (tame_metric (c := c) h1.keys k n r.refmetric ((smoothRoute c s k n).2.ncost n)
        (c.inputFilter (some r.id) k (some n) (c.ifOf n)))
      split
      · exact h2
      · split
        · exact h2.trans (tame_changed R h2.keys ..)
        · have h3 := h2.trans (tame_smooth (c := c) h2.keys k n)
          split
          · exact h3.trans (tame_changed R h3.keys ..)
          · exact h3

omit R in
theorem tame_apply {s : St} (h : Keys P X I s) (k : PKey) (n : NeighId) {id : Bytes} (hid : I id) (q : UInt16)
    (m add hold : Nat) (u : Bool) : Tame P X I s (applyUpdate c s k n id q m add hold u) := by
  unfold applyUpdate
  simp only
  have h1 : Tame P X I s (if u = true then uninstallRoute c s k n else s) := by
    split
    · exact tame_uninstall h ..
    · exact .refl h
  have h2 : Tame P X I s (retainSource (if u = true then uninstallRoute c s k n else s) ⟨id, k⟩) :=
    h1.trans (tame_modSource h1.keys ..)
  have h3 := h2.trans (tame_modRoute h2.keys k n (fun r => { r with
    id := id, seqno := q, time := if m < INFINITY then s.now.sec else r.time }) fun _ hr => ⟨hr.1, hid⟩)
  have h4 := h3.trans (tame_metric (c := c) h3.keys k n m (s.ncost n) add)
  exact h4.trans (tame_modRoute h4.keys k n _ fun _ hr => hr)

omit R in
theorem tame_sourceFor {s : St} (h : Keys P X I s) (r : Option Route) (sk : SKey) (q : UInt16) :
    Tame P X I s (sourceFor s r sk q) := by
  unfold sourceFor
  split
  · exact .refl h
  · exact tame_ensure h ..

theorem tame_updateExisting {s : St} (h : Keys P X I s) {r : Route} (hr : P r.key ∧ I r.id) {id : Bytes} (hid : I id)
    (q : UInt16) (m add hold : Nat) : Tame P X I s (updateExisting c s r id q m add hold) := by
  unfold updateExisting
  simp only
  have h1 := tame_apply (c := c) h r.key r.neigh hid q m add hold
    (!updateFeasible s (findSource s ⟨id, r.key⟩) q m && r.installed && id != r.id)
  have h2 := h1.trans (tame_changed R h1.keys r.key r.neigh r.skey (routeMetric r))
  obtain ⟨S, hS⟩ : ∃ S, S = routeChanged c (applyUpdate c s r.key r.neigh id q m add hold
    (!updateFeasible s (findSource s ⟨id, r.key⟩) q m && r.installed && id != r.id)) r.key r.neigh r.skey (routeMetric r) := ⟨_, rfl⟩
  rw [← hS] at h2 ⊢
  have h3 : ∀ (a b f : Bool), Tame P X I s (if a = true then routeLost c S r.skey (routeMetric r)
      else if b = true then sendUnfeasibleRequest c S r.neigh f q (min (m + s.ncost r.neigh + add) INFINITY) ⟨id, r.key⟩
      else S) := by
    intro a b f
    split
    · exact h2.trans (tame_lost R h2.keys (sk := r.skey) hr.1 hr.2 _)
    · split
      · exact h2.trans (tame_unfeasible R h2.keys _ _ _ _ (sk := ⟨id, r.key⟩) hr.1 hid)
      · exact h2
  exact (h3 _ _ _).trans (tame_modSource (h3 _ _ _).keys ..)

theorem tame_updateNew {s : St} (h : Keys P X I s) {k : PKey} (hk : P k) (n : NeighId) {id : Bytes} (hid : I id)
    (q : UInt16) (m add hold : Nat) (nh : Option Bytes) : Tame P X I s (updateNew c s k n id q m add hold nh) := by
  unfold updateNew
  simp only
  split
  · exact .refl h
  · next nh =>
    have h1 : Tame P X I s (if (!updateFeasible s (findSource s ⟨id, k⟩) q m) = true then
        sendUnfeasibleRequest c s n false q (min (m + s.ncost n + add) INFINITY) ⟨id, k⟩ else s) := by
      split
      · exact tame_unfeasible R h _ _ _ _ (sk := ⟨id, k⟩) hk hid
      · exact .refl h
    obtain ⟨S, hS⟩ : ∃ S, S = (if (!updateFeasible s (findSource s ⟨id, k⟩) q m) = true then
        sendUnfeasibleRequest c s n false q (min (m + s.ncost n + add) INFINITY) ⟨id, k⟩ else s) := ⟨_, rfl⟩
    rw [← hS] at h1 ⊢
    have h2 : Tame P X I s (retainSource S ⟨id, k⟩) := h1.trans (tame_modSource h1.keys ..)
    have h3 : Tame P X I s { retainSource S ⟨id, k⟩ with
        routes := flatInsert (retainSource S ⟨id, k⟩).routes (newRoute (retainSource S ⟨id, k⟩) k n id q m add hold nh) } := by
      refine h2.trans (tame_routes h2.keys _ fun r hr => ?_)
      rcases List.mem_append.1 hr with hr | hr
      · exact h2.keys.routes r hr
      · rw [List.mem_singleton.1 hr]; exact ⟨hk, hid⟩
    have h4 := h3.trans (tame_notify h3.keys .add k n)
    exact h4.trans (tame_consider R h4.keys ..)

theorem tame_updateRoute {s : St} (h : Keys P X I s) (id : Option Bytes) (k : PKey) (q : UInt16) (m iv : Nat) (n : NeighId)
    (nh : Option Bytes) (hk : updateRefused c id k m n = false → P k) (hid : ∀ i, id = some i → I i) :
    Tame P X I s (updateRoute c s id k q m iv n nh) := by
  unfold updateRoute
  split
  · exact .refl h
  · next hrf =>
    replace hk := hk (by simpa using hrf)
    cases hf : findRoute s k n with
    | none =>
      cases id with
      | none => exact .refl h
      | some id =>
        simp only
        split
        · exact .refl h
        · have h1 := tame_sourceFor h none ⟨id, k⟩ q
          exact h1.trans (tame_updateNew R h1.keys hk n (hid _ rfl) ..)
    | some r =>
      have hr' := h.routes r (findRoute_mem hf).1
      have hI : I (id.getD r.id) := by
        cases id with
        | none => exact hr'.2
        | some i => exact hid i rfl
      have h1 := tame_sourceFor h (some r) ⟨id.getD r.id, k⟩ q
      simp only
      exact h1.trans (tame_updateExisting R h1.keys hr' hI ..)

/-! ### Walks -/

omit R in
theorem tame_walkFrom {act : St → NeighId → St} (ha : ∀ s n, Keys P X I s → Tame P X I s (act s n)) (k : PKey) (fuel : Nat)
    (cur : Option NeighId) {s : St} (h : Keys P X I s) : Tame P X I s (walkFrom act k fuel cur s) := by
  induction fuel generalizing cur s with
  | zero => exact .refl h
  | succ f ih =>
    cases cur with
    | none => exact .refl h
    | some n =>
      have h1 := ha s n h
      exact h1.trans (ih _ h1.keys)

omit R in
theorem tame_walk {act : St → PKey → NeighId → St} (ha : ∀ s k n, Keys P X I s → Tame P X I s (act s k n)) (fuel : Nat)
    {s : St} (h : Keys P X I s) : Tame P X I s ((slotKeys s).foldl (walkSlot act fuel) s) :=
  .foldl _ _ h fun k _ s' h' => tame_walkFrom (fun s n => ha s k n) k fuel _ h'

theorem tame_retractOne {s : St} (h : Keys P X I s) (k : PKey) (n : NeighId) : Tame P X I s (retractOne c s k n) := by
  unfold retractOne
  split
  · exact .refl h
  · split
    · simp only
      have h1 := tame_retract (c := c) h k n
      split
      · exact h1.trans (tame_changed R h1.keys ..)
      · exact h1
    · exact .refl h

theorem tame_flushSlot (p : Route → Bool) (k : PKey) (fuel : Nat) {s : St} (h : Keys P X I s) :
    Tame P X I s (flushSlot c p k fuel s) := by
  induction fuel generalizing s with
  | zero => exact .refl h
  | succ f ih =>
    unfold flushSlot
    split
    · exact .refl h
    · next r _ =>
      have h1 := tame_flushRoute R h k r.neigh
      exact h1.trans (ih h1.keys)

theorem tame_flushWhere (p : Route → Bool) {s : St} (h : Keys P X I s) : Tame P X I s (flushWhere c p s) :=
  .foldl _ _ h fun k _ s' h' => tame_flushSlot R p k _ h'

theorem tame_flushAllSlot (k : PKey) (fuel : Nat) {s : St} (h : Keys P X I s) : Tame P X I s (flushAllSlot c k fuel s) := by
  induction fuel generalizing s with
  | zero => exact .refl h
  | succ f ih =>
    unfold flushAllSlot
    split
    · exact .refl h
    · next r _ =>
      have h1 := tame_uninstall (c := c) h k r.neigh
      have h2 := h1.trans (tame_flushRoute R h1.keys k r.neigh)
      exact h2.trans (ih h2.keys)

theorem tame_expireKeep {s : St} (h : Keys P X I s) (k : PKey) (n : NeighId) : Tame P X I s (expireKeep c s k n) := by
  unfold expireKeep
  simp only
  have h1 := tame_updateRouteMetric R h k n
  split
  · exact h1
  · next r hr =>
    split
    · exact h1.trans (tame_ucRequest R h1.keys n (h1.keys.find hr).1)
    · exact h1

theorem tame_expireFrom (k : PKey) (fuel : Nat) (cur : Option NeighId) {s : St} (h : Keys P X I s) :
    Tame P X I s (expireFrom c k fuel cur s).1 := by
  induction fuel generalizing cur s with
  | zero => exact .refl h
  | succ f ih =>
    cases cur with
    | none => exact .refl h
    | some n =>
      unfold expireFrom
      split
      · exact .refl h
      · split
        · have h1 := tame_flushRoute R h k n
          exact h1.trans (ih _ h1.keys)
        · have h1 := tame_expireKeep R h k n
          exact h1.trans (ih _ h1.keys)

theorem tame_expireRoutes (fuel : Nat) {s : St} (h : Keys P X I s) : Tame P X I s (expireRoutes c fuel s).1 := by
  unfold expireRoutes
  have : ∀ (l : List PKey) (p : St × Bool), Keys P X I p.1 → Tame P X I p.1 (l.foldl (fun p k =>
      let q := expireSlot c fuel p.1 k
      (q.1, p.2 && q.2)) p).1 := by
    intro l
    induction l with
    | nil => exact fun p hp => .refl hp
    | cons k l ih =>
      intro p hp
      have h1 := tame_expireFrom R k fuel ((slotOf p.1.routes k).head?.map (·.neigh)) hp
      exact h1.trans (ih ((expireSlot c fuel p.1 k).1, p.2 && (expireSlot c fuel p.1 k).2) h1.keys)
  exact this _ (s, true) h

/-! ### Redistribution -/

omit R in
theorem xInsert_in (x : Xroute) (l : List Xroute) (y : Xroute) (h : y ∈ xInsert x l) : y = x ∨ y ∈ l := by
  induction l with
  | nil => exact .inl (List.mem_singleton.1 h)
  | cons z l ih =>
    unfold xInsert at h
    split at h
    · rcases List.mem_cons.1 h with e | h
      · exact .inr (e ▸ List.mem_cons_self ..)
      · rcases ih h with e | h
        · exact .inl e
        · exact .inr (List.mem_cons_of_mem _ h)
    · rcases List.mem_cons.1 h with e | h
      · exact .inl e
      · exact .inr h

omit R in
theorem tame_addXroute {s : St} (h : Keys P X I s) {kr : KRoute} (hk : X kr.key) : Tame P X I s (addXroute s kr).1 := by
  unfold addXroute
  split
  · exact .refl h
  · have h1 : Tame P X I s { s with xroutes := xInsert ⟨kr.key, kr.metric, kr.ifindex, kr.proto⟩ s.xroutes } := by
      refine tame_xroutes h _ fun x hx => ?_
      rcases xInsert_in _ _ _ hx with e | hx
      · rw [e]; exact hk
      · exact h.xroutes x hx
    exact h1.trans (tame_emit h1.keys _ trivial)

theorem tame_flushXroute {s : St} (h : Keys P X I s) {x : Xroute} (hx : x ∈ s.xroutes) (u : Bool) :
    Tame P X I s (flushXroute c s x u) := by
  have hk : P (flushXrouteKey s x) := by
    unfold flushXrouteKey
    cases e : s.xroutes with
    | nil => rw [e] at hx; exact absurd hx List.not_mem_nil
    | cons x0 l =>
      exact R.mix x.key x0.key (h.xroutes x hx) (h.xroutes x0 (e ▸ List.mem_cons_self ..))
  unfold flushXroute
  simp only
  have h1 := tame_emit h (.notifyXroute .flush x) trivial
  have h2 := h1.trans (tame_xroutes h1.keys ((emit s (.notifyXroute .flush x)).xroutes.filter fun y => !(y.key == x.key))
    fun y hy => h.xroutes y (List.mem_filter.1 hy).1)
  have h3 := h2.trans (tame_findBest (c := c) h2.keys (flushXrouteKey s x) true none)
  split
  · next r _ =>
    split
    · have h4 := h3.trans (tame_install (c := c) h3.keys (flushXrouteKey s x) r.neigh)
      split
      · exact h4.trans (tame_sendUpdate R h4.keys false hk)
      · exact h4
    · split
      · exact h3.trans (tame_sendUpdateResend R h3.keys hk)
      · exact h3
  · split
    · exact h3.trans (tame_sendUpdateResend R h3.keys hk)
    · exact h3

theorem tame_modifyXroute {s : St} (h : Keys P X I s) {x : Xroute} (hx : X x.key) (kr : KRoute) (u : Bool) :
    Tame P X I s (modifyXroute c s x kr u) := by
  unfold modifyXroute
  split
  · simp only
    have h1 : Tame P X I s { s with xroutes := s.xroutes.map (fun y => if (y.key == x.key) = true then
        { x with metric := kr.metric, proto := kr.proto } else y) } := by
      refine tame_xroutes h _ fun y hy => ?_
      obtain ⟨z, hz, e⟩ := List.mem_map.1 hy
      subst e
      split
      · exact hx
      · exact h.xroutes z hz
    have h2 := h1.trans (tame_emit h1.keys (.notifyXroute .change { x with metric := kr.metric, proto := kr.proto }) trivial)
    split
    · exact h2.trans (tame_sendUpdate R h2.keys false (R.sub _ hx))
    · exact h2
  · exact .refl h

omit R in
theorem tame_flushDup {s : St} (h : Keys P X I s) (kr : KRoute) : Tame P X I s (flushDuplicateRoute c s kr) := by
  unfold flushDuplicateRoute
  split
  · exact .refl h
  · split
    · exact tame_uninstall h ..
    · exact .refl h

theorem tame_addAnnounce {s : St} (h : Keys P X I s) {kr : KRoute} (hk : X kr.key) (u : Bool) :
    Tame P X I s (addAndAnnounce c s kr u).1 := by
  unfold addAndAnnounce
  simp only
  have h1 := tame_addXroute h hk
  split
  · have h2 := h1.trans (tame_flushDup (c := c) h1.keys kr)
    simp only
    split
    · exact h2.trans (tame_sendUpdate R h2.keys false (R.sub _ hk))
    · exact h2
  · exact h1

theorem tame_kernelNotify {s : St} (h : Keys P X I s) (a : Bool) {kr : KRoute} (hk : X (redistribute c kr).key) :
    Tame P X I s (kernelRouteNotify c s a kr) := by
  unfold kernelRouteNotify
  simp only
  split
  · exact .refl h
  · split
    · next x hx =>
      have hm : x ∈ s.xroutes := List.mem_of_find?_eq_some hx
      split
      · exact tame_modifyXroute R h (h.xroutes x hm) ..
      · exact tame_flushXroute R h hm true
    · split
      · exact .refl h
      · split
        · exact .refl h
        · exact tame_addAnnounce R h hk true

theorem tame_mergeAdd {u : Bool} {cont : List KRoute → Nat → St → St} {kr : KRoute} {rest : List KRoute}
    (hc : ∀ j s, Keys P X I s → Tame P X I s (cont rest j s)) (hk : X kr.key) (j : Nat) {s : St} (h : Keys P X I s) :
    Tame P X I s (mergeAdd c u cont kr rest j s) := by
  unfold mergeAdd
  split
  · simp only
    have h1 := tame_addAnnounce R h hk u
    exact h1.trans (hc _ _ h1.keys)
  · exact hc _ _ h

theorem tame_merge (u : Bool) (fuel : Nat) (krs : List KRoute) (hk : ∀ kr ∈ krs, X kr.key) (j : Nat) {s : St}
    (h : Keys P X I s) : Tame P X I s (mergeXroutes c u fuel krs j s) := by
  induction fuel generalizing krs j s with
  | zero => exact .refl h
  | succ f ih =>
    unfold mergeXroutes
    cases krs with
    | nil =>
      cases hx : s.xroutes[j]? with
      | none => exact .refl h
      | some x =>
        have h1 := tame_flushXroute R h (List.mem_of_getElem? hx) u
        exact h1.trans (ih [] hk j h1.keys)
    | cons kr rest =>
      have hk' : ∀ kr ∈ rest, X kr.key := fun kr h => hk kr (List.mem_cons_of_mem _ h)
      have hk0 := hk kr (List.mem_cons_self ..)
      simp only
      split
      · exact ih rest hk' j h
      · cases hx : s.xroutes[j]? with
        | none => exact tame_mergeAdd R (fun j s h => ih rest hk' j h) hk0 j h
        | some x =>
          have hm : x ∈ s.xroutes := List.mem_of_getElem? hx
          simp only
          split
          · exact tame_mergeAdd R (fun j s h => ih rest hk' j h) hk0 j h
          · have h1 := tame_flushXroute R h hm u
            exact h1.trans (ih _ hk j h1.keys)
          · have h1 := tame_modifyXroute R h (h.xroutes x hm) kr u
            exact h1.trans (ih _ hk' _ h1.keys)

theorem tame_checkXroutes {s : St} (h : Keys P X I s) (krs : List KRoute) (hk : ∀ kr ∈ krs, X (redistribute c kr).key)
    (u : Bool) : Tame P X I s (checkXroutes c s krs u) := by
  refine tame_merge R u _ _ (fun kr hkr => ?_) 0 h
  obtain ⟨kr0, h0, e⟩ := List.mem_map.1 (sortBy_in _ _ _ hkr)
  rw [← e]; exact hk kr0 h0

/-! ### Requests -/

theorem tame_answerOwn {s : St} (h : Keys P X I s) (n : NeighId) {k : PKey} (hk : P k) (hop : Nat) (q : UInt16) (id : Bytes) :
    Tame P X I s (answerOwn c s n k hop q id) := by
  unfold answerOwn
  split
  · split
    · exact .refl h
    · have h1 := tame_myseqno h (seqnoPlus s.myseqno 1)
      exact h1.trans (tame_sendUpdateIf R h1.keys _ true hk)
  · exact tame_sendUpdateIf R h _ true hk

omit R in
theorem tame_successor {s : St} (h : Keys P X I s) (n : NeighId) (k : PKey) (r : Option Route) :
    Tame P X I s (chooseSuccessor c s n k r).2 := by
  unfold chooseSuccessor
  simp only
  split
  · split
    · next e => exact tame_findBest' h e
    · next e =>
      have h1 := tame_findBest' h e
      split <;> exact h1
  · exact .refl h

theorem tame_forward {s : St} (h : Keys P X I s) (n : NeighId) {k : PKey} (hk : P k) {hop : Nat} (hh : hop < 256) (q : UInt16)
    {id : Bytes} (hid : I id) (o : Option NeighId) : Tame P X I s (forwardRequest c s n k hop q id o) := by
  unfold forwardRequest
  split
  · exact .refl h
  · next m =>
    split
    · exact .refl h
    · have h1 := tame_ucMh R h m hk q hid (hop := hop - 1) (by omega)
      exact h1.trans (tame_record h1.keys .request hk _ _ (fun _ => ⟨id, rfl, hid⟩) _ _)

theorem tame_handle {s : St} (h : Keys P X I s) (n : NeighId) {k : PKey} (hk : P k) {hop : Nat} (hh : hop < 256) (q : UInt16)
    {id : Bytes} (hid : I id) : Tame P X I s (handleRequest c s n k hop q id) := by
  unfold handleRequest
  split
  · exact tame_answerOwn R h n hk ..
  · simp only
    split
    · exact tame_sendUpdateIf R h _ true hk
    · split
      · exact .refl h
      · split
        · exact .refl h
        · split
          · exact .refl h
          · have h1 := tame_successor (c := c) h n k (findInstalled s k)
            exact h1.trans (tame_forward R h1.keys n hk hh q hid _)

omit R in
/-- The destinations and router-ids in an event satisfy the invariants. -/
def EvKeys (c : Cfg) (P X : PKey → Prop) (I : Bytes → Prop) : Ev → Prop
  | .update id k _ m _ n _ => (updateRefused c id k m n = false → P k) ∧ ∀ i, id = some i → I i
  | .routeRequest _ k => P k
  | .seqnoRequest _ k h _ id => P k ∧ h < 256 ∧ I id
  | .kernelRoute _ kr => X (redistribute c kr).key
  | .checkXroutes krs _ => ∀ kr ∈ krs, X (redistribute c kr).key
  | _ => True

/-- Every event that does not change the clock, the link costs or which interfaces are up. -/
theorem tame_step {s : St} (h : Keys P X I s) (ev : Ev) (he : EvKeys c P X I ev)
    (h1 : ∀ t, ev ≠ .tick t) (h2 : ∀ n v, ev ≠ .setCost n v) (h3 : ∀ i, ev ≠ .ifDown i ∧ ∀ b, ev ≠ .ifUp i b) :
    Tame P X I s (step c s ev) := by
  cases ev with
  | tick t => exact absurd rfl (h1 t)
  | setCost n v => exact absurd rfl (h2 n v)
  | update id k q m iv n nh => exact tame_updateRoute R h id k q m iv n nh he.1 he.2
  | retractNeigh f n =>
    refine tame_walk (fun s k m h => ?_) f h
    split
    · exact tame_retractOne R h k m
    · exact .refl h
  | updNeigh f n =>
    refine tame_walk (fun s k m h => ?_) f h
    split
    · exact tame_updateRouteMetric R h k m
    · exact .refl h
  | updIface f i =>
    refine tame_walk (fun s k m h => ?_) f h
    split
    · exact tame_updateRouteMetric R h k m
    · exact .refl h
  | flushNeigh n => exact tame_flushWhere R _ h
  | flushIface i v => exact tame_flushWhere R _ h
  | ifDown i => exact absurd rfl (h3 i).1
  | ifUp i b => exact absurd rfl ((h3 i).2 b)
  | expireRoutes f => exact tame_expireRoutes R f h
  | expireSources => exact tame_sources h _
  | expireResend => exact tame_expireResend h
  | doResend => exact tame_doResend R h
  | flushUpdates i => exact tame_flushUpdates R h i
  | fullUpdate i u => exact tame_sendAny R h i u
  | routeRequest n k => exact tame_sendUpdateIf R h _ false he
  | seqnoRequest n k hop q id => exact tame_handle R h n he.1 he.2.1 q he.2.2
  | kernelRoute a kr => exact tame_kernelNotify R h a he
  | checkXroutes krs u => exact tame_checkXroutes R h krs he u
  | flushAll => exact .foldl _ _ h fun k _ s' h' => tame_flushAllSlot R k _ h'

end
end Babel
