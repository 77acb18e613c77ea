import Verif.Lemmas.Trans
/-
Decomposition of the events into elementary transitions, continued: every event is a sequence of
elementary transitions.
-/
set_option linter.unusedSimpArgs false
set_option linter.unusedVariables false
set_option linter.unusedSectionVars false
namespace Babel
open Spec

theorem core_eq {r r' : Route} (h : r'.core = r.core) :
    r' = { r with smoothed := r'.smoothed, smoothedTime := r'.smoothedTime } := by
  cases r; cases r'
  simp only [Route.core, Route.mk.injEq] at h ⊢
  simp [h]

theorem core_metric {r r' : Route} (h : r'.core = r.core) : routeMetric r' = routeMetric r := by
  rw [core_eq h]; rfl
theorem core_installed {r r' : Route} (h : r'.core = r.core) : r'.installed = r.installed := by
  rw [core_eq h]
theorem core_neigh {r r' : Route} (h : r'.core = r.core) : r'.neigh = r.neigh := by
  rw [core_eq h]
theorem core_key {r r' : Route} (h : r'.core = r.core) : r'.key = r.key := by
  rw [core_eq h]
theorem core_skey {r r' : Route} (h : r'.core = r.core) : r'.skey = r.skey := by
  rw [core_eq h]; rfl
theorem core_id {r r' : Route} (h : r'.core = r.core) : r'.id = r.id := by
  rw [core_eq h]
theorem core_seqno {r r' : Route} (h : r'.core = r.core) : r'.seqno = r.seqno := by
  rw [core_eq h]
theorem core_refmetric {r r' : Route} (h : r'.core = r.core) : r'.refmetric = r.refmetric := by
  rw [core_eq h]

theorem map_core_some {a : Option Route} {r : Route} (h : a.map Route.core = some r.core) :
    ∃ r', a = some r' ∧ r'.core = r.core := by
  cases a with
  | none => simp at h
  | some x => simp at h; exact ⟨x, rfl, h⟩

theorem Frame.route {s s' : St} (h : Frame s s') {k : PKey} {n : NeighId} {r : Route}
    (hr : Babel.findRoute s k n = some r) : ∃ r', Babel.findRoute s' k n = some r' ∧ r'.core = r.core := by
  have := h.findRoute k n
  rw [hr] at this
  exact map_core_some this

theorem Frame.route_inv {s s' : St} (h : Frame s s') {k : PKey} {n : NeighId} {r : Route}
    (hr : Babel.findRoute s' k n = some r) : ∃ r', Babel.findRoute s k n = some r' ∧ r.core = r'.core := by
  have := h.findRoute k n
  rw [hr] at this
  obtain ⟨x, hx, e⟩ := map_core_some this.symm
  exact ⟨x, hx, e.symm⟩

theorem Frame.installed {s s' : St} (h : Frame s s') {k : PKey} {r : Route}
    (hr : Babel.findInstalled s k = some r) :
    ∃ r', Babel.findInstalled s' k = some r' ∧ r'.core = r.core := by
  have := h.findInstalled k
  rw [hr] at this
  exact map_core_some this

theorem Frame.installed_none {s s' : St} (h : Frame s s') {k : PKey}
    (hr : Babel.findInstalled s k = none) : Babel.findInstalled s' k = none := by
  have := h.findInstalled k
  rw [hr] at this
  cases e : Babel.findInstalled s' k with
  | none => rfl
  | some x => rw [e] at this; simp at this

theorem Frame.feasible {s s' : St} (h : Frame s s') {r r' : Route} (e : r'.core = r.core) :
    routeFeasible s' r' = routeFeasible s r := by
  unfold routeFeasible updateFeasible findSource
  rw [h.sources, h.now, core_skey e, core_seqno e, core_refmetric e]

theorem Frame.expired {s s' : St} (h : Frame s s') {r r' : Route} (e : r'.core = r.core) :
    routeExpired s' r' = routeExpired s r := by
  unfold routeExpired
  rw [h.now, core_eq e]

/-! ### find_best_route -/

/-- `n` is an acceptable choice in `s`. -/
def Acceptable (s : St) (k : PKey) (feasible : Bool) (exclude : Option NeighId) (n : NeighId) : Prop :=
  ∃ r, findRoute s k n = some r ∧ routeAcceptable s r feasible exclude = true

theorem Acceptable.frame {s s' : St} (h : Frame s s') {k fe ex n} (a : Acceptable s k fe ex n) :
    Acceptable s' k fe ex n := by
  obtain ⟨r, hr, ha⟩ := a
  obtain ⟨r', hr', e⟩ := h.route hr
  refine ⟨r', hr', ?_⟩
  rw [← ha]
  unfold routeAcceptable
  rw [h.expired e, h.feasible e, core_neigh e]

theorem bestScan_acceptable (c : Cfg) (k : PKey) (fe : Bool) (ex : Option NeighId) (l : List NeighId)
    (b : Option NeighId) (s : St) (hb : ∀ n, b = some n → Acceptable s k fe ex n) (n : NeighId)
    (h : (bestScan c k fe ex l b s).1 = some n) :
    Acceptable (bestScan c k fe ex l b s).2 k fe ex n := by
  induction l generalizing b s with
  | nil => exact hb n h
  | cons m l ih =>
    unfold bestScan at h ⊢
    split at h
    · exact ih _ _ hb h
    · next r e =>
      split at h
      · next ha => rw [if_pos ha]; exact ih _ _ hb h
      · next ha =>
        rw [if_neg ha]
        have hm : Acceptable s k fe ex m := ⟨r, e, by simpa using ha⟩
        split at h
        · exact ih _ _ (by intro n' e'; simp at e'; rw [← e']; exact hm) h
        · next b' =>
          have hf := (frame_smooth c s k m).trans (frame_smooth c (smoothRoute c s k m).2 k b')
          refine ih _ _ ?_ h
          intro n' e'
          split at e'
          · simp at e'; rw [← e']; exact hm.frame hf
          · simp at e'; rw [← e']; exact (hb b' rfl).frame hf

theorem findBest_acceptable {c : Cfg} {s s1 : St} {k : PKey} {fe : Bool} {ex : Option NeighId}
    {n : NeighId} (h : findBest c s k fe ex = (some n, s1)) : Acceptable s1 k fe ex n := by
  have := bestScan_acceptable c k fe ex ((slotOf s.routes k).map (·.neigh)) none s (by simp) n
    (by unfold findBest at h; rw [h])
  unfold findBest at h
  rw [h] at this
  exact this

theorem findBest_frame {c : Cfg} {s s1 : St} {k : PKey} {fe : Bool} {ex : Option NeighId}
    {b : Option NeighId} (h : findBest c s k fe ex = (b, s1)) : Frame s s1 := by
  have := frame_findBest c s k fe ex
  rw [h] at this
  exact this

theorem acceptable_spec {s : St} {k : PKey} {n : NeighId} {ex : Option NeighId} {fe : Bool}
    (h : Acceptable s k fe ex n) :
    ∃ r, findRoute s k n = some r ∧ routeExpired s r = false ∧ (fe = true → routeFeasible s r = true)
      ∧ ex ≠ some n := by
  obtain ⟨r, hr, ha⟩ := h
  have hn := (findRoute_mem hr).2.2
  unfold routeAcceptable at ha
  refine ⟨r, hr, ?_⟩
  split at ha
  · simp at ha
  · next h1 =>
    split at ha
    · simp at ha
    · next h2 =>
      split at ha
      · simp at ha
      · next h3 =>
        refine ⟨by simpa using h1, ?_, by rw [← hn]; exact h3⟩
        intro hfe
        rw [hfe] at h2
        simpa using h2

/-! ### Route contents -/

/-- A route without its smoothed metric and its selection. -/
def Route.content (r : Route) : Route := { r with smoothed := 0, smoothedTime := 0, installed := false }

theorem content_eq {r r' : Route} (h : r'.content = r.content) :
    r' = { r with smoothed := r'.smoothed, smoothedTime := r'.smoothedTime,
                  installed := r'.installed } := by
  cases r; cases r'
  simp only [Route.content, Route.mk.injEq] at h ⊢
  simp [h]

theorem content_metric {r r' : Route} (h : r'.content = r.content) : routeMetric r' = routeMetric r := by
  rw [content_eq h]; rfl

theorem content_of_core {r r' : Route} (h : r'.core = r.core) : r'.content = r.content := by
  rw [core_eq h]; rfl

/-- The clock and the contents of all routes are the same. -/
structure RSame (s s' : St) : Prop where
  now : s'.now = s.now
  find : ∀ k n, (findRoute s' k n).map Route.content = (findRoute s k n).map Route.content

theorem RSame.refl (s : St) : RSame s s := ⟨rfl, fun _ _ => rfl⟩
theorem RSame.trans {a b c : St} (h : RSame a b) (g : RSame b c) : RSame a c :=
  ⟨g.now.trans h.now, fun k n => (g.find k n).trans (h.find k n)⟩

theorem map_content_of_core {a b : Option Route} (h : a.map Route.core = b.map Route.core) :
    a.map Route.content = b.map Route.content := by
  cases a <;> cases b <;> simp at h ⊢
  exact content_of_core h

theorem QSame.rsame {s s' : St} (h : QSame s s') : RSame s s' :=
  ⟨h.now, fun k n => map_content_of_core (h.findRoute k n)⟩

theorem RSame.route {s s' : St} (h : RSame s s') {k n r} (hr : findRoute s k n = some r) :
    ∃ r', findRoute s' k n = some r' ∧ r'.content = r.content := by
  have := h.find k n
  rw [hr] at this
  cases e : findRoute s' k n with
  | none => rw [e] at this; simp at this
  | some x => rw [e] at this; simp at this; exact ⟨x, rfl, this⟩

theorem RSame.route_inv {s s' : St} (h : RSame s s') {k n r} (hr : findRoute s' k n = some r) :
    ∃ r', findRoute s k n = some r' ∧ r.content = r'.content := by
  have := h.find k n
  rw [hr] at this
  cases e : findRoute s k n with
  | none => rw [e] at this; simp at this
  | some x => rw [e] at this; simp at this; exact ⟨x, rfl, this⟩

theorem RSame.expired {s s' : St} (h : RSame s s') {r r' : Route} (e : r'.content = r.content) :
    routeExpired s' r' = routeExpired s r := by
  unfold routeExpired
  rw [h.now, content_eq e]

theorem rsame_of_routes {s s' : St} (hn : s'.now = s.now) (h : s'.routes = s.routes) : RSame s s' :=
  ⟨hn, fun k n => by unfold findRoute; rw [h]⟩

theorem rsame_setInstalled (s : St) (k : PKey) (n : NeighId) (b : Bool) :
    RSame s (modRoute s k n (fun r => { r with installed := b })) := by
  refine ⟨rfl, fun k' n' => ?_⟩
  rw [findRoute_modRoute _ _ _ _ _ _ (keepsId_installed b)]
  split
  · next h => rw [h.1, h.2]; cases findRoute s k n <;> rfl
  · rfl

theorem rsame_mark (s : St) (k : PKey) (n : NeighId) (o : Option Route) : RSame s (markInstalled s k n o) := by
  refine (rsame_setInstalled s k n true).trans ⟨rfl, fun k' n' => ?_⟩
  congr 1
  exact flatFind_move ..

theorem rsame_notify (s : St) (kd : NKind) (k : PKey) (n : NeighId) :
    RSame s (notifyRoute s kd k n) := rsame_of_routes (notifyRoute_now ..) (notifyRoute_routes ..)

theorem KOnly.rsame {s s' : St} (h : KOnly s s') : RSame s s' := rsame_of_routes h.now h.routes

/-- The selected route after marking. -/
theorem mark_installed {old : Option Route} {s : St} {k : PKey} {n : NeighId} {r : Route} (h : findRoute s k n = some r) :
    findInstalled (markInstalled s k n old) k = some { r with installed := true } := by
  have e : flatFind (flatModify s.routes k n (fun r => { r with installed := true })) k n =
      some { r with installed := true } := by
    rw [flatFind_modify _ _ _ _ _ _ (keepsId_installed true)]
    unfold findRoute at h
    simp [h]
  have := slotOf_move _ k n e
  rw [findInstalled_eq (s := markInstalled s k n old) this]
  rfl

/-- The effect of considering the route `(k, b)`: contents stay, and if a selected route is
deselected then the selected route is `(k, b)`. -/
structure Cons (s s' : St) (k : PKey) (b : NeighId) : Prop where
  same : RSame s s'
  lost : ∀ n r r', findRoute s k n = some r → r.installed = true → findRoute s' k n = some r' →
    r'.installed = false → ∃ x rb, findInstalled s' k = some x ∧ findRoute s k b = some rb ∧
      x.content = rb.content

theorem Cons.refl (s : St) (k : PKey) (b : NeighId) : Cons s s k b :=
  ⟨.refl s, fun n r r' h hi h' hi' => by rw [h] at h'; simp at h'; rw [← h', hi] at hi'; simp at hi'⟩

theorem Cons.qsame {s s1 s' : St} {k : PKey} {b : NeighId} (h : Cons s s1 k b) (g : QSame s1 s') :
    Cons s s' k b := by
  refine ⟨h.same.trans g.rsame, fun n r r' hr hi hr' hi' => ?_⟩
  obtain ⟨r1, hr1, e1⟩ : ∃ r1, findRoute s1 k n = some r1 ∧ r'.core = r1.core := by
    have := g.findRoute k n
    rw [hr'] at this
    obtain ⟨x, hx, e⟩ := map_core_some this.symm
    exact ⟨x, hx, e.symm⟩
  obtain ⟨x, rb, hx, hb, e⟩ := h.lost n r r1 hr hi hr1 (by rw [← core_installed e1]; exact hi')
  have := g.findInstalled k
  rw [hx] at this
  obtain ⟨y, hy, ey⟩ := map_core_some this
  exact ⟨y, rb, hy, hb, (content_of_core ey).trans e⟩

theorem Cons.pre {s0 s s' : St} {k : PKey} {b : NeighId} (g : Frame s0 s) (h : Cons s s' k b) :
    Cons s0 s' k b := by
  refine ⟨g.qsame.rsame.trans h.same, fun n r r' hr hi hr' hi' => ?_⟩
  obtain ⟨r1, hr1, e1⟩ := g.route hr
  obtain ⟨x, rb, hx, hb, e⟩ := h.lost n r1 r' hr1 (by rw [core_installed e1]; exact hi) hr' hi'
  obtain ⟨rb0, hb0, eb⟩ := g.route_inv hb
  exact ⟨x, rb0, hx, hb0, e.trans (content_of_core eb)⟩

theorem cons_routes {s s' : St} {k : PKey} {b : NeighId} (hn : s'.now = s.now)
    (h : s'.routes = s.routes) : Cons s s' k b := by
  refine ⟨rsame_of_routes hn h, fun n r r' hr hi hr' hi' => ?_⟩
  unfold findRoute at hr hr'
  rw [h, hr] at hr'
  simp at hr'; rw [← hr', hi] at hi'; simp at hi'

theorem cons_install {c : Cfg} {s : St} {k : PKey} {n : NeighId} {r : Route}
    (h : findRoute s k n = some r) (hi : r.installed = false) (hf : routeFeasible s r = true) :
    Cons s (installRoute c s k n) k n := by
  rcases installRoute_cases (c := c) h hi hf with ⟨-, e⟩ | ⟨-, -, e⟩ | ⟨-, -, e⟩
  · rw [e]; exact cons_routes rfl rfl
  · rw [e]; exact cons_routes (konly_changeAdd ..).now (konly_changeAdd ..).routes
  · rw [e]
    have hk := konly_changeAdd c s r (metricToKernel c (routeMetric r))
    generalize (changeAdd c s r (metricToKernel c (routeMetric r))).2 = s1 at hk ⊢
    have h1 : findRoute s1 k n = some r := by unfold findRoute at h ⊢; rw [hk.routes]; exact h
    have hin := mark_installed (old := none) h1
    refine ⟨(hk.rsame.trans (rsame_mark ..)).trans (rsame_notify ..), fun m r0 r' _ _ _ _ => ?_⟩
    refine ⟨{ r with installed := true }, r, ?_, h, ?_⟩
    · exact (findInstalled_congr (by rw [notifyRoute_routes])).trans hin
    · rfl

theorem cons_switch {c : Cfg} {s : St} {k : PKey} {m n : NeighId} {o r : Route}
    (ho : findRoute s k m = some o) (hr : findRoute s k n = some r)
    (hf : routeFeasible s r = true) : Cons s (switchRoutes c s k m n) k n := by
  rcases switchRoutes_cases (c := c) ho hr hf with ⟨-, e⟩ | ⟨-, -, e⟩ | ⟨-, -, e⟩
  · rw [e]; exact .refl ..
  · rw [e]; exact cons_routes (konly_changeModify ..).now (konly_changeModify ..).routes
  · rw [e]
    have hk := konly_changeModify c s o (metricToKernel c (routeMetric o)) r.nexthop (c.ifOf r.neigh)
          (metricToKernel c (routeMetric r))
    generalize (changeModify c s o (metricToKernel c (routeMetric o)) r.nexthop (c.ifOf r.neigh)
          (metricToKernel c (routeMetric r))).2 = s1 at hk ⊢
    have hs := hk.rsame.trans (rsame_setInstalled s1 k m false)
    obtain ⟨r1, h1, e1⟩ := hs.route hr
    have hin := mark_installed (old := some o) h1
    refine ⟨((hs.trans (rsame_mark ..)).trans (rsame_notify ..)).trans (rsame_notify ..),
      fun m r0 r' _ _ _ _ => ?_⟩
    refine ⟨{ r1 with installed := true }, r, ?_, hr, ?_⟩
    · exact (findInstalled_congr (by rw [notifyRoute_routes, notifyRoute_routes])).trans hin
    · exact e1

/-! ### consider_route -/

theorem frame_shouldSwitch (c : Cfg) (s : St) (r : Route) (i : Option Route) :
    Frame s (shouldSwitch c s r i).2 := by
  unfold shouldSwitch
  split
  · exact .refl s
  · split
    · exact .refl s
    · split
      · exact .refl s
      · split
        · exact (frame_smooth ..).trans (frame_smooth ..)
        · exact .refl s

theorem shouldSwitch_metric {c : Cfg} {s : St} {r o : Route}
    (h : (shouldSwitch c s r (some o)).1 = true) : routeMetric r < INFINITY := by
  unfold shouldSwitch at h
  simp only at h
  split at h
  · simp at h
  · omega

/-- The selected route is found by its neighbour. -/
theorem findInstalled_findRoute {s : St} {k : PKey} {o : Route} (h : findInstalled s k = some o) :
    findRoute s k o.neigh = some o := by
  unfold findInstalled at h
  unfold findRoute
  rw [flatFind_slot]
  split at h
  · simp at h
  · next r l e =>
    split at h
    · cases h; rw [e]; simp
    · simp at h

theorem findRoute_smooth (c : Cfg) (s : St) (k : PKey) (n m : NeighId) :
    findRoute (smoothRoute c s k n).2 k m =
      (findRoute s k m).map (fun r => if r.neigh == n then
        { r with smoothed := (smoothRoute c s k n).1, smoothedTime := s.now.sec } else r) := by
  unfold smoothRoute
  cases h : findRoute s k n with
  | none =>
    simp only
    cases h2 : findRoute s k m with
    | none => rfl
    | some r =>
      have := (findRoute_mem h2).2.2
      have : r.neigh ≠ n := by intro e; rw [← this, e, h] at h2; simp at h2
      simp [this]
  | some r =>
    simp only
    show findRoute (modRoute s k n _) k m = _
    rw [findRoute_modRoute s k k n m (fun x => { x with
      smoothed := (smoothedMetric c.halfLife s.now.sec s.rand r).1, smoothedTime := s.now.sec })
      (fun _ => ⟨rfl, rfl⟩)]
    cases h2 : findRoute s k m with
    | none => simp; intro e; rw [← e]; exact h2
    | some r2 =>
      have := (findRoute_mem h2).2.2
      by_cases hmn : m = n
      · subst hmn
        rw [h] at h2; cases h2
        simp [this, h]
      · simp [hmn, this]

theorem shouldSwitch_hyst {c : Cfg} {s : St} {k : PKey} {n : NeighId} {r o r1 o1 : Route}
    (ho : findInstalled s k = some o) (hr : findRoute s k n = some r) (hi : r.installed = false)
    (h : (shouldSwitch c s r (some o)).1 = true)
    (hr1 : findRoute (shouldSwitch c s r (some o)).2 k n = some r1)
    (ho1 : findInstalled (shouldSwitch c s r (some o)).2 k = some o1) (hno : o1.neigh = o.neigh) :
    INFINITY ≤ routeMetric o1 ∨ (routeMetric r1 ≤ routeMetric o1 ∧ r1.smoothed < o1.smoothed) := by
  have hfo := findInstalled_findRoute ho
  have hfo1 := findInstalled_findRoute ho1
  rw [hno] at hfo1
  have hoi := (findInstalled_mem ho).2.2
  obtain ⟨-, hrk, hrn⟩ := findRoute_mem hr
  have hne : r.neigh ≠ o.neigh := by
    intro e; rw [← hrn, e, hfo] at hr; cases hr; simp_all
  unfold shouldSwitch at h hr1 hfo1
  simp only [hrk, hrn] at h hr1 hfo1 hne
  split at h
  · simp at h
  · next c1 =>
    rw [if_neg c1] at hr1 hfo1
    split at h
    · next c2 =>
      rw [if_pos c2] at hr1 hfo1
      rw [hfo] at hfo1; cases hfo1
      exact .inl c2
    · next c2 =>
      rw [if_neg c2] at hr1 hfo1
      split at h
      · next c3 =>
        rw [if_pos c3] at hr1 hfo1
        simp only [decide_eq_true_eq] at h hr1 hfo1
        rw [findRoute_smooth, findRoute_smooth, hr] at hr1
        rw [findRoute_smooth, findRoute_smooth, hfo] at hfo1
        simp only [Option.map_some, Option.some.injEq] at hr1 hfo1
        have hb : (r.neigh == o.neigh) = false := by rw [hrn]; simpa using hne
        have hb2 : (o.neigh == n) = false := by simpa using fun e => hne e.symm
        simp only [hrn, hb, hb2, beq_self_eq_true, if_true, if_false, Bool.false_eq_true] at hr1 hfo1
        have hb3 : (n == o.neigh) = false := by simpa using hne
        simp only [hb3, Bool.false_eq_true, if_false, hrn, beq_self_eq_true, if_true, hb2] at hr1 hfo1
        right
        rw [← hr1, ← hfo1]
        exact ⟨c3, h⟩
      · simp at h

/-- A candidate for selection is not stale, unless it already is selected. -/
def Fresh (s : St) (k : PKey) (n : NeighId) : Prop :=
  ∀ r, findRoute s k n = some r → routeMetric r < INFINITY → r.installed = false →
    routeExpired s r = false

theorem considerRoute_ms (c : Cfg) (A : Allow) (s : St) (ex : List SKey) (k : PKey) (n : NeighId)
    (hfr : Fresh s k n) :
    Ms c A s ex (considerRoute c s k n) ex ∧ Cons s (considerRoute c s k n) k n := by
  unfold considerRoute
  split
  · exact ⟨.refl .., .refl ..⟩
  · next r hr =>
    split
    · exact ⟨.refl .., .refl ..⟩
    · next hi =>
      split
      · exact ⟨.refl .., .refl ..⟩
      · next hfe =>
        split
        · exact ⟨.refl .., .refl ..⟩
        · next hbl =>
          simp only
          have hfr2 := frame_shouldSwitch c s r (findInstalled s k)
          have hm : ∀ o, findInstalled s k = some o →
              (shouldSwitch c s r (findInstalled s k)).1 = true → routeMetric r < INFINITY := by
            intro o ho h; rw [ho] at h; exact shouldSwitch_metric h
          have hh : ∀ o r1 o1, findInstalled s k = some o → o1.neigh = o.neigh →
              (shouldSwitch c s r (findInstalled s k)).1 = true →
              findRoute (shouldSwitch c s r (findInstalled s k)).2 k n = some r1 →
              findInstalled (shouldSwitch c s r (findInstalled s k)).2 k = some o1 →
              INFINITY ≤ routeMetric o1 ∨ (routeMetric r1 ≤ routeMetric o1 ∧ r1.smoothed < o1.smoothed) := by
            intro o r1 o1 ho hn h h1 h2
            rw [ho] at h h1 h2
            exact shouldSwitch_hyst ho hr (by simpa using hi) h h1 h2 hn
          generalize shouldSwitch c s r (findInstalled s k) = d at hfr2 hm hh
          obtain ⟨b, s1⟩ := d
          simp only at hfr2 hm hh ⊢
          split
          · next hb =>
            obtain ⟨r1, hr1, e1⟩ := hfr2.route hr
            have hi1 : r1.installed = false := by rw [core_installed e1]; simpa using hi
            have hf1 : routeFeasible s1 r1 = true := by rw [hfr2.feasible e1]; simpa using hfe
            have hx1 : routeMetric r1 < INFINITY → routeExpired s1 r1 = false := by
              rw [core_metric e1, hfr2.expired e1]
              exact fun h => hfr r hr h (by simpa using hi)
            have hb1 : xrouteBlocks c s1 k = false := by
              unfold xrouteBlocks findXroute; rw [hfr2.xroutes]
              simpa [xrouteBlocks, findXroute] using hbl
            unfold considerInstall
            split
            · next hn =>
              exact ⟨((hfr2.ms ex).trans (.one (.install hr1 hi1 hf1 hx1 (.inl hb1)))).trans
                  ((qms_sendUpdate ..).ms ex),
                ((cons_install hr1 hi1 hf1).qsame (qms_sendUpdate ..).same).pre hfr2⟩
            · next o ho =>
              obtain ⟨o1, ho1, eo⟩ := hfr2.installed ho
              have hmet : routeMetric r1 < INFINITY := by rw [core_metric e1]; exact hm o ho hb
              have hsw : M c A s1 ex (switchRoutes c s1 k o.neigh n) ex := by
                rw [← core_neigh eo]
                exact .switch ho1 hr1 hi1 hf1 hmet (hx1 hmet) (hh o r1 o1 ho (core_neigh eo) hb hr1 ho1) hb1
              have hcs : Cons s1 (switchRoutes c s1 k o.neigh n) k n := by
                cases hfo : findRoute s1 k o.neigh with
                | none =>
                  have : switchRoutes c s1 k o.neigh n = s1 := by
                    unfold switchRoutes; rw [hfo]
                  rw [this]; exact .refl ..
                | some o2 => exact cons_switch hfo hr1 hf1
              simp only
              have h0 := (hfr2.ms (c := c) (A := A) ex).trans (.one hsw)
              split
              · exact ⟨h0, hcs.pre hfr2⟩
              · split
                · exact ⟨h0.trans ((qms_sendTriggered ..).ms ex),
                    (hcs.qsame (qms_sendTriggered ..).same).pre hfr2⟩
                · exact ⟨h0.trans ((qms_sendUpdate ..).ms ex),
                    (hcs.qsame (qms_sendUpdate ..).same).pre hfr2⟩
          · exact ⟨hfr2.ms ex, (Cons.refl _ _ _).qsame hfr2.qsame⟩

/-- `consider_route` does nothing when the selected route is better. -/
theorem considerRoute_worse {c : Cfg} {s : St} {k : PKey} {n : NeighId} {r o : Route}
    (hr : findRoute s k n = some r) (ho : findInstalled s k = some o)
    (hm : routeMetric o < routeMetric r) : considerRoute c s k n = s := by
  unfold considerRoute
  rw [hr, ho]
  simp only
  split
  · rfl
  · split
    · rfl
    · split
      · rfl
      · unfold shouldSwitch
        simp only
        have h1 : routeMetric o < INFINITY := by
          have : routeMetric r ≤ INFINITY := Nat.min_le_right ..
          omega
        split
        · rfl
        · split
          · omega
          · split
            · omega
            · rfl

/-! ### route_changed, route_lost -/

theorem routeChangedBetter_ms (c : Cfg) (A : Allow) (s : St) (ex : List SKey) (k : PKey)
    (n : NeighId) (hfr : Fresh s k n) :
    Ms c A s ex (routeChangedBetter c s k n) ex ∧
    (Fresh (routeChangedBetter c s k n) k n ∨
      ∃ r o, findRoute (routeChangedBetter c s k n) k n = some r ∧
        findInstalled (routeChangedBetter c s k n) k = some o ∧ routeMetric o < routeMetric r) := by
  unfold routeChangedBetter
  split
  · exact ⟨.refl .., .inl hfr⟩
  · next r hr =>
    split
    · next hi =>
      have key : ∀ s', Frame s s' → Fresh s' k n := by
        intro s' hf r' hr' _ hi'
        obtain ⟨r0, h0, e0⟩ := hf.route_inv hr'
        rw [hr] at h0; simp at h0; subst h0
        rw [core_installed e0, hi] at hi'; simp at hi'
      split
      · next s1 hb => exact ⟨(findBest_frame hb).ms ex, .inl (key _ (findBest_frame hb))⟩
      · next b s1 hb =>
        have hf := findBest_frame hb
        obtain ⟨rb, hrb, hex, -⟩ := acceptable_spec (findBest_acceptable hb)
        rw [hrb]
        simp only
        split
        · next hlt =>
          have hcon := considerRoute_ms c A s1 ex k b (fun r' hr' _ _ => by
            rw [hrb] at hr'; simp at hr'; subst hr'; exact hex)
          refine ⟨(hf.ms ex).trans hcon.1, ?_⟩
          obtain ⟨r1, hr1, e1⟩ := hf.route hr
          obtain ⟨r2, hr2, e2⟩ := hcon.2.same.route hr1
          cases hi2 : r2.installed with
          | true =>
            left
            intro r' hr' _ hi'
            rw [hr2] at hr'; simp at hr'; subst hr'
            rw [hi2] at hi'; simp at hi'
          | false =>
            right
            obtain ⟨x, rb', hx, hb', ex'⟩ := hcon.2.lost n r1 r2 hr1
              (by rw [core_installed e1]; exact hi) hr2 hi2
            rw [hrb] at hb'; simp at hb'; subst hb'
            refine ⟨r2, x, hr2, hx, ?_⟩
            rw [content_metric ex', content_metric e2, core_metric e1]
            exact hlt
        · exact ⟨hf.ms ex, .inl (key _ hf)⟩
    · exact ⟨.refl .., .inl hfr⟩

theorem routeChanged_ms (c : Cfg) (A : Allow) (s : St) (ex : List SKey) (k : PKey) (n : NeighId)
    (os : SKey) (om : Nat) (hfr : Fresh s k n) : Ms c A s ex (routeChanged c s k n os om) ex := by
  unfold routeChanged
  simp only
  obtain ⟨h1, h2⟩ := routeChangedBetter_ms c A s ex k n hfr
  generalize routeChangedBetter c s k n = s1 at h1 h2
  split
  · exact h1
  · next r hr =>
    split
    · exact h1.trans ((qms_sendTriggered ..).ms ex)
    · rcases h2 with h2 | ⟨r', o, hr', ho, hlt⟩
      · exact h1.trans (considerRoute_ms c A s1 ex k n h2).1
      · rw [considerRoute_worse hr' ho hlt]; exact h1

theorem routeLost_ms (c : Cfg) (A : Allow) (s : St) (ex : List SKey) (sk : SKey) (om : Nat) :
    Ms c A s ex (routeLost c s sk om) ex := by
  unfold routeLost
  split
  · next s1 hb => exact ((findBest_frame hb).ms ex).trans ((qms_announceLost ..).ms ex)
  · next n s1 hb =>
    obtain ⟨r, hr, hex, -⟩ := acceptable_spec (findBest_acceptable hb)
    rw [hr]
    simp only
    split
    · exact ((findBest_frame hb).ms ex).trans (considerRoute_ms c A s1 ex _ n
        (fun r' hr' _ _ => by rw [hr] at hr'; simp at hr'; subst hr'; exact hex)).1
    · exact ((findBest_frame hb).ms ex).trans ((qms_announceLost ..).ms ex)

/-! ### flush_route -/

theorem uninstall_find (c : Cfg) (s : St) (k : PKey) (n : NeighId) {r : Route}
    (h : findRoute s k n = some r) :
    ∃ r', findRoute (uninstallRoute c s k n) k n = some r' ∧ r'.skey = r.skey ∧ r'.installed = false ∧
      r' = { r with installed := false } := by
  rcases uninstallRoute_routes c s k n with ⟨e, hi⟩ | e
  · refine ⟨r, ?_, rfl, hi r h, ?_⟩
    · unfold findRoute; rw [e]; exact h
    · have := hi r h
      cases r; simp_all
  · refine ⟨{ r with installed := false }, ?_, rfl, rfl, rfl⟩
    unfold findRoute at h ⊢
    rw [e, flatFind_modify _ _ _ _ _ _ (keepsId_installed false)]
    simp [h]

theorem flushRoute_ms (c : Cfg) (A : Allow) (s : St) (ex : List SKey) (k : PKey) (n : NeighId)
    (hA : A.drop) :
    Ms c A s ex (flushRoute c s k n) ex := by
  unfold flushRoute
  split
  · exact .refl ..
  · next r hr =>
    simp only
    have key : ∃ s1, (if r.installed = true then uninstallRoute c s k n else s) = s1 ∧
        Ms c A s ex s1 ex ∧ ∃ r', findRoute s1 k n = some r' ∧ r'.skey = r.skey ∧
          r'.installed = false := by
      refine ⟨_, rfl, ?_⟩
      split
      · refine ⟨.one (.uninstall k n), ?_⟩
        obtain ⟨r', h1, h2, h3, -⟩ := uninstall_find c s k n hr
        exact ⟨r', h1, h2, h3⟩
      · next hi => exact ⟨.refl .., r, hr, rfl, by simpa using hi⟩
    obtain ⟨s1, e1, hms, r', hr', hsk, hi'⟩ := key
    rw [e1]
    have h2 := hms.step (.unlink hr' hi' hA)
    rw [hsk] at h2
    generalize unlinkRoute (notifyRoute s1 .flush k n) k n = s2 at h2
    refine Ms.step ?_ (.release r.skey)
    split
    · exact h2.trans (routeLost_ms ..)
    · exact h2

/-! ### update_route_metric -/

theorem notify_find (s : St) (kd : NKind) (k k' : PKey) (n n' : NeighId) :
    findRoute (notifyRoute s kd k n) k' n' = findRoute s k' n' := by
  unfold findRoute; rw [notifyRoute_routes]

/-- The looked-up route after `change_route_metric`. -/
theorem changeRouteMetric_find {c : Cfg} {s : St} {k : PKey} {n : NeighId} {r : Route}
    (refm cost add : Nat) (h : findRoute s k n = some r) :
    ∃ r', findRoute (changeRouteMetric c s k n refm cost add) k n = some r' ∧
      ((r.installed = true ∧ r' = r) ∨ r'.core = setRc refm cost add r.core) := by
  rcases changeRouteMetric_routes (c := c) refm cost add h with ⟨hi, e⟩ | e
  · refine ⟨r, ?_, .inl ⟨hi, rfl⟩⟩
    unfold findRoute; rw [e]; exact h
  · have := find_core e (fun r => r.key == k && r.neigh == n) (fun _ => rfl)
    have e2 : (flatModify s.routes k n (setRc refm cost add)).find?
        (fun r => r.key == k && r.neigh == n) = some (setRc refm cost add r) := by
      show flatFind _ k n = _
      rw [flatFind_modify _ _ _ _ _ _ (keepsId_setRc _ _ _)]
      unfold findRoute at h
      simp [h]
    rw [e2] at this
    obtain ⟨r', hr', ec⟩ := map_core_some this
    exact ⟨r', hr', .inr (by rw [ec]; rfl)⟩

theorem changeRouteMetric_now (c : Cfg) (s : St) (k : PKey) (n : NeighId) (refm cost add : Nat) :
    (changeRouteMetric c s k n refm cost add).now = s.now := by
  cases h : findRoute s k n with
  | none => rw [changeRouteMetric_noop _ _ _ h]
  | some r =>
    rcases changeRouteMetric_cases (c := c) refm cost add h with ⟨hi, -, e⟩ | ⟨s1, h1, e⟩
    · rw [e, (konly_changeModify ..).now]
    · rw [e, notifyRoute_now]
      show (smoothRoute c s1 k n).2.now = _
      rw [(frame_smooth c s1 k n).now]
      rcases h1 with ⟨-, -, h1⟩ | ⟨-, h1⟩
      · have := (konly_changeModify c s r (metricToKernel c (routeMetric r)) r.nexthop (c.ifOf r.neigh)
          (metricToKernel c (min (refm + cost + add) INFINITY))).now
        rw [h1] at this; exact this
      · rw [h1]

theorem retract_fresh {c : Cfg} {s : St} {k : PKey} {n : NeighId} :
    Fresh (retractRoute c s k n) k n := by
  intro r' hr' hm hi'
  unfold retractRoute at hr'
  cases h : findRoute s k n with
  | none => rw [changeRouteMetric_noop _ _ _ h, h] at hr'; simp at hr'
  | some r =>
    obtain ⟨r2, h2, h3⟩ := changeRouteMetric_find (c := c) INFINITY INFINITY 0 h
    rw [h2] at hr'; simp at hr'; subst hr'
    rcases h3 with ⟨hi, e⟩ | e
    · rw [e, hi] at hi'; simp at hi'
    · have : routeMetric r2 = routeMetric (setRc INFINITY INFINITY 0 r) := core_metric e
      rw [this] at hm
      have hm2 : min (INFINITY + INFINITY + 0) INFINITY < INFINITY := hm
      omega

theorem updateRouteMetric_ms (c : Cfg) (A : Allow) (s : St) (ex : List SKey) (k : PKey)
    (n : NeighId) : Ms c A s ex (updateRouteMetric c s k n) ex := by
  unfold updateRouteMetric
  split
  · exact .refl ..
  · next r hr =>
    simp only
    have hf := frame_smooth c s k n
    generalize smoothRoute c s k n = p at hf
    obtain ⟨v, s1⟩ := p
    simp only at hf ⊢
    obtain ⟨r1, hr1, e1⟩ := hf.route hr
    split
    · next hex =>
      split
      · next href =>
        have hm := fun q => M.expire (c := c) (A := A) (ex := ex) q hr1 (by rw [hf.expired e1]; exact hex) (by rw [core_refmetric e1]; exact href)
        have h2 := fun q => (hf.ms ex).step (hm q)
        split
        · exact (h2 _).trans (routeChanged_ms c A _ ex k n _ _ retract_fresh)
        · exact h2 _
      · exact hf.ms ex
    · next hex =>
      have hex1 : routeExpired s1 r1 = false := by rw [hf.expired e1]; simpa using hex
      have hm : M c A s1 ex (changeRouteMetric c s1 k n r.refmetric (s1.ncost n)
          (c.inputFilter (some r.id) k (some n) (c.ifOf n))) ex := by
        rw [← core_refmetric e1, ← core_id e1]
        exact .recost hr1 hex1
      have h2 := (hf.ms (A := A) ex).step hm
      obtain ⟨r2, hr2, he2⟩ := changeRouteMetric_find (c := c) r.refmetric (s1.ncost n)
        (c.inputFilter (some r.id) k (some n) (c.ifOf n)) hr1
      have hnow := changeRouteMetric_now c s1 k n r.refmetric (s1.ncost n)
        (c.inputFilter (some r.id) k (some n) (c.ifOf n))
      generalize changeRouteMetric c s1 k n r.refmetric (s1.ncost n)
        (c.inputFilter (some r.id) k (some n) (c.ifOf n)) = s2 at h2 hr2 hnow
      have hx2 : routeExpired s2 r2 = false := by
        rw [← hex1]
        unfold routeExpired
        rw [hnow]
        rcases he2 with ⟨-, e⟩ | e
        · rw [e]
        · have ec := core_eq (r := setRc r.refmetric (s1.ncost n)
            (c.inputFilter (some r.id) k (some n) (c.ifOf n)) r1) e
          rw [ec]; rfl
      have hfr : Fresh s2 k n := by
        intro r' hr' _ _
        rw [hr2] at hr'; simp at hr'; subst hr'; exact hx2
      rw [hr2]
      simp only
      split
      · exact h2.trans (routeChanged_ms c A _ ex k n _ _ hfr)
      · have hf2 := frame_smooth c s2 k n
        generalize smoothRoute c s2 k n = p2 at hf2
        obtain ⟨v2, s3⟩ := p2
        simp only at hf2 ⊢
        have h3 := h2.trans (hf2.ms ex)
        split
        · refine h3.trans (routeChanged_ms c A _ ex k n _ _ ?_)
          intro r' hr' _ _
          obtain ⟨r0, h0, e0⟩ := hf2.route_inv hr'
          rw [hr2] at h0; simp at h0; subst h0
          rw [hf2.expired e0]; exact hx2
        · exact h3

end Babel
