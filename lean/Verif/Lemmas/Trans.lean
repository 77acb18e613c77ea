import Verif.Lemmas.Flat
/-
Decomposition of the events into elementary transitions, continued: the transitions that change the
tables.
-/
set_option linter.unusedSimpArgs false
set_option linter.unusedVariables false
set_option linter.unusedSectionVars false
namespace Babel
open Spec

/-- What an event may do besides internal activity. -/
structure Allow where
  /-- An update with these fields was received. -/
  upd : NeighId → Bytes → PKey → UInt16 → Nat → Prop := fun _ _ _ _ _ => False
  /-- The update had this next hop. -/
  gate : PKey → Bytes → Prop := fun _ _ => False
  /-- The node's own sequence number may be increased. -/
  bump : Prop := False
  /-- The clock may advance and link costs may change. -/
  env : Prop := False
  /-- Sources may be garbage collected. -/
  gc : Prop := False
  /-- Redistributed routes may change. -/
  xr : Prop := False
  /-- Routes may be removed. -/
  drop : Prop := False

/-- A destination that may be put in the route table. -/
def KeyOk (k : PKey) : Prop :=
  martianPrefix k.prefix_ k.plen = false ∧ martianPrefix k.srcPrefix k.srcPlen = false ∧
  v4mapped k.prefix_ = v4mapped k.srcPrefix

/-- Elementary transitions.  The lists are the sources that are referenced by a local variable of
the C code although no route of the table refers to them. -/
inductive M (c : Cfg) (A : Allow) : St → List SKey → St → List SKey → Prop
  | q {s s' ex} : QM c s s' → M c A s ex s' ex
  | install {s ex k n r} : findRoute s k n = some r → r.installed = false →
      routeFeasible s r = true → (routeMetric r < INFINITY → routeExpired s r = false) →
      (xrouteBlocks c s k = false ∨ A.xr) → M c A s ex (installRoute c s k n) ex
  | switch {s ex k n r o} : findInstalled s k = some o → findRoute s k n = some r →
      r.installed = false → routeFeasible s r = true → routeMetric r < INFINITY →
      routeExpired s r = false →
      (INFINITY ≤ routeMetric o ∨ (routeMetric r ≤ routeMetric o ∧ r.smoothed < o.smoothed)) →
      xrouteBlocks c s k = false → M c A s ex (switchRoutes c s k o.neigh n) ex
  | uninstall {s ex} (k n) : M c A s ex (uninstallRoute c s k n) ex
  | recost {s ex k n r} : findRoute s k n = some r → routeExpired s r = false →
      M c A s ex (changeRouteMetric c s k n r.refmetric (s.ncost n)
        (c.inputFilter (some r.id) k (some n) (c.ifOf n))) ex
  | retract {s ex} (k n) : M c A s ex (retractRoute c s k n) ex
  | expire {s ex k n r} (q : UInt16) : findRoute s k n = some r → routeExpired s r = true →
      r.refmetric < INFINITY →
      M c A s ex (retractRoute c (modRoute s k n (fun r => { r with seqno := q })) k n) ex
  | apply {s ex r} (id : Bytes) (q : UInt16) (refm add hold : Nat) (u : Bool) :
      findRoute s r.key r.neigh = some r → A.upd r.neigh id r.key q refm → id ≠ c.myid →
      (r.id ≠ id → (findSource s ⟨id, r.key⟩).isSome) → KeyOk r.key →
      u = (!updateFeasible s (findSource s ⟨id, r.key⟩) q refm && r.installed && id != r.id) →
      M c A s ex (applyUpdate c s r.key r.neigh id q refm add hold u) (r.skey :: ex)
  | insert {s ex} (k : PKey) (n : NeighId) (id : Bytes) (q : UInt16) (refm add hold : Nat)
      (nh : Bytes) : findRoute s k n = none → A.upd n id k q refm → id ≠ c.myid →
      (findSource s ⟨id, k⟩).isSome → KeyOk k → refm < INFINITY → A.gate k nh →
      M c A s ex (notifyRoute { retainSource s ⟨id, k⟩ with
        routes := flatInsert s.routes (newRoute s k n id q refm add hold nh) } .add k n) ex
  | unlink {s ex k n r} : findRoute s k n = some r → r.installed = false → A.drop →
      M c A s ex (unlinkRoute (notifyRoute s .flush k n) k n) (r.skey :: ex)
  | release {s ex} (k : SKey) : M c A s (k :: ex) (releaseSource s k) ex
  | ensure {s ex} (k : SKey) (q : UInt16) : (∃ n m, A.upd n k.id k.key q m) → M c A s ex (ensureSource s k q) ex
  | gc {s ex} : A.gc → M c A s ex (expireSources s) ex
  | xadd {s ex} (kr : KRoute) : findXroute s kr.key = none → kr.metric < INFINITY →
      martianPrefix kr.key.prefix_ kr.key.plen = false → A.xr → M c A s ex (addXroute s kr).1 ex
  | xdel {s ex} (x : Xroute) : x ∈ s.xroutes → A.xr →
      M c A s ex { emit s (.notifyXroute .flush x) with
        xroutes := s.xroutes.filter (fun y => !(y.key == x.key)) } ex
  | xmod {s ex} (x : Xroute) (m : Nat) (p : Int) : x ∈ s.xroutes → m < INFINITY →
      (x.metric ≠ m ∨ x.proto ≠ p) → A.xr →
      M c A s ex (emit { s with xroutes := s.xroutes.map (fun y => if y.key == x.key
        then { x with metric := m, proto := p } else y) }
        (.notifyXroute .change { x with metric := m, proto := p })) ex
  | bump {s ex} : A.bump → M c A s ex { s with myseqno := seqnoPlus s.myseqno 1 } ex
  | tick {s ex} (t : Timeval) : A.env → M c A s ex { s with now := t } ex
  | cost {s ex} (n : NeighId) (v : Nat) : A.env →
      M c A s ex { s with ncost := fun m => if m = n then v else s.ncost m } ex

/-- Sequences of elementary transitions. -/
inductive Ms (c : Cfg) (A : Allow) : St → List SKey → St → List SKey → Prop
  | refl (s ex) : Ms c A s ex s ex
  | step {s ex t e2 u e3} : Ms c A s ex t e2 → M c A t e2 u e3 → Ms c A s ex u e3

theorem Ms.trans {c A s e1 t e2 u e3} (h : Ms c A s e1 t e2) (g : Ms c A t e2 u e3) :
    Ms c A s e1 u e3 := by
  induction g with
  | refl => exact h
  | step _ m ih => exact ih.step m

theorem Ms.one {c A s e1 t e2} (h : M c A s e1 t e2) : Ms c A s e1 t e2 := (Ms.refl s e1).step h

theorem QMs.ms {c A s t} (h : QMs c s t) (ex : List SKey) : Ms c A s ex t ex := by
  induction h with
  | refl => exact .refl _ _
  | step _ m ih => exact ih.step (.q m)

theorem Frame.ms {c A s t} (h : Frame s t) (ex : List SKey) : Ms c A s ex t ex := (QMs.frame h).ms ex

theorem Ms.foldl {α : Type} {c : Cfg} {A : Allow} {ex : List SKey} (f : St → α → St)
    (h : ∀ s a, Ms c A s ex (f s a) ex) (l : List α) (s : St) : Ms c A s ex (l.foldl f s) ex := by
  induction l generalizing s with
  | nil => exact .refl s ex
  | cons a l ih => exact (h s a).trans (ih _)

/-! ### Effect of the kernel functions -/

/-- Only the kernel changed. -/
def KOnly (s s' : St) : Prop := s' = { s with fib := s'.fib, kres := s'.kres }

theorem KOnly.refl (s : St) : KOnly s s := rfl

theorem KOnly.trans {a b c : St} (h : KOnly a b) (g : KOnly b c) : KOnly a c := by
  unfold KOnly at *
  rw [h] at g
  rw [g]

theorem konly_popK (s : St) : KOnly s (popK s).2 := rfl

theorem konly_add (c : Cfg) (s : St) (t : Nat) (k : PKey) (g : Bytes) (i : IfId) (m : Nat) :
    KOnly s (kernelAdd c s t k g i m).2 := by
  unfold kernelAdd
  split
  · exact .refl s
  · split
    · exact .refl s
    · simp only
      split <;> rfl

theorem konly_flush (c : Cfg) (s : St) (t : Nat) (k : PKey) (g : Bytes) (i : IfId) (m : Nat) :
    KOnly s (kernelFlush c s t k g i m).2 := by
  unfold kernelFlush
  split
  · exact .refl s
  · split
    · exact .refl s
    · simp only
      split <;> rfl

theorem konly_modify (c : Cfg) (s : St) (t : Nat) (k : PKey) (g : Bytes) (i : IfId) (m : Nat)
    (g' : Bytes) (i' : IfId) (m' : Nat) : KOnly s (kernelModify c s t k g i m g' i' m').2 := by
  unfold kernelModify
  split
  · exact .refl s
  · split
    · exact .refl s
    · exact (konly_flush ..).trans (konly_add ..)

theorem konly_changeAdd (c : Cfg) (s : St) (r : Route) (m : Nat) :
    KOnly s (changeAdd c s r m).2 := by
  unfold changeAdd
  split
  · exact .refl s
  · exact konly_add ..

theorem konly_changeFlush (c : Cfg) (s : St) (r : Route) (m : Nat) :
    KOnly s (changeFlush c s r m).2 := konly_flush ..

theorem konly_changeModify (c : Cfg) (s : St) (r : Route) (m : Nat) (g : Bytes) (i : IfId)
    (m' : Nat) : KOnly s (changeModify c s r m g i m').2 := konly_modify ..

theorem KOnly.routes {s s' : St} (h : KOnly s s') : s'.routes = s.routes := by rw [h]
theorem KOnly.now {s s' : St} (h : KOnly s s') : s'.now = s.now := by rw [h]
theorem KOnly.sources {s s' : St} (h : KOnly s s') : s'.sources = s.sources := by rw [h]
theorem KOnly.xroutes {s s' : St} (h : KOnly s s') : s'.xroutes = s.xroutes := by rw [h]
theorem KOnly.myseqno {s s' : St} (h : KOnly s s') : s'.myseqno = s.myseqno := by rw [h]
theorem KOnly.ncost {s s' : St} (h : KOnly s s') : s'.ncost = s.ncost := by rw [h]
theorem KOnly.out {s s' : St} (h : KOnly s s') : s'.out = s.out := by rw [h]

theorem notifyRoute_eq (s : St) (kd : NKind) (k : PKey) (n : NeighId) :
    notifyRoute s kd k n = { s with out := (notifyRoute s kd k n).out } := by
  unfold notifyRoute
  split <;> rfl

theorem notifyRoute_routes (s : St) (kd : NKind) (k : PKey) (n : NeighId) :
    (notifyRoute s kd k n).routes = s.routes := by rw [notifyRoute_eq]
theorem notifyRoute_sources (s : St) (kd : NKind) (k : PKey) (n : NeighId) :
    (notifyRoute s kd k n).sources = s.sources := by rw [notifyRoute_eq]
theorem notifyRoute_now (s : St) (kd : NKind) (k : PKey) (n : NeighId) :
    (notifyRoute s kd k n).now = s.now := by rw [notifyRoute_eq]
theorem notifyRoute_fib (s : St) (kd : NKind) (k : PKey) (n : NeighId) :
    (notifyRoute s kd k n).fib = s.fib := by rw [notifyRoute_eq]
theorem notifyRoute_kres (s : St) (kd : NKind) (k : PKey) (n : NeighId) :
    (notifyRoute s kd k n).kres = s.kres := by rw [notifyRoute_eq]
theorem notifyRoute_xroutes (s : St) (kd : NKind) (k : PKey) (n : NeighId) :
    (notifyRoute s kd k n).xroutes = s.xroutes := by rw [notifyRoute_eq]
theorem notifyRoute_myseqno (s : St) (kd : NKind) (k : PKey) (n : NeighId) :
    (notifyRoute s kd k n).myseqno = s.myseqno := by rw [notifyRoute_eq]
theorem notifyRoute_ncost (s : St) (kd : NKind) (k : PKey) (n : NeighId) :
    (notifyRoute s kd k n).ncost = s.ncost := by rw [notifyRoute_eq]

theorem keepsId_installed (b : Bool) : KeepsId (fun r => { r with installed := b }) :=
  fun _ => ⟨rfl, rfl⟩

theorem warnIfUnfeasible_feasible {s : St} {r : Route} (h : routeFeasible s r = true) :
    warnIfUnfeasible s r = s := by
  unfold warnIfUnfeasible; rw [if_pos h]

/-- `install_route` for a route that is not selected and is feasible. -/
theorem installRoute_cases {c : Cfg} {s : St} {k : PKey} {n : NeighId} {r : Route}
    (h : findRoute s k n = some r) (hi : r.installed = false) (hf : routeFeasible s r = true) :
    ((findInstalled s k).isSome ∧ installRoute c s k n = emit s (.warnDuplicate k n)) ∨
    (findInstalled s k = none ∧
      (changeAdd c s r (metricToKernel c (routeMetric r))).1 = .fail ∧
      installRoute c s k n = (changeAdd c s r (metricToKernel c (routeMetric r))).2) ∨
    (findInstalled s k = none ∧
      (changeAdd c s r (metricToKernel c (routeMetric r))).1 ≠ .fail ∧
      installRoute c s k n = notifyRoute (markInstalled
        (changeAdd c s r (metricToKernel c (routeMetric r))).2 k n none) .change k n) := by
  unfold installRoute
  rw [h]
  simp only [hi, Bool.false_eq_true, if_false, warnIfUnfeasible_feasible hf]
  cases hd : findInstalled s k with
  | some o => simp
  | none =>
    simp only [Option.isSome_none, Bool.false_eq_true, if_false, false_and, false_or, true_and]
    by_cases hr : (changeAdd c s r (metricToKernel c (routeMetric r))).1 = .fail
    · simp [hr]
    · simp [hr]

/-- `uninstall_route` for a selected route. -/
theorem uninstallRoute_eq {c : Cfg} {s : St} {k : PKey} {n : NeighId} {r : Route}
    (h : findRoute s k n = some r) (hi : r.installed = true) :
    uninstallRoute c s k n =
      (let p := changeFlush c (modRoute s k n (fun r => { r with installed := false })) r
          (metricToKernel c (routeMetric r))
       if p.1 = .ok then notifyRoute p.2 .change k n else p.2) := by
  unfold uninstallRoute
  rw [h]
  simp [hi]

theorem uninstallRoute_noop {c : Cfg} {s : St} {k : PKey} {n : NeighId}
    (h : ∀ r, findRoute s k n = some r → r.installed = false) : uninstallRoute c s k n = s := by
  unfold uninstallRoute
  split
  · rfl
  · next r e => simp [h r e]

/-- The routes after `uninstall_route`. -/
theorem uninstallRoute_routes (c : Cfg) (s : St) (k : PKey) (n : NeighId) :
    (uninstallRoute c s k n).routes = s.routes ∧
      (∀ r, findRoute s k n = some r → r.installed = false) ∨
    (uninstallRoute c s k n).routes = flatModify s.routes k n (fun r => { r with installed := false }) := by
  cases h : findRoute s k n with
  | none =>
    left; refine ⟨?_, by simp⟩
    rw [uninstallRoute_noop (by simp [h])]
  | some r =>
    cases hi : r.installed with
    | false =>
      left
      refine ⟨?_, by simp [hi]⟩
      rw [uninstallRoute_noop (by rw [h]; simp [hi])]
    | true =>
      right
      rw [uninstallRoute_eq h hi]
      simp only
      have hk := (konly_changeFlush c (modRoute s k n (fun r => { r with installed := false })) r
        (metricToKernel c (routeMetric r))).routes
      split
      · rw [notifyRoute_routes, hk]; rfl
      · rw [hk]; rfl

/-- `switch_routes` to a feasible route. -/
theorem switchRoutes_cases {c : Cfg} {s : St} {k : PKey} {m n : NeighId} {o r : Route}
    (ho : findRoute s k m = some o) (hr : findRoute s k n = some r) (hf : routeFeasible s r = true) :
    (o.installed = false ∧ switchRoutes c s k m n = s) ∨
    (o.installed = true ∧
      (changeModify c s o (metricToKernel c (routeMetric o)) r.nexthop (c.ifOf r.neigh)
        (metricToKernel c (routeMetric r))).1 = false ∧
      switchRoutes c s k m n = (changeModify c s o (metricToKernel c (routeMetric o)) r.nexthop
        (c.ifOf r.neigh) (metricToKernel c (routeMetric r))).2) ∨
    (o.installed = true ∧
      (changeModify c s o (metricToKernel c (routeMetric o)) r.nexthop (c.ifOf r.neigh)
        (metricToKernel c (routeMetric r))).1 = true ∧
      switchRoutes c s k m n = notifyRoute (notifyRoute (markInstalled (modRoute
        (changeModify c s o (metricToKernel c (routeMetric o)) r.nexthop (c.ifOf r.neigh)
          (metricToKernel c (routeMetric r))).2 k m (fun r => { r with installed := false }))
        k n (some o)) .change k m) .change k n) := by
  unfold switchRoutes
  rw [ho, hr]
  simp only [warnIfUnfeasible_feasible hf]
  cases hi : o.installed with
  | false => simp
  | true =>
    simp only [Bool.not_true, Bool.false_eq_true, if_false, false_and, false_or, true_and]
    cases hm : (changeModify c s o (metricToKernel c (routeMetric o)) r.nexthop (c.ifOf r.neigh)
        (metricToKernel c (routeMetric r))).1 <;> simp

/-- `change_route_metric`: refused by the kernel, or done. -/
theorem changeRouteMetric_cases {c : Cfg} {s : St} {k : PKey} {n : NeighId} {r : Route}
    (refm cost add : Nat) (h : findRoute s k n = some r) :
    (r.installed = true ∧
      (changeModify c s r (metricToKernel c (routeMetric r)) r.nexthop (c.ifOf r.neigh)
        (metricToKernel c (min (refm + cost + add) INFINITY))).1 = false ∧
      changeRouteMetric c s k n refm cost add =
        (changeModify c s r (metricToKernel c (routeMetric r)) r.nexthop (c.ifOf r.neigh)
          (metricToKernel c (min (refm + cost + add) INFINITY))).2) ∨
    (∃ s1, ((r.installed = true ∧ metricToKernel c (routeMetric r) ≠
            metricToKernel c (min (refm + cost + add) INFINITY) ∧
          (changeModify c s r (metricToKernel c (routeMetric r)) r.nexthop (c.ifOf r.neigh)
            (metricToKernel c (min (refm + cost + add) INFINITY))) = (true, s1)) ∨
        ((r.installed = false ∨ metricToKernel c (routeMetric r) =
            metricToKernel c (min (refm + cost + add) INFINITY)) ∧ s1 = s)) ∧
      changeRouteMetric c s k n refm cost add =
        notifyRoute (modRoute (smoothRoute c s1 k n).2 k n (setMetric c s.now.sec refm cost add))
          .change k n) := by
  unfold changeRouteMetric
  rw [h]
  simp only
  by_cases hc : r.installed = true ∧ metricToKernel c (routeMetric r) ≠
      metricToKernel c (min (refm + cost + add) INFINITY)
  · rw [if_pos hc]
    cases hm : changeModify c s r (metricToKernel c (routeMetric r)) r.nexthop (c.ifOf r.neigh)
        (metricToKernel c (min (refm + cost + add) INFINITY)) with
    | mk b s1 =>
      cases b with
      | false => left; simp [hc.1]
      | true => right; exact ⟨s1, .inl ⟨hc.1, hc.2, rfl⟩, by simp⟩
  · rw [if_neg hc]
    right
    refine ⟨s, .inr ⟨?_, rfl⟩, by simp⟩
    cases hi : r.installed with
    | false => exact .inl rfl
    | true => right; exact Classical.not_not.1 (fun e => hc ⟨hi, e⟩)

theorem changeRouteMetric_noop {c : Cfg} {s : St} {k : PKey} {n : NeighId}
    (refm cost add : Nat) (h : findRoute s k n = none) :
    changeRouteMetric c s k n refm cost add = s := by
  unfold changeRouteMetric
  rw [h]

theorem keepsId_setMetric (c : Cfg) (t : Int) (refm cost add : Nat) :
    KeepsId (setMetric c t refm cost add) := by
  intro r
  unfold setMetric
  simp only
  split <;> exact ⟨rfl, rfl⟩

/-- The routing part of `setMetric`. -/
def setRc (refm cost add : Nat) (r : Route) : Route :=
  { r with refmetric := refm, cost := cost, addMetric := add }

theorem keepsId_setRc (refm cost add : Nat) : KeepsId (setRc refm cost add) := fun _ => ⟨rfl, rfl⟩

theorem setMetric_core (c : Cfg) (t : Int) (refm cost add : Nat) (r : Route) :
    (setMetric c t refm cost add r).core = setRc refm cost add r.core := by
  unfold setMetric
  simp only
  split <;> rfl

/-- The same, on routes only, up to smoothing. -/
theorem changeRouteMetric_routes {c : Cfg} {s : St} {k : PKey} {n : NeighId} {r : Route}
    (refm cost add : Nat) (h : findRoute s k n = some r) :
    (r.installed = true ∧ (changeRouteMetric c s k n refm cost add).routes = s.routes) ∨
    ((changeRouteMetric c s k n refm cost add).routes.map Route.core =
      (flatModify s.routes k n (setRc refm cost add)).map Route.core) := by
  rcases changeRouteMetric_cases (c := c) refm cost add h with ⟨hi, -, e⟩ | ⟨s1, h1, e⟩
  · left; refine ⟨hi, ?_⟩; rw [e, (konly_changeModify ..).routes]
  · right
    rw [e, notifyRoute_routes]
    have hr : s1.routes = s.routes := by
      rcases h1 with ⟨-, -, h1⟩ | ⟨-, h1⟩
      · have := (konly_changeModify c s r (metricToKernel c (routeMetric r)) r.nexthop (c.ifOf r.neigh)
          (metricToKernel c (min (refm + cost + add) INFINITY))).routes
        rw [h1] at this; exact this
      · rw [h1]
    have hs := (frame_smooth c s1 k n).routes
    rw [hr] at hs
    show (flatModify (smoothRoute c s1 k n).2.routes k n _).map Route.core = _
    generalize (smoothRoute c s1 k n).2.routes = l at hs ⊢
    generalize s.routes = l' at hs ⊢
    induction l generalizing l' with
    | nil =>
      cases l' with
      | nil => rfl
      | cons => simp at hs
    | cons a l ih =>
      cases l' with
      | nil => simp at hs
      | cons b l' =>
        simp only [List.map_cons, List.cons.injEq] at hs
        have := ih l' hs.2
        simp only [flatModify, List.map_cons, List.cons.injEq] at this ⊢
        refine ⟨?_, this⟩
        have hk : a.key = b.key := by have := congrArg Route.key hs.1; exact this
        have hn : a.neigh = b.neigh := by have := congrArg Route.neigh hs.1; exact this
        rw [hk, hn]
        split
        · rw [setMetric_core, hs.1]; rfl
        · exact hs.1

end Babel
