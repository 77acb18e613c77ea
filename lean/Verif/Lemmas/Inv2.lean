import Verif.Lemmas.Inv
/-
The invariants hold in every reachable state.
-/
set_option linter.unusedSimpArgs false
set_option linter.unusedVariables false
set_option linter.unusedSectionVars false
namespace Babel
open Spec

/-- Only routes, the kernel, outputs and the random generator changed. -/
structure Keep (s s' : St) : Prop where
  now : s'.now = s.now
  myseqno : s'.myseqno = s.myseqno
  sources : s'.sources = s.sources
  xroutes : s'.xroutes = s.xroutes
  ncost : s'.ncost = s.ncost
  ifaces : s'.ifaces = s.ifaces

theorem Keep.refl (s : St) : Keep s s := ⟨rfl, rfl, rfl, rfl, rfl, rfl⟩
theorem Keep.trans {a b c : St} (h : Keep a b) (g : Keep b c) : Keep a c :=
  ⟨g.now.trans h.now, g.myseqno.trans h.myseqno, g.sources.trans h.sources,
   g.xroutes.trans h.xroutes, g.ncost.trans h.ncost, g.ifaces.trans h.ifaces⟩

theorem keep_notify (s : St) (kd : NKind) (k : PKey) (n : NeighId) : Keep s (notifyRoute s kd k n) := by
  rw [notifyRoute_eq]; exact ⟨rfl, rfl, rfl, rfl, rfl, rfl⟩

theorem keep_modRoute (s : St) (k : PKey) (n : NeighId) (f : Route → Route) :
    Keep s (modRoute s k n f) := ⟨rfl, rfl, rfl, rfl, rfl, rfl⟩

theorem keep_mark (s : St) (k : PKey) (n : NeighId) (o : Option Route) : Keep s (markInstalled s k n o) :=
  ⟨rfl, rfl, rfl, rfl, rfl, rfl⟩

theorem KOnly.keep {s s' : St} (h : KOnly s s') : Keep s s' := by
  rw [h]; exact ⟨rfl, rfl, rfl, rfl, rfl, rfl⟩

theorem keep_smooth (c : Cfg) (s : St) (k : PKey) (n : NeighId) : Keep s (smoothRoute c s k n).2 := by
  unfold smoothRoute
  split <;> exact ⟨rfl, rfl, rfl, rfl, rfl, rfl⟩

theorem keep_install (c : Cfg) (s : St) (k : PKey) (n : NeighId) {r : Route}
    (h : findRoute s k n = some r) (hi : r.installed = false) (hf : routeFeasible s r = true) :
    Keep s (installRoute c s k n) := by
  rcases installRoute_cases (c := c) h hi hf with ⟨-, e⟩ | ⟨-, -, e⟩ | ⟨-, -, e⟩
  · rw [e]; exact ⟨rfl, rfl, rfl, rfl, rfl, rfl⟩
  · rw [e]; exact (konly_changeAdd ..).keep
  · rw [e]; exact ((konly_changeAdd ..).keep.trans (keep_mark ..)).trans (keep_notify ..)

theorem keep_switch (c : Cfg) (s : St) (k : PKey) (m n : NeighId) {o r : Route}
    (ho : findRoute s k m = some o) (hr : findRoute s k n = some r) (hf : routeFeasible s r = true) :
    Keep s (switchRoutes c s k m n) := by
  rcases switchRoutes_cases (c := c) ho hr hf with ⟨-, e⟩ | ⟨-, -, e⟩ | ⟨-, -, e⟩
  · rw [e]; exact .refl s
  · rw [e]; exact (konly_changeModify ..).keep
  · rw [e]
    exact ((((konly_changeModify ..).keep.trans (keep_modRoute ..)).trans (keep_mark ..)).trans
      (keep_notify ..)).trans (keep_notify ..)

theorem keep_uninstall (c : Cfg) (s : St) (k : PKey) (n : NeighId) :
    Keep s (uninstallRoute c s k n) := by
  cases h : findRoute s k n with
  | none => rw [uninstallRoute_noop (by rw [h]; simp)]; exact .refl s
  | some r =>
    cases hi : r.installed with
    | false => rw [uninstallRoute_noop (by rw [h]; simp [hi])]; exact .refl s
    | true =>
      rw [uninstallRoute_eq h hi]
      simp only
      have := (keep_modRoute s k n (fun r => { r with installed := false })).trans
        (konly_changeFlush c _ r (metricToKernel c (routeMetric r))).keep
      split
      · exact this.trans (keep_notify ..)
      · exact this

theorem keep_metric (c : Cfg) (s : St) (k : PKey) (n : NeighId) (refm cost add : Nat) :
    Keep s (changeRouteMetric c s k n refm cost add) := by
  cases h : findRoute s k n with
  | none => rw [changeRouteMetric_noop _ _ _ h]; exact .refl s
  | some r =>
    rcases changeRouteMetric_cases (c := c) refm cost add h with ⟨hi, -, e⟩ | ⟨s1, h1, e⟩
    · rw [e]; exact (konly_changeModify ..).keep
    · rw [e]
      have : Keep s s1 := by
        rcases h1 with ⟨-, -, h1⟩ | ⟨-, h1⟩
        · have := (konly_changeModify c s r (metricToKernel c (routeMetric r)) r.nexthop
            (c.ifOf r.neigh) (metricToKernel c (min (refm + cost + add) INFINITY))).keep
          rw [h1] at this; exact this
        · rw [h1]; exact .refl s
      exact ((this.trans (keep_smooth ..)).trans (keep_modRoute ..)).trans (keep_notify ..)

/-! ### Routes -/

theorem LInv.unique_installed {c : Cfg} {l : List Route} (h : LInv c l) {x o : Route}
    (hx : x ∈ l) (ho : o ∈ l) (hk : x.key = o.key) (hxi : x.installed = true)
    (hi : o.installed = true) : x = o := by
  have hp := h.head
  clear h
  induction l with
  | nil => simp at hx
  | cons a l ih =>
    rw [List.pairwise_cons] at hp
    rcases List.mem_cons.1 hx with hx | hx <;> rcases List.mem_cons.1 ho with ho | ho
    · rw [hx, ho]
    · have := hp.1 o ho (by rw [← hx, hk]); rw [hi] at this; simp at this
    · have := hp.1 x hx (by rw [← ho, hk]); rw [hxi] at this; simp at this
    · exact ih hx ho hp.2

theorem LInv.noneInstalled_after {c : Cfg} {l : List Route} (h : LInv c l) {k : PKey} {o : Route}
    (ho : o ∈ l) (hk : o.key = k) (hi : o.installed = true) :
    NoneInstalled (flatModify l k o.neigh (fun r => { r with installed := false })) k := by
  intro x hx hxk
  rcases mem_flatModify hx with ⟨r, -, -, -, e⟩ | ⟨hx, hne⟩
  · rw [e]
  · cases hxi : x.installed with
    | false => rfl
    | true =>
      have := h.unique_installed hx ho (by rw [hxk, hk]) hxi hi
      exact absurd ⟨hxk, by rw [this]⟩ hne

theorem findInstalled_iff {c : Cfg} {s : St} (h : LInv c s.routes) {k : PKey} {r : Route} :
    findInstalled s k = some r ↔ r ∈ s.routes ∧ r.key = k ∧ r.installed = true := by
  constructor
  · exact findInstalled_mem
  · rintro ⟨hr, hk, hi⟩
    cases e : findInstalled s k with
    | none => have := noneInstalled_of_find h e r hr hk; rw [hi] at this; simp at this
    | some x =>
      obtain ⟨h1, h2, h3⟩ := findInstalled_mem e
      rw [h.unique_installed h1 hr (by rw [h2, hk]) h3 hi]

theorem findRoute_of_mem {c : Cfg} {s : St} (h : LInv c s.routes) {r : Route} (hr : r ∈ s.routes) :
    findRoute s r.key r.neigh = some r := flatFind_of_mem h.one hr

/-- Setting `installed := false` does nothing to a route that is not selected. -/
theorem modify_noop {l : List Route} {k : PKey} {n : NeighId}
    (h : ∀ r ∈ l, r.key = k → r.neigh = n → r.installed = false) :
    flatModify l k n (fun r => { r with installed := false }) = l := by
  unfold flatModify
  conv => rhs; rw [← List.map_id l]
  apply List.map_congr_left
  intro r hr
  simp only [id]
  split
  · next e =>
    simp at e
    have := h r hr e.1 e.2
    cases r
    simp_all
  · rfl

/-- The list of routes after `install_route`. -/
theorem install_routes {c : Cfg} {s : St} {k : PKey} {n : NeighId} {r : Route}
    (h : findRoute s k n = some r) (hi : r.installed = false) (hf : routeFeasible s r = true) :
    (installRoute c s k n).routes = s.routes ∨
    (findInstalled s k = none ∧ (installRoute c s k n).routes =
      flatMove (flatModify s.routes k n (fun r => { r with installed := true })) k n) := by
  rcases installRoute_cases (c := c) h hi hf with ⟨-, e⟩ | ⟨-, -, e⟩ | ⟨hn, -, e⟩
  · rw [e]; exact .inl rfl
  · rw [e]; exact .inl (konly_changeAdd ..).routes
  · right; refine ⟨hn, ?_⟩; rw [e, notifyRoute_routes]
    show flatMove (flatModify (changeAdd c s r _).2.routes k n _) k n = _
    rw [(konly_changeAdd ..).routes]

/-- The list of routes after `switch_routes`. -/
theorem switch_routes {c : Cfg} {s : St} {k : PKey} {m n : NeighId} {o r : Route}
    (ho : findRoute s k m = some o) (hr : findRoute s k n = some r) (hf : routeFeasible s r = true) :
    (switchRoutes c s k m n).routes = s.routes ∨
    (o.installed = true ∧ (switchRoutes c s k m n).routes =
      flatMove (flatModify (flatModify s.routes k m (fun r => { r with installed := false })) k n
        (fun r => { r with installed := true })) k n) := by
  rcases switchRoutes_cases (c := c) ho hr hf with ⟨-, e⟩ | ⟨-, -, e⟩ | ⟨hi, -, e⟩
  · rw [e]; exact .inl rfl
  · rw [e]; exact .inl (konly_changeModify ..).routes
  · right; refine ⟨hi, ?_⟩; rw [e, notifyRoute_routes, notifyRoute_routes]
    show flatMove (flatModify (flatModify (changeModify c s o _ _ _ _).2.routes k m _) k n _) k n = _
    rw [(konly_changeModify ..).routes]

/-- The list of routes after `applyUpdate`, up to smoothing. -/
def updRoute (now : Int) (id : Bytes) (q : UInt16) (refm : Nat) (r : Route) : Route :=
  { r with id := id, seqno := q, time := if refm < INFINITY then now else r.time }

theorem keepsId_updRoute (now : Int) (id : Bytes) (q : UInt16) (refm : Nat) :
    KeepsId (updRoute now id q refm) := fun _ => ⟨rfl, rfl⟩

theorem keepsId_hold (h : Nat) : KeepsId (fun r => { r with holdTime := h }) := fun _ => ⟨rfl, rfl⟩

theorem LInv.setMetric {c : Cfg} {s : St} (h : LInv c s.routes) (k : PKey) (n : NeighId)
    (refm cost add : Nat) : LInv c (changeRouteMetric c s k n refm cost add).routes := by
  cases hr : findRoute s k n with
  | none => rw [changeRouteMetric_noop _ _ _ hr]; exact h
  | some r =>
    rcases changeRouteMetric_routes (c := c) refm cost add hr with ⟨-, e⟩ | e
    · rw [e]; exact h
    · exact (h.modify k n (keepsId_setRc refm cost add) (fun _ e => e) (fun _ e => e)).core e

theorem refs_setMetric {c : Cfg} {s : St} (k : PKey) (n : NeighId)
    (refm cost add : Nat) (ex : List SKey) (k' : SKey) :
    refs (changeRouteMetric c s k n refm cost add).routes ex k' = refs s.routes ex k' := by
  cases hr : findRoute s k n with
  | none => rw [changeRouteMetric_noop _ _ _ hr]
  | some r =>
    rcases changeRouteMetric_routes (c := c) refm cost add hr with ⟨-, e⟩ | e
    · rw [e]
    · rw [refs_core e]
      unfold refs
      rw [countP_modify_same]
      intro r; rfl

theorem LInv.uninstall {c : Cfg} {s : St} (h : LInv c s.routes) (k : PKey) (n : NeighId) :
    LInv c (uninstallRoute c s k n).routes := by
  rcases uninstallRoute_routes c s k n with ⟨e, -⟩ | e
  · rw [e]; exact h
  · rw [e]; exact h.modify k n (keepsId_installed false) (fun _ e => by simp at e) (fun _ e => e)

theorem refs_uninstall {c : Cfg} {s : St} (k : PKey) (n : NeighId) (ex : List SKey) (k' : SKey) :
    refs (uninstallRoute c s k n).routes ex k' = refs s.routes ex k' := by
  rcases uninstallRoute_routes c s k n with ⟨e, -⟩ | e
  · rw [e]
  · rw [e]; unfold refs; rw [countP_modify_same]; intro r; rfl

/-! ### Redistributed routes -/

/-- Invariant of the table of redistributed routes. -/
structure XInv (l : List Xroute) : Prop where
  sorted : l.Pairwise (fun a b => xrouteCompare a.key b.key = .lt)
  ok : ∀ x ∈ l, x.metric < INFINITY ∧ martianPrefix x.key.prefix_ x.key.plen = false

theorem mem_xInsert {x y : Xroute} {l : List Xroute} : y ∈ xInsert x l ↔ y = x ∨ y ∈ l := by
  induction l with
  | nil => simp [xInsert]
  | cons a l ih =>
    unfold xInsert
    split
    · simp only [List.mem_cons, ih]
      constructor
      · rintro (h | h | h)
        · exact .inr (.inl h)
        · exact .inl h
        · exact .inr (.inr h)
      · rintro (h | h | h)
        · exact .inr (.inl h)
        · exact .inl h
        · exact .inr (.inr h)
    · simp

theorem xInsert_sorted {x : Xroute} {l : List Xroute}
    (h : l.Pairwise (fun a b => xrouteCompare a.key b.key = .lt)) (hn : ∀ y ∈ l, y.key ≠ x.key) :
    (xInsert x l).Pairwise (fun a b => xrouteCompare a.key b.key = .lt) := by
  induction l with
  | nil => simp [xInsert]
  | cons a l ih =>
    rw [List.pairwise_cons] at h
    unfold xInsert
    split
    · next hc =>
      rw [List.pairwise_cons]
      refine ⟨fun y hy => ?_, ih h.2 (fun y hy => hn y (List.mem_cons_of_mem _ hy))⟩
      rcases mem_xInsert.1 hy with rfl | hy
      · simp at hc
        exact (xrouteCompare_order.gt_iff _ _).1 hc
      · exact h.1 y hy
    · next hc =>
      rw [List.pairwise_cons, List.pairwise_cons]
      have hlt : xrouteCompare x.key a.key = .lt := by
        cases e : xrouteCompare x.key a.key with
        | lt => rfl
        | eq => exact absurd ((xrouteCompare_order.eq_iff _ _).1 e).symm (hn a (by simp))
        | gt => rw [e] at hc; simp at hc
      refine ⟨fun y hy => ?_, h⟩
      rcases List.mem_cons.1 hy with rfl | hy
      · exact hlt
      · exact xrouteCompare_order.trans _ _ _ hlt (h.1 y hy)

theorem XInv.unique {l : List Xroute} (h : XInv l) {x y : Xroute} (hx : x ∈ l) (hy : y ∈ l)
    (hk : x.key = y.key) : x = y := by
  have hp := h.sorted
  clear h
  induction l with
  | nil => simp at hx
  | cons a l ih =>
    rw [List.pairwise_cons] at hp
    have hirr : ∀ k, xrouteCompare k k ≠ .lt := by
      intro k; rw [xrouteCompare_order.rfl' k]; simp
    rcases List.mem_cons.1 hx with hx | hx <;> rcases List.mem_cons.1 hy with hy | hy
    · rw [hx, hy]
    · have := hp.1 y hy; rw [← hx, hk] at this; exact absurd this (hirr _)
    · have := hp.1 x hx; rw [← hy, hk] at this; exact absurd this (hirr _)
    · exact ih hx hy hp.2

theorem findXroute_iff {s : St} (h : XInv s.xroutes) {k : PKey} {x : Xroute} :
    findXroute s k = some x ↔ x ∈ s.xroutes ∧ x.key = k := by
  constructor
  · intro e; exact ⟨(findXroute_key e).2, (findXroute_key e).1⟩
  · rintro ⟨hx, hk⟩
    cases e : findXroute s k with
    | none =>
      unfold findXroute at e
      rw [List.find?_eq_none] at e
      exact absurd (by simpa using hk) (e x hx)
    | some y =>
      have := findXroute_key e
      rw [h.unique this.2 hx (by rw [this.1, hk])]

/-! ### The invariant -/

structure Inv (c : Cfg) (s : St) (ex : List SKey) : Prop where
  lst : LInv c s.routes
  src : SInv s.sources s.routes ex
  xr : XInv s.xroutes

theorem QM.inv {c : Cfg} {s s' : St} {ex : List SKey} (h : QM c s s') (hi : Inv c s ex) :
    Inv c s' ex := by
  have hs := h.same
  exact ⟨hi.lst.core hs.routes, (hi.src.congr (fun k => refs_core hs.routes ex k)).skeys hs.skeys,
    by rw [hs.xroutes]; exact hi.xr⟩

theorem refs_move_modify {l : List Route} (hu : OnePerNeigh l) (k : PKey) (n : NeighId) (b : Bool)
    (ex : List SKey) (k' : SKey) :
    refs (flatMove (flatModify l k n (fun r => { r with installed := b })) k n) ex k' =
      refs l ex k' := by
  unfold refs
  rw [countP_move (onePerNeigh_modify hu k n (keepsId_installed b)), countP_modify_same]
  intro r; rfl

theorem retain_sources (s : St) (k : SKey) : (retainSource s k).sources =
    s.sources.map (fun x => if x.skey == k then { x with routeCount := x.routeCount + 1 } else x) := rfl

theorem isSome_mem {s : St} {k : SKey} (h : (findSource s k).isSome = true) :
    ∃ x ∈ s.sources, x.skey = k := by
  cases e : findSource s k with
  | none => rw [e] at h; simp at h
  | some x => exact ⟨x, (findSource_key e).2, (findSource_key e).1⟩

theorem M.inv {c : Cfg} {A : Allow} {s s' : St} {ex ex' : List SKey} (h : M c A s ex s' ex')
    (hi : Inv c s ex) : Inv c s' ex' := by
  cases h with
  | q h => exact h.inv hi
  | install h1 h2 h3 h4 =>
    have hk := keep_install c _ _ _ h1 h2 h3
    rcases install_routes (c := c) h1 h2 h3 with e | ⟨hn, e⟩
    · exact ⟨by rw [e]; exact hi.lst, by rw [e, hk.sources]; exact hi.src, by rw [hk.xroutes]; exact hi.xr⟩
    · exact ⟨by rw [e]; exact hi.lst.mark _ _ (noneInstalled_of_find hi.lst hn),
        by rw [e, hk.sources]; exact hi.src.congr (fun k => refs_move_modify hi.lst.one _ _ _ _ _),
        by rw [hk.xroutes]; exact hi.xr⟩
  | @switch s k n r o ho hr h3 hf h4 h5 h6 =>
    obtain ⟨hm, hok, hoi⟩ := findInstalled_mem ho
    have hfo : findRoute s k o.neigh = some o := by rw [← hok]; exact findRoute_of_mem hi.lst hm
    have hk := keep_switch c s k o.neigh n hfo hr hf
    rcases switch_routes (c := c) hfo hr hf with e | ⟨-, e⟩
    · exact ⟨by rw [e]; exact hi.lst, by rw [e, hk.sources]; exact hi.src, by rw [hk.xroutes]; exact hi.xr⟩
    · have h1 : LInv c (flatModify s.routes k o.neigh (fun r => { r with installed := false })) :=
        hi.lst.modify k _ (keepsId_installed false) (fun _ e => by simp at e) (fun _ e => e)
      refine ⟨by rw [e]; exact h1.mark _ _ (hi.lst.noneInstalled_after hm hok hoi),
        ?_, by rw [hk.xroutes]; exact hi.xr⟩
      rw [e, hk.sources]
      refine hi.src.congr (fun k' => ?_)
      rw [refs_move_modify h1.one]
      unfold refs
      rw [countP_modify_same]
      intro r; rfl
  | uninstall k n =>
    have hk := keep_uninstall c s k n
    exact ⟨hi.lst.uninstall k n, by rw [hk.sources]; exact hi.src.congr (fun k' => refs_uninstall k n _ k'),
      by rw [hk.xroutes]; exact hi.xr⟩
  | @recost s k n r h1 h2 =>
    have hk := keep_metric c s k n r.refmetric (s.ncost n)
      (c.inputFilter (some r.id) k (some n) (c.ifOf n))
    exact ⟨hi.lst.setMetric _ _ _ _ _,
      by rw [hk.sources]; exact hi.src.congr (fun k' => refs_setMetric _ _ _ _ _ _ k'),
      by rw [hk.xroutes]; exact hi.xr⟩
  | retract k n =>
    have hk := keep_metric c s k n INFINITY INFINITY 0
    exact ⟨hi.lst.setMetric _ _ _ _ _,
      by unfold retractRoute; rw [hk.sources]; exact hi.src.congr (fun k' => refs_setMetric _ _ _ _ _ _ k'),
      by unfold retractRoute; rw [hk.xroutes]; exact hi.xr⟩
  | @expire s k n r q h1 h2 h3 =>
    have hk := (keep_modRoute s k n (fun r => { r with seqno := q })).trans
      (keep_metric c _ k n INFINITY INFINITY 0)
    have h1 : LInv c (modRoute s k n (fun r => { r with seqno := q })).routes :=
      hi.lst.modify k n (fun _ => ⟨rfl, rfl⟩) (fun _ e => e) (fun _ e => e)
    refine ⟨h1.setMetric _ _ _ _ _, ?_, by unfold retractRoute; rw [hk.xroutes]; exact hi.xr⟩
    unfold retractRoute
    rw [hk.sources]
    refine hi.src.congr (fun k' => ?_)
    rw [refs_setMetric]
    unfold refs
    congr 1
    exact countP_modify_same _ _ _ _ (fun r => rfl)
  | @apply s r id q refm add hold u h1 h2 h3 h4 h5 h6 =>
    unfold applyUpdate
    simp only
    have key : ∃ s2, (if u = true then uninstallRoute c s r.key r.neigh else s) = s2 ∧
        Inv c s2 ex ∧ Keep s s2 ∧ ∃ r2, findRoute s2 r.key r.neigh = some r2 ∧ r2.skey = r.skey := by
      cases u with
      | false => exact ⟨s, rfl, hi, .refl s, r, h1, rfl⟩
      | true =>
        have hk := keep_uninstall c s r.key r.neigh
        obtain ⟨r2, hr2, hsk, -⟩ := uninstall_find c s _ _ h1
        exact ⟨_, rfl, ⟨hi.lst.uninstall _ _, by
          rw [if_pos rfl, hk.sources]; exact hi.src.congr (fun k' => refs_uninstall _ _ _ k'),
          by rw [if_pos rfl, hk.xroutes]; exact hi.xr⟩, hk, r2, hr2, hsk⟩
    obtain ⟨s2, e2, hi2, hk2, r2, hr2, hsk⟩ := key
    rw [e2]
    have hl3 : LInv c (modRoute (retainSource s2 ⟨id, r.key⟩) r.key r.neigh
        (updRoute s.now.sec id q refm)).routes :=
      hi2.lst.modify _ _ (keepsId_updRoute _ _ _ _) (fun _ e => e) (fun _ _ => h3)
    have hrefs : ∀ k', refs (flatModify s2.routes r.key r.neigh (updRoute s.now.sec id q refm))
        (r.skey :: ex) k' = refs s2.routes ex k' + if (⟨id, r.key⟩ : SKey) = k' then 1 else 0 := by
      intro k'
      unfold refs
      have hc := countP_modify hi2.lst.one hr2 (updRoute s.now.sec id q refm)
        (fun r => r.skey == k')
      have e1 : (updRoute s.now.sec id q refm r2).skey = ⟨id, r.key⟩ := by
        have := (findRoute_mem hr2).2.1
        unfold Route.skey updRoute
        simp only [this]
      rw [e1, hsk] at hc
      rw [List.count_cons]
      simp only [beq_iff_eq] at hc ⊢
      omega
    have hsrc : ∃ x ∈ s2.sources, x.skey = ⟨id, r.key⟩ := by
      by_cases hne : r.id = id
      · refine hi2.src.has _ ?_
        unfold refs
        have hm := (findRoute_mem hr2).1
        have : 0 < s2.routes.countP (fun x => x.skey == (⟨id, r.key⟩ : SKey)) := by
          rw [List.countP_pos_iff]
          exact ⟨r2, hm, by rw [hsk, ← hne]; simp [Route.skey]⟩
        omega
      · rw [hk2.sources]; exact isSome_mem (h4 hne)
    have hs3 : SInv (retainSource s2 ⟨id, r.key⟩).sources
        (flatModify s2.routes r.key r.neigh (updRoute s.now.sec id q refm)) (r.skey :: ex) := by
      rw [retain_sources]
      refine hi2.src.count_update _ _ (fun x => rfl) hsrc (fun k' hne => ?_) (fun x hx hxk => ?_)
      · rw [hrefs, if_neg (Ne.symm hne)]; omega
      · rw [hrefs, if_pos rfl]
        have := hi2.src.count x hx
        rw [hxk] at this
        simp [this]
    have hk4 := keep_metric c (modRoute (retainSource s2 ⟨id, r.key⟩) r.key r.neigh
        (updRoute s.now.sec id q refm)) r.key r.neigh refm (s.ncost r.neigh) add
    refine ⟨?_, ?_, ?_⟩
    · exact (hl3.setMetric _ _ refm (s.ncost r.neigh) add).modify _ _ (keepsId_hold hold)
        (fun _ e => e) (fun _ e => e)
    · show SInv (changeRouteMetric c (modRoute (retainSource s2 ⟨id, r.key⟩) r.key r.neigh
        (updRoute s.now.sec id q refm)) r.key r.neigh refm (s.ncost r.neigh) add).sources _ _
      rw [hk4.sources]
      refine SInv.congr hs3 (fun k' => ?_)
      have e := refs_setMetric (c := c) (s := modRoute (retainSource s2 ⟨id, r.key⟩) r.key r.neigh
        (updRoute s.now.sec id q refm)) r.key r.neigh refm (s.ncost r.neigh) add (r.skey :: ex) k'
      refine Eq.trans ?_ e
      unfold refs
      congr 1
      exact countP_modify_same _ _ _ _ (fun r => rfl)
    · show XInv (changeRouteMetric c (modRoute (retainSource s2 ⟨id, r.key⟩) r.key r.neigh
        (updRoute s.now.sec id q refm)) r.key r.neigh refm (s.ncost r.neigh) add).xroutes
      rw [hk4.xroutes]
      exact hi2.xr
  | insert k n id q refm add hold nh h1 h2 h3 h4 h5 h6 h7 =>
    have hkp := keep_notify { retainSource s ⟨id, k⟩ with
        routes := flatInsert s.routes (newRoute s k n id q refm add hold nh) } .add k n
    have hl := hi.lst.insert (r := newRoute s k n id q refm add hold nh) h1 rfl h3 h5
    have hrefs : ∀ k', refs (flatInsert s.routes (newRoute s k n id q refm add hold nh)) ex k' =
        refs s.routes ex k' + if (⟨id, k⟩ : SKey) = k' then 1 else 0 := by
      intro k'
      unfold refs flatInsert
      rw [List.countP_append, List.countP_cons]
      have e1 : (newRoute s k n id q refm add hold nh).skey = ⟨id, k⟩ := rfl
      rw [e1]
      simp only [beq_iff_eq, List.countP_nil]
      omega
    refine ⟨by rw [notifyRoute_routes]; exact hl, ?_, by rw [hkp.xroutes]; exact hi.xr⟩
    rw [hkp.sources, notifyRoute_routes]
    show SInv (retainSource s ⟨id, k⟩).sources (flatInsert s.routes _) ex
    rw [retain_sources]
    refine hi.src.count_update _ _ (fun x => rfl) (isSome_mem h4) (fun k' hne => ?_) (fun x hx hxk => ?_)
    · rw [hrefs, if_neg (Ne.symm hne)]; omega
    · rw [hrefs, if_pos rfl]
      have := hi.src.count x hx
      rw [hxk] at this
      simp [this]
  | @unlink s k n r h1 h2 hA' =>
    have hkp := keep_notify s .flush k n
    refine ⟨?_, ?_, ?_⟩
    · show LInv c (flatRemove (notifyRoute s .flush k n).routes k n)
      rw [notifyRoute_routes]; exact hi.lst.remove k n
    · show SInv (notifyRoute s .flush k n).sources (flatRemove (notifyRoute s .flush k n).routes k n) _
      rw [hkp.sources, notifyRoute_routes]
      refine hi.src.congr (fun k' => ?_)
      unfold refs
      have := countP_remove hi.lst.one h1 (fun r => r.skey == k')
      rw [List.count_cons]
      simp only [beq_iff_eq] at this ⊢
      omega
    · show XInv (notifyRoute s .flush k n).xroutes
      rw [hkp.xroutes]; exact hi.xr
  | release k =>
    refine ⟨hi.lst, ?_, hi.xr⟩
    show SInv (s.sources.map (fun x => if x.skey == k then { x with routeCount := x.routeCount - 1 } else x))
      s.routes ex'
    refine hi.src.count_update _ _ (fun x => rfl) (hi.src.has k ?_) (fun k' hne => ?_) (fun x hx hxk => ?_)
    · unfold refs; rw [List.count_cons]; simp
    · unfold refs; rw [List.count_cons]; simp [Ne.symm hne]
    · have := hi.src.count x hx
      rw [hxk] at this
      simp only [this]
      unfold refs
      rw [List.count_cons]
      simp
  | ensure k q =>
    have h1 : (ensureSource s k q).routes = s.routes := (ensure_routes ..).1
    have h2 : (ensureSource s k q).xroutes = s.xroutes := by unfold ensureSource; split <;> rfl
    exact ⟨by rw [h1]; exact hi.lst, by rw [h1]; exact hi.src.ensure k q, by rw [h2]; exact hi.xr⟩
  | gc hA' => exact ⟨hi.lst, hi.src.gc, hi.xr⟩
  | xadd kr h1 h2 h3 hA' =>
    unfold addXroute
    rw [h1]
    refine ⟨hi.lst, hi.src, ?_⟩
    refine ⟨xInsert_sorted hi.xr.sorted (fun y hy e => ?_), fun y hy => ?_⟩
    · unfold findXroute at h1
      rw [List.find?_eq_none] at h1
      exact h1 y hy (by simpa using e)
    · rcases mem_xInsert.1 hy with rfl | hy
      · exact ⟨h2, h3⟩
      · exact hi.xr.ok y hy
  | xdel x hx hA' =>
    exact ⟨hi.lst, hi.src, ⟨hi.xr.sorted.sublist List.filter_sublist,
      fun y hy => hi.xr.ok y (List.mem_filter.1 hy).1⟩⟩
  | xmod x m p hx hm _ hA' =>
    refine ⟨hi.lst, hi.src, ⟨?_, fun y hy => ?_⟩⟩
    · show (s.xroutes.map _).Pairwise _
      rw [List.pairwise_map]
      refine hi.xr.sorted.imp (fun {a b} hab => ?_)
      split <;> split
      · next h1 h2 => simp at h1 h2; rw [h1, h2] at hab; exact hab
      · next h1 _ => simp at h1; rw [h1] at hab; exact hab
      · next _ h2 => simp at h2; rw [h2] at hab; exact hab
      · exact hab
    · have hy : y ∈ s.xroutes.map _ := hy
      rw [List.mem_map] at hy
      obtain ⟨z, hz, e⟩ := hy
      split at e
      · rw [← e]; exact ⟨hm, (hi.xr.ok x hx).2⟩
      · rw [← e]; exact hi.xr.ok z hz
  | bump _ => exact ⟨hi.lst, hi.src, hi.xr⟩
  | tick t _ => exact ⟨hi.lst, hi.src, hi.xr⟩
  | cost n v _ => exact ⟨hi.lst, hi.src, hi.xr⟩

theorem Ms.inv {c : Cfg} {A : Allow} {s s' : St} {ex ex' : List SKey} (h : Ms c A s ex s' ex')
    (hi : Inv c s ex) : Inv c s' ex' := by
  induction h with
  | refl => exact hi
  | step _ m ih => exact m.inv ih

theorem Inv.step {c : Cfg} {s : St} (h : Inv c s []) (ev : Ev) : Inv c (step c s ev) [] :=
  (step_ms c s ev (fun r hr => (h.lst.ok r hr).1)).inv h

theorem Inv.run {c : Cfg} {s : St} (h : Inv c s []) (evs : List Ev) : Inv c (run c s evs) [] := by
  unfold Babel.run
  induction evs generalizing s with
  | nil => exact h
  | cons e l ih => exact ih (h.step e)

theorem Inv.init (c : Cfg) (now : Timeval) (q : UInt16) (ifs : List Iface) (nc : NeighId → Nat)
    (rnd : Nat → Nat) (kr : Nat → KRes) : Inv c (St.init now q ifs nc rnd kr) [] :=
  ⟨⟨.nil, .nil, by simp [St.init]⟩, ⟨by simp [St.init], by simp [St.init], by simp [St.init, refs]⟩,
   ⟨.nil, by simp [St.init]⟩⟩

/-- Steps in a reachable state. -/
theorem run_ms (c : Cfg) {s : St} (h : Inv c s []) (ev : Ev) :
    Ms c (allowEv ev) s [] (Babel.step c s ev) [] :=
  step_ms c s ev (fun r hr => (h.lst.ok r hr).1)

end Babel
