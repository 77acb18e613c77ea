import Verif.Lemmas.Net3
/-
An invariant of one node: what it announces was announced to it, or is redistributed.
-/
set_option linter.unusedSimpArgs false
set_option linter.unusedVariables false
set_option linter.unusedSectionVars false
namespace Babel
open Spec

/-- What holds of a route; `R n id k q m` means that the neighbour `n` has announced this. -/
structure ORoute (c : Cfg) (R : NeighId → Bytes → PKey → UInt16 → Nat → Prop) (r : Route) : Prop where
  cost : 1 ≤ r.cost
  fam : r.installed = true → familyOk r.key r.nexthop = true ∧ srcUnsupported c r.key = false
  told : r.refmetric < INFINITY → R r.neigh r.id r.key r.seqno r.refmetric

/-- An announcement is accounted for. -/
def OSent (c : Cfg) (R : NeighId → Bytes → PKey → UInt16 → Nat → Prop) (out : List Out) (id : Bytes) (k : PKey) (q : UInt16) (m : Nat) : Prop :=
  (id = c.myid ∧ ∃ x, x.key = k ∧ Out.notifyXroute .add x ∈ out) ∨ ∃ n m', m' < m ∧ R n id k q m'

/-- What holds of a node. -/
structure OInv (c : Cfg) (R : NeighId → Bytes → PKey → UInt16 → Nat → Prop) (s : St) : Prop where
  routes : ∀ r ∈ s.routes, ORoute c R r
  ncost : ∀ n, 1 ≤ s.ncost n
  kres : ∀ i, s.kres i ≠ .fail
  xr : ∀ x ∈ s.xroutes, ∃ y, y.key = x.key ∧ Out.notifyXroute .add y ∈ s.out
  out : ∀ i id k q m, Out.update i id k q m ∈ s.out → m < INFINITY → OSent c R s.out id k q m

section
variable {c : Cfg} {R : NeighId → Bytes → PKey → UInt16 → Nat → Prop}

theorem ORoute.core {r r' : Route} (h : ORoute c R r) (e : r'.core = r.core) : ORoute c R r' := by
  have hc : r'.cost = r.cost := by have := congrArg Route.cost e; exact this
  have hn : r'.nexthop = r.nexthop := by have := congrArg Route.nexthop e; exact this
  have hi : r'.id = r.id := by have := congrArg Route.id e; exact this
  constructor
  · rw [hc]; exact h.cost
  · rw [core_installed e, core_key e, hn]; exact h.fam
  · rw [core_refmetric e, core_seqno e, core_neigh e, core_key e, hi]; exact h.told

theorem ORoute.off {r : Route} (h : ORoute c R r) : ORoute c R { r with installed := false } :=
  ⟨h.cost, fun e => absurd e (by simp), h.told⟩

theorem OSent.more {out out' : List Out} {id : Bytes} {k : PKey} {q : UInt16} {m : Nat} (h : OSent c R out id k q m)
    (ho : ∀ x, Out.notifyXroute .add x ∈ out → Out.notifyXroute .add x ∈ out') : OSent c R out' id k q m := by
  rcases h with ⟨h1, x, h2, h3⟩ | h
  · exact .inl ⟨h1, x, h2, ho x h3⟩
  · exact .inr h

/-- The redistributed routes do not change. -/
theorem OInv.same {s s' : St} (h : OInv c R s) (hn : s'.ncost = s.ncost) (hk : KSub s s') (hx : s'.xroutes = s.xroutes)
    (hmono : ∀ x, Out.notifyXroute .add x ∈ s.out → Out.notifyXroute .add x ∈ s'.out)
    (ho : ∀ i id k q m, Out.update i id k q m ∈ s'.out → m < INFINITY → Out.update i id k q m ∈ s.out ∨ OSent c R s'.out id k q m)
    (hr : ∀ r ∈ s'.routes, ORoute c R r) : OInv c R s' where
  routes := hr
  ncost := by rw [hn]; exact h.ncost
  kres i := by obtain ⟨j, e⟩ := hk.sub i; rw [e]; exact h.kres j
  xr x hx' := by
    rw [hx] at hx'
    obtain ⟨y, h1, h2⟩ := h.xr x hx'
    exact ⟨y, h1, hmono y h2⟩
  out i id k q m h1 h2 := by
    rcases ho i id k q m h1 h2 with h3 | h3
    · exact (h.out i id k q m h3 h2).more hmono
    · exact h3

theorem OInv.local {s s' : St} (h : OInv c R s) (hk : Keep s s') (hr : KSub s s') (hn : Notes s s')
    (ho : ∀ r ∈ s'.routes, ORoute c R r) : OInv c R s' :=
  h.same hk.ncost hr hk.xroutes (fun x hx => by obtain ⟨new, e, _⟩ := hn; rw [e]; exact List.mem_append_right _ hx)
    (fun _ _ _ _ _ h _ => .inl (hn.upd h)) ho

/-! ### Transitions -/

theorem OInv.metric {s : St} (h : OInv c R s) (k : PKey) (n : NeighId) (refm cost add : Nat)
    (hc : 1 ≤ cost) (hm : INFINITY ≤ refm ∨ ∀ r ∈ s.routes, r.key = k → r.neigh = n → r.refmetric = refm) :
    OInv c R (changeRouteMetric c s k n refm cost add) := by
  refine h.local (keep_metric ..) (ksub_metric ..) (notes_metric ..) ?_
  intro x hx
  obtain ⟨y, hy, e⟩ := mem_core (metric_routes h.kres (fun r hr => (h.routes r hr).fam) k n refm cost add) hx
  refine ORoute.core ?_ e
  rcases mem_flatModify hy with ⟨r, h1, h2, h3, e1⟩ | ⟨h1, _⟩
  · have hr := h.routes r h1
    rw [e1]
    refine ⟨hc, hr.fam, fun h5 => ?_⟩
    rcases hm with hm | hm
    · exact absurd h5 (Nat.not_lt.2 hm)
    · have e2 := hm r h1 h2 h3
      have := hr.told (by rw [e2]; exact h5)
      rw [e2] at this
      exact this
  · exact h.routes y h1

theorem OInv.retract {s : St} (h : OInv c R s) (k : PKey) (n : NeighId) : OInv c R (retractRoute c s k n) :=
  h.metric k n INFINITY INFINITY 0 (by unfold INFINITY; omega) (.inl (Nat.le_refl _))

theorem OInv.install {s : St} {ex : List SKey} (h : OInv c R s) (hi : Inv c s ex) {k : PKey} {n : NeighId} {r : Route}
    (hr : findRoute s k n = some r) (h2 : r.installed = false) (h3 : routeFeasible s r = true)
    (h4 : routeMetric r < INFINITY → routeExpired s r = false) : OInv c R (installRoute c s k n) := by
  have hk := keep_install c s k n hr h2 h3
  have hn := notes_install c s k n hr h2 h3 h4
  rcases installRoute_cases (c := c) hr h2 h3 with ⟨_, e⟩ | ⟨_, _, e⟩ | ⟨_, hf, e⟩
  · refine h.local hk ?_ hn ?_
    · rw [e]; exact .of_eq rfl
    · rw [e]; exact h.routes
  · refine h.local hk ?_ hn ?_
    · rw [e]; exact ksub_changeAdd ..
    · rw [e, (konly_changeAdd ..).routes]; exact h.routes
  · refine h.local hk ?_ hn ?_
    · rw [e]; exact (ksub_changeAdd ..).trans ((ksub_mark ..).trans (notifyRoute_ksub ..))
    · rw [e, notifyRoute_routes]
      intro x hx
      rcases mem_mark hx with h1 | ⟨r', h1, h5, h6, e1⟩
      · rw [(konly_changeAdd ..).routes] at h1
        exact h.routes x h1
      · rw [(konly_changeAdd ..).routes] at h1
        have e2 : r' = r := by
          have := findRoute_of_mem hi.lst h1
          rw [h5, h6, hr] at this
          exact (Option.some.inj this).symm
        rw [e1, e2]
        have hm := h.routes r (findRoute_mem hr).1
        exact ⟨hm.cost, fun _ => changeAdd_fam hf, hm.told⟩

theorem OInv.switch {s : St} {ex : List SKey} (h : OInv c R s) (hi : Inv c s ex) {k : PKey} {n : NeighId} {o r : Route}
    (ho : findInstalled s k = some o) (hr : findRoute s k n = some r) (h2 : r.installed = false)
    (h3 : routeFeasible s r = true) (h4 : routeMetric r < INFINITY) (h5 : routeExpired s r = false)
    (h6 : INFINITY ≤ routeMetric o ∨ (routeMetric r ≤ routeMetric o ∧ r.smoothed < o.smoothed)) :
    OInv c R (switchRoutes c s k o.neigh n) := by
  obtain ⟨hm, hok, hoi⟩ := findInstalled_mem ho
  have hfo : findRoute s k o.neigh = some o := by rw [← hok]; exact findRoute_of_mem hi.lst hm
  have hk := keep_switch c s k o.neigh n hfo hr h3
  have hn := notes_switch c s k o.neigh n hfo hr h3 h2 h5 h4 h6
  have hks : KSub s (changeModify c s o (metricToKernel c (routeMetric o)) r.nexthop
      (c.ifOf r.neigh) (metricToKernel c (routeMetric r))).2 := ksub_modify ..
  have hro : (changeModify c s o (metricToKernel c (routeMetric o)) r.nexthop
      (c.ifOf r.neigh) (metricToKernel c (routeMetric r))).2.routes = s.routes := (konly_changeModify ..).routes
  rcases switchRoutes_cases (c := c) hfo hr h3 with ⟨_, e⟩ | ⟨_, _, e⟩ | ⟨_, hf, e⟩
  · rw [e]; exact h
  · refine h.local hk ?_ hn ?_
    · rw [e]; exact hks
    · rw [e, hro]; exact h.routes
  · refine h.local hk ?_ hn ?_
    · rw [e]
      exact hks.trans ((ksub_modRoute ..).trans ((ksub_mark ..).trans
        ((notifyRoute_ksub ..).trans (notifyRoute_ksub ..))))
    · rw [e, notifyRoute_routes, notifyRoute_routes]
      intro x hx
      have key : ∀ y ∈ (modRoute (changeModify c s o (metricToKernel c (routeMetric o)) r.nexthop
          (c.ifOf r.neigh) (metricToKernel c (routeMetric r))).2 k o.neigh (fun r => { r with installed := false })).routes,
          y ∈ s.routes ∨ ∃ z ∈ s.routes, z.key = k ∧ z.neigh = o.neigh ∧ y = { z with installed := false } := by
        intro y hy
        rcases mem_flatModify hy with ⟨z, h7, h8, h9, e1⟩ | ⟨h7, _⟩
        · rw [hro] at h7; exact .inr ⟨z, h7, h8, h9, e1⟩
        · rw [hro] at h7; exact .inl h7
      rcases mem_mark hx with h1 | ⟨r', h1, h8, h9, e1⟩
      · rcases key x h1 with h7 | ⟨z, h7, _, _, e1⟩
        · exact h.routes x h7
        · rw [e1]; exact (h.routes z h7).off
      · have hmr := h.routes r (findRoute_mem hr).1
        have hfam := (h.routes o hm).fam hoi
        have hok' : o.key = r.key := by rw [hok, (findRoute_mem hr).2.1]
        have hf' := kernelModify_fam hf hfam.1 hfam.2
        rw [hok'] at hf'
        have e2 : r' = r := by
          rcases key r' h1 with h7 | ⟨z, h7, h10, h11, e3⟩
          · have := findRoute_of_mem hi.lst h7
            rw [h8, h9, hr] at this
            exact (Option.some.inj this).symm
          · exfalso
            have : n = o.neigh := by rw [← h9, e3]; exact h11
            rw [this, hfo] at hr
            cases hr
            rw [hoi] at h2; simp at h2
        rw [e1, e2]
        exact ⟨hmr.cost, fun _ => hf', hmr.told⟩

theorem OInv.uninstall {s : St} (h : OInv c R s) (k : PKey) (n : NeighId) : OInv c R (uninstallRoute c s k n) := by
  refine h.local (keep_uninstall ..) (ksub_uninstall ..) (notes_uninstall ..) ?_
  rcases uninstallRoute_routes c s k n with ⟨e, _⟩ | e <;> rw [e]
  · exact h.routes
  · intro x hx
    rcases mem_flatModify hx with ⟨r, h1, _, _, e1⟩ | ⟨h1, _⟩
    · rw [e1]; exact (h.routes r h1).off
    · exact h.routes x h1

theorem OInv.expire {s : St} (h : OInv c R s) (k : PKey) (n : NeighId) (q : UInt16) :
    OInv c R (retractRoute c (modRoute s k n (fun r => { r with seqno := q })) k n) := by
  have hro : ∀ x ∈ (modRoute s k n (fun r => { r with seqno := q })).routes, x.installed = true →
      familyOk x.key x.nexthop = true ∧ srcUnsupported c x.key = false := by
    intro x hx
    rcases mem_flatModify hx with ⟨r, h1, _, _, e1⟩ | ⟨h1, _⟩
    · rw [e1]; exact (h.routes r h1).fam
    · exact (h.routes x h1).fam
  have hkr : ∀ i, (modRoute s k n (fun r => { r with seqno := q })).kres i ≠ .fail := h.kres
  unfold retractRoute
  refine h.local ((keep_modRoute ..).trans (keep_metric ..)) ((ksub_modRoute ..).trans (ksub_metric ..))
    ((Notes.eq (s' := modRoute s k n (fun r => { r with seqno := q })) rfl).trans (notes_metric ..)) ?_
  intro x hx
  obtain ⟨y, hy, e⟩ := mem_core (metric_routes hkr hro k n INFINITY INFINITY 0) hx
  refine ORoute.core ?_ e
  rcases mem_flatModify hy with ⟨r, h1, h2, h3, e1⟩ | ⟨h1, h2⟩
  · rw [e1]
    exact ⟨by show 1 ≤ INFINITY; unfold INFINITY; omega, hro r h1, fun h5 => absurd h5 (Nat.lt_irrefl _)⟩
  · rcases mem_flatModify h1 with ⟨r, h4, h5, h6, e1⟩ | ⟨h4, _⟩
    · exact absurd (by rw [e1]; exact ⟨h5, h6⟩) h2
    · exact h.routes y h4

theorem OInv.apply {s : St} {ex : List SKey} (h : OInv c R s) (hi : Inv c s ex) {k : PKey} {n : NeighId} {id : Bytes} {q : UInt16}
    {refm add hold : Nat} {u : Bool} (hupd : refm < INFINITY → R n id k q refm) :
    OInv c R (applyUpdate c s k n id q refm add hold u) := by
  have ho := applyUpdate_others c s k n id q refm add hold u
  have hno := notes_apply c s k n id q refm add hold u
  refine h.same ho.2.2 (ksub_apply ..) ho.2.1 (fun x hx => by obtain ⟨new, e, _⟩ := hno; rw [e]; exact List.mem_append_right _ hx)
    (fun _ _ _ _ _ h _ => .inl (hno.upd h)) fun x hx => ?_
  rcases apply_mem h.kres (fun r hr => (h.routes r hr).fam) hi.lst _ _ _ _ _ _ _ _ hx with
    ⟨y, hy, e1⟩ | ⟨r', hr', h1, h2, h3, h4, h5, h6, h7, h8, h9, h10⟩
  · exact (h.routes y hy).core e1
  · refine ⟨by rw [h8]; exact h.ncost _, fun hin => ?_, fun hm => ?_⟩
    · rw [h4, h9, ← h1]; exact (h.routes r' hr').fam (h10 hin).1
    · rw [h7] at hm
      rw [h3, h4, h5, h6, h7]; exact hupd hm

theorem OInv.insert {s : St} (h : OInv c R s) {k : PKey} {n : NeighId} {id : Bytes} {q : UInt16}
    {refm add hold : Nat} {nh : Bytes} (hupd : refm < INFINITY → R n id k q refm) :
    OInv c R (notifyRoute { retainSource s ⟨id, k⟩ with
        routes := flatInsert s.routes (newRoute s k n id q refm add hold nh) } .add k n) := by
  have hk := keep_notify { retainSource s ⟨id, k⟩ with
      routes := flatInsert s.routes (newRoute s k n id q refm add hold nh) } .add k n
  have hnt : Notes s (notifyRoute { retainSource s ⟨id, k⟩ with
        routes := flatInsert s.routes (newRoute s k n id q refm add hold nh) } .add k n) :=
    (Notes.eq rfl).trans (notes_notify ..)
  refine h.same hk.ncost (.of_eq (notifyRoute_kres ..)) hk.xroutes
    (fun x hx => by obtain ⟨new, e, _⟩ := hnt; rw [e]; exact List.mem_append_right _ hx) (fun _ _ _ _ _ h _ => .inl (hnt.upd h)) ?_
  rw [notifyRoute_routes]
  intro x hx
  have hx : x ∈ flatInsert s.routes (newRoute s k n id q refm add hold nh) := hx
  unfold flatInsert at hx
  rcases List.mem_append.1 hx with hx | hx
  · exact h.routes x hx
  · rw [List.mem_singleton.1 hx]
    exact ⟨h.ncost n, fun e => absurd (show false = true from e) (by simp), hupd⟩

/-! ### Announcements -/

theorem OInv.frame {s s' : St} (h : OInv c R s) (hf : Frame s s') : OInv c R s' := by
  have hm : ∀ {o : Out}, o.minor = false → (o ∈ s'.out ↔ o ∈ s.out) := fun {o} ho => by
    have h1 : ∀ l : List Out, o ∈ l ↔ o ∈ l.filter (fun o => !o.minor) := fun l => by simp [ho]
    rw [h1 s'.out, hf.out, ← h1]
  refine h.same hf.ncost (.of_eq hf.kres) hf.xroutes (fun x hx => (hm rfl).2 hx) (fun _ _ _ _ _ h _ => .inl ((hm rfl).1 h)) fun r hr => ?_
  obtain ⟨r0, h0, e0⟩ := mem_core hf.routes hr
  exact (h.routes r0 h0).core e0

theorem OInv.send {s : St} (h : OInv c R s) (i : IfId) {id : Bytes} {k : PKey} {q : UInt16} {m : Nat}
    (ho : ∀ m', m ≤ m' → m' < INFINITY → OSent c R s.out id k q m') : OInv c R (reallySend c s i id k q m) := by
  rcases reallySend_eq c s i id k q m with e | ⟨m', e, e2, _⟩ <;> rw [e]
  · exact h
  · refine h.same rfl (.of_eq rfl) rfl (fun x hx => List.mem_cons_of_mem _ hx) (fun i' id' k' q' m1 h1 h2 => ?_) h.routes
    rcases List.mem_cons.1 h1 with h3 | h3
    · injection h3 with h4 h5 h6 h7 h8
      rw [h5, h6, h7]
      exact .inr ((ho m1 (by omega) h2).more fun x hx => List.mem_cons_of_mem _ hx)
    · exact .inl h3

theorem OInv.sources {s : St} (h : OInv c R s) (l : List Source) : OInv c R { s with sources := l } :=
  ⟨h.routes, h.ncost, h.kres, h.xr, h.out⟩

theorem QM.origin {s s' : St} (h : QM c s s') (ho : OInv c R s) : OInv c R s' := by
  cases h with
  | frame h => exact ho.frame h
  | own i x hx =>
    refine ho.send i fun m' _ _ => .inl ⟨rfl, ?_⟩
    exact ho.xr x (by unfold findXroute at hx; exact List.mem_of_find?_eq_some hx)
  | retraction i k _ _ => exact ho.send i fun m' h1 h2 => absurd h2 (Nat.not_lt.2 h1)
  | route i r h1 _ _ =>
    have hr := ho.routes r (findInstalled_mem h1).1
    refine OInv.sources (ho.send i fun m' h2 h3 => ?_) _
    have hlt : r.refmetric < routeMetric r ∧ r.refmetric < INFINITY := by
      have := hr.cost
      unfold routeMetric at h2 ⊢
      omega
    exact .inr ⟨r.neigh, r.refmetric, by omega, hr.told hlt.2⟩

theorem M.origin {A : Allow} (hA : ¬ A.env) (hu : ∀ n id k q m, A.upd n id k q m → m < INFINITY → R n id k q m) {s s' : St} {ex ex' : List SKey}
    (h : M c A s ex s' ex') (hi : Inv c s ex) (hn : OInv c R s) : OInv c R s' := by
  cases h with
  | q h => exact h.origin hn
  | install h1 h2 h3 h4 => exact hn.install hi h1 h2 h3 h4
  | switch h1 h2 h3 h4 h5 h6 h7 => exact hn.switch hi h1 h2 h3 h4 h5 h6 h7
  | uninstall k n => exact hn.uninstall k n
  | @recost s k n r h1 h2 =>
    refine hn.metric k n _ _ _ (hn.ncost n) (.inr fun r' hr' h3 h4 => ?_)
    have := findRoute_of_mem hi.lst hr'
    rw [h3, h4, h1] at this
    rw [Option.some.inj this]
  | retract k n => exact hn.retract k n
  | expire q h1 h2 h3 => exact hn.expire _ _ q
  | apply id q refm add hold u h1 h2 h3 h4 h5 h6 => exact hn.apply hi (hu _ _ _ _ _ h2)
  | insert k n id q refm add hold nh h1 h2 h3 h4 h5 h6 h7 => exact hn.insert (hu _ _ _ _ _ h2)
  | @unlink s k n r h1 h2 hA' =>
    have hk := keep_notify s .flush k n
    have hno : Notes s (unlinkRoute (notifyRoute s .flush k n) k n) := (notes_notify ..).trans (.eq rfl)
    refine hn.same hk.ncost (.of_eq (notifyRoute_kres ..)) hk.xroutes
      (fun x hx => by obtain ⟨new, e, _⟩ := hno; rw [e]; exact List.mem_append_right _ hx) (fun _ _ _ _ _ h _ => .inl (hno.upd h)) ?_
    intro x hx
    have h3 := (List.mem_filter.1 (show x ∈ List.filter _ (notifyRoute s .flush k n).routes from hx)).1
    rw [notifyRoute_routes] at h3; exact hn.routes x h3
  | release k => exact hn.sources _
  | ensure k q h1 =>
    unfold ensureSource
    split
    · exact hn
    · exact hn.sources _
  | gc hA' => exact hn.sources _
  | xadd kr h1 h2 h3 hA' =>
    unfold addXroute; rw [h1]
    refine ⟨hn.routes, hn.ncost, hn.kres, fun x hx => ?_, fun i id k q m h4 h5 => ?_⟩
    · rcases mem_xInsert.1 (show x ∈ xInsert _ _ from hx) with rfl | hx
      · exact ⟨_, rfl, List.mem_cons_self ..⟩
      · obtain ⟨z, h4, h5⟩ := hn.xr x hx
        exact ⟨z, h4, List.mem_cons_of_mem _ h5⟩
    · rcases List.mem_cons.1 h4 with h4 | h4
      · cases h4
      · exact (hn.out i id k q m h4 h5).more fun x hx => List.mem_cons_of_mem _ hx
  | xdel x hx hA' =>
    refine ⟨hn.routes, hn.ncost, hn.kres, fun y hy => ?_, fun i id k q m h4 h5 => ?_⟩
    · obtain ⟨z, h1, h2⟩ := hn.xr y (List.mem_filter.1 hy).1
      exact ⟨z, h1, List.mem_cons_of_mem _ h2⟩
    · rcases List.mem_cons.1 h4 with h4 | h4
      · cases h4
      · exact (hn.out i id k q m h4 h5).more fun x hx => List.mem_cons_of_mem _ hx
  | xmod x m p hx hm _ hA' =>
    refine ⟨hn.routes, hn.ncost, hn.kres, fun y hy => ?_, fun i id k q m h4 h5 => ?_⟩
    · have hy : y ∈ s.xroutes.map _ := hy
      obtain ⟨w, hw, e⟩ := List.mem_map.1 hy
      have : ∃ w ∈ s.xroutes, w.key = y.key := by
        split at e
        · exact ⟨x, hx, by rw [← e]⟩
        · exact ⟨w, hw, by rw [← e]⟩
      obtain ⟨w, hw, e⟩ := this
      obtain ⟨z, h1, h2⟩ := hn.xr w hw
      exact ⟨z, h1.trans e, List.mem_cons_of_mem _ h2⟩
    · rcases List.mem_cons.1 h4 with h4 | h4
      · cases h4
      · exact (hn.out i id k q m h4 h5).more fun x hx => List.mem_cons_of_mem _ hx
  | bump _ => exact ⟨hn.routes, hn.ncost, hn.kres, hn.xr, hn.out⟩
  | tick t h => exact absurd h hA
  | cost n v h => exact absurd h hA

theorem Ms.origin {A : Allow} (hA : ¬ A.env) (hu : ∀ n id k q m, A.upd n id k q m → m < INFINITY → R n id k q m) {s s' : St} {ex ex' : List SKey}
    (h : Ms c A s ex s' ex') (hi : Inv c s ex) (hn : OInv c R s) : OInv c R s' := by
  induction h with
  | refl => exact hn
  | step h m ih => exact m.origin hA hu (h.inv hi) ih

end

end Babel
