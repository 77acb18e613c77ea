import Verif.Lemmas.TwoWay2
import Verif.Lemmas.Net3
/-
The costs of routes are those of links.
-/
set_option linter.unusedSimpArgs false
set_option linter.unusedVariables false
set_option linter.unusedSectionVars false
namespace Babel
open Spec

/-- All costs are as `P` says. -/
structure CostInv (P : NeighId → Nat → Prop) (s : St) : Prop where
  routes : ∀ r ∈ s.routes, P r.neigh r.cost
  ncost : ∀ n, P n (s.ncost n)

section
variable {c : Cfg} {P : NeighId → Nat → Prop}

theorem core_cost {r r' : Route} (e : r'.core = r.core) : r'.cost = r.cost := by
  have := congrArg Route.cost e
  exact this

theorem costs_core {l l' : List Route} (e : l'.map Route.core = l.map Route.core) (h : ∀ r ∈ l, P r.neigh r.cost) : ∀ r ∈ l', P r.neigh r.cost := by
  intro r hr
  obtain ⟨r0, h0, e0⟩ := mem_core e hr
  rw [core_neigh e0, core_cost e0]
  exact h r0 h0

theorem costs_modify {l : List Route} {k : PKey} {n : NeighId} {f : Route → Route} (h : ∀ r ∈ l, P r.neigh r.cost)
    (hf : ∀ r, P r.neigh r.cost → r.neigh = n → P (f r).neigh (f r).cost) : ∀ r ∈ flatModify l k n f, P r.neigh r.cost := by
  intro x hx
  rcases mem_flatModify hx with ⟨r, h1, _, h3, e⟩ | ⟨h1, _⟩
  · rw [e]
    exact hf r (h r h1) h3
  · exact h x h1

theorem costs_mark {s : St} {k : PKey} {n : NeighId} {o : Option Route} (h : ∀ r ∈ s.routes, P r.neigh r.cost) :
    ∀ r ∈ (markInstalled s k n o).routes, P r.neigh r.cost := by
  intro x hx
  rcases mem_mark hx with h1 | ⟨r, h1, _, _, e⟩
  · exact h x h1
  · rw [e]
    exact h r h1

theorem costs_metric {s : St} {k : PKey} {n : NeighId} {refm cost add : Nat} (hc : P n cost) (h : ∀ r ∈ s.routes, P r.neigh r.cost) :
    ∀ r ∈ (changeRouteMetric c s k n refm cost add).routes, P r.neigh r.cost := by
  cases hr : findRoute s k n with
  | none =>
    have : changeRouteMetric c s k n refm cost add = s := by
      unfold changeRouteMetric
      rw [hr]
    rw [this]
    exact h
  | some r =>
    rcases changeRouteMetric_routes (c := c) refm cost add hr with ⟨_, e⟩ | e
    · rw [e]
      exact h
    · refine costs_core e (costs_modify h fun r _ hn => ?_)
      show P r.neigh cost
      rw [hn]
      exact hc

theorem costs_uninstall {s : St} {k : PKey} {n : NeighId} (h : ∀ r ∈ s.routes, P r.neigh r.cost) :
    ∀ r ∈ (uninstallRoute c s k n).routes, P r.neigh r.cost := by
  rcases uninstallRoute_routes c s k n with ⟨e, _⟩ | e <;> rw [e]
  · exact h
  · exact costs_modify h fun r hr _ => hr

theorem CostInv.metric {s : St} (h : CostInv P s) {k : PKey} {n : NeighId} {refm cost add : Nat} (hc : P n cost) :
    CostInv P (changeRouteMetric c s k n refm cost add) :=
  ⟨costs_metric hc h.routes, by rw [(keep_metric ..).ncost]; exact h.ncost⟩

theorem CostInv.install {s : St} (h : CostInv P s) {k : PKey} {n : NeighId} {r : Route}
    (hr : findRoute s k n = some r) (h2 : r.installed = false) (h3 : routeFeasible s r = true) : CostInv P (installRoute c s k n) := by
  refine ⟨?_, by rw [(keep_install c s k n hr h2 h3).ncost]; exact h.ncost⟩
  rcases installRoute_cases (c := c) hr h2 h3 with ⟨_, e⟩ | ⟨_, _, e⟩ | ⟨_, hf, e⟩
  · rw [e]; exact h.routes
  · rw [e, (konly_changeAdd ..).routes]; exact h.routes
  · rw [e, notifyRoute_routes]
    exact costs_mark (by rw [(konly_changeAdd ..).routes]; exact h.routes)

theorem CostInv.switch {s : St} {ex : List SKey} (h : CostInv P s) (hi : Inv c s ex) {k : PKey} {n : NeighId} {o r : Route}
    (ho : findInstalled s k = some o) (hr : findRoute s k n = some r) (h3 : routeFeasible s r = true) : CostInv P (switchRoutes c s k o.neigh n) := by
  obtain ⟨hm, hok, hoi⟩ := findInstalled_mem ho
  have hfo : findRoute s k o.neigh = some o := by rw [← hok]; exact findRoute_of_mem hi.lst hm
  refine ⟨?_, by rw [(keep_switch c s k o.neigh n hfo hr h3).ncost]; exact h.ncost⟩
  rcases switchRoutes_cases (c := c) hfo hr h3 with ⟨_, e⟩ | ⟨_, _, e⟩ | ⟨_, hf, e⟩
  · rw [e]; exact h.routes
  · rw [e, (konly_changeModify ..).routes]; exact h.routes
  · rw [e, notifyRoute_routes, notifyRoute_routes]
    refine costs_mark ?_
    show ∀ r ∈ flatModify _ _ _ _, _
    rw [(konly_changeModify ..).routes]
    exact costs_modify h.routes fun r hr _ => hr

theorem CostInv.apply {s : St} (h : CostInv P s) {k : PKey} {n : NeighId} {id : Bytes} {q : UInt16} {refm add hold : Nat} {u : Bool} :
    CostInv P (applyUpdate c s k n id q refm add hold u) := by
  refine ⟨?_, by rw [(applyUpdate_others c s k n id q refm add hold u).2.2]; exact h.ncost⟩
  unfold applyUpdate
  simp only
  show ∀ r ∈ flatModify _ _ _ _, _
  refine costs_modify ?_ fun r hr _ => hr
  refine costs_metric (h.ncost n) ?_
  show ∀ r ∈ flatModify _ _ _ _, _
  refine costs_modify ?_ fun r hr _ => hr
  show ∀ r ∈ (if u = true then uninstallRoute c s k n else s).routes, _
  split
  · exact costs_uninstall h.routes
  · exact h.routes

theorem CostInv.send {s : St} (h : CostInv P s) {i : IfId} {id : Bytes} {k : PKey} {q : UInt16} {m : Nat} : CostInv P (reallySend c s i id k q m) := by
  rcases reallySend_eq c s i id k q m with e | ⟨m', e, e2, _⟩ <;> rw [e]
  · exact h
  · exact ⟨h.routes, h.ncost⟩

theorem CostInv.sources {s : St} (h : CostInv P s) (l : List Source) : CostInv P { s with sources := l } := ⟨h.routes, h.ncost⟩

theorem M.costs (hP : ∀ n, P n INFINITY) {A : Allow} (hA : ¬ A.env) {s s' : St} {ex ex' : List SKey} (h : M c A s ex s' ex') (hi : Inv c s ex)
    (hn : CostInv P s) : CostInv P s' := by
  cases h with
  | q h =>
    cases h with
    | frame h => exact ⟨costs_core h.routes hn.routes, by rw [h.ncost]; exact hn.ncost⟩
    | own i x hx => exact hn.send
    | retraction i k _ _ => exact hn.send
    | route i r h1 _ _ => exact hn.send.sources _
  | install h1 h2 h3 h4 => exact hn.install h1 h2 h3
  | switch h1 h2 h3 h4 h5 h6 h7 => exact hn.switch hi h1 h2 h4
  | uninstall k n => exact ⟨costs_uninstall hn.routes, by rw [(keep_uninstall ..).ncost]; exact hn.ncost⟩
  | @recost s k n r h1 h2 => exact hn.metric (hn.ncost n)
  | retract k n => exact hn.metric (hP n)
  | @expire s k n r q h1 h2 h3 =>
    refine CostInv.metric (s := modRoute s k n (fun r => { r with seqno := q })) ⟨?_, hn.ncost⟩ (hP n)
    show ∀ r ∈ flatModify _ _ _ _, _
    exact costs_modify hn.routes fun r hr _ => hr
  | apply id q refm add hold u h1 h2 h3 h4 h5 h6 => exact hn.apply
  | insert k n id q refm add hold nh h1 h2 h3 h4 h5 h6 h7 =>
    refine ⟨?_, by rw [(keep_notify ..).ncost]; exact hn.ncost⟩
    rw [notifyRoute_routes]
    intro x hx
    rcases List.mem_append.1 (show x ∈ s.routes ++ [newRoute s k n id q refm add hold nh] from hx) with hx | hx
    · exact hn.routes x hx
    · rw [List.mem_singleton.1 hx]
      exact hn.ncost n
  | @unlink s k n r h1 h2 hA' =>
    refine ⟨?_, by
      show ∀ n, P n ((notifyRoute s .flush _ _).ncost n)
      rw [(keep_notify ..).ncost]
      exact hn.ncost⟩
    intro x hx
    have h3 := (List.mem_filter.1 (show x ∈ List.filter _ (notifyRoute s .flush k n).routes from hx)).1
    rw [notifyRoute_routes] at h3
    exact hn.routes x h3
  | release k => exact hn.sources _
  | ensure k q h1 =>
    unfold ensureSource
    split
    · exact hn
    · exact hn.sources _
  | gc hA' => exact hn.sources _
  | xadd kr h1 h2 h3 hA' =>
    unfold addXroute; rw [h1]
    exact ⟨hn.routes, hn.ncost⟩
  | xdel x hx hA' => exact ⟨hn.routes, hn.ncost⟩
  | xmod x m p hx hm _ hA' => exact ⟨hn.routes, hn.ncost⟩
  | bump _ => exact ⟨hn.routes, hn.ncost⟩
  | tick t h => exact absurd h hA
  | cost n v h => exact absurd h hA

theorem Ms.costs (hP : ∀ n, P n INFINITY) {A : Allow} (hA : ¬ A.env) {s s' : St} {ex ex' : List SKey} (h : Ms c A s ex s' ex') (hi : Inv c s ex)
    (hn : CostInv P s) : CostInv P s' := by
  induction h with
  | refl => exact hn
  | step h m ih => exact m.costs hP hA (h.inv hi) ih

/-- One event. -/
theorem step_costs (hP : ∀ n, P n INFINITY) {s : St} (hi : Inv c s []) (h : CostInv P s) (ev : Ev) (hg : ∀ n v, ev = .setCost n v → P n v) :
    CostInv P (step c s ev) := by
  have other : ¬ (allowEv ev).env → CostInv P (step c s ev) := fun h1 => (run_ms c hi ev).costs hP h1 hi h
  cases ev with
  | tick t => exact ⟨h.routes, h.ncost⟩
  | setCost n v =>
    refine ⟨h.routes, fun m => ?_⟩
    show P m (if m = n then v else s.ncost m)
    split
    · rename_i hm
      rw [hm]
      exact hg n v rfl
    · exact h.ncost m
  | _ => exact other (fun h => h)

end

/-! ### The daemon -/

section
variable {e : DCfg} {P : NeighId → Nat → Prop} {K : NeighId → Nbr → Prop}

/-- What is known of neighbours is as `K` says, and costs are as `P` says. -/
structure LinkInv (e : DCfg) (K : NeighId → Nbr → Prop) (P : NeighId → Nat → Prop) (d : Daemon) : Prop where
  inv : Inv e.node d.st []
  costs : CostInv P d.st
  nbrs : ∀ p ∈ d.nbrs, K p.1 p.2.link

theorem LinkInv.of_eq {d d' : Daemon} (h : LinkInv e K P d) (h1 : d'.st = d.st) (h2 : d'.nbrs = d.nbrs) : LinkInv e K P d' :=
  ⟨by rw [h1]; exact h.inv, by rw [h1]; exact h.costs, by rw [h2]; exact h.nbrs⟩

theorem LinkInv.links {d d' : Daemon} (h : LinkInv e K P d) (hl : OnlyLinks d d') : LinkInv e K P d' := by
  obtain ⟨l, rfl⟩ := hl
  exact h.of_eq rfl rfl

variable (hP : ∀ n, P n INFINITY) (hK : ∀ n l now s v, K n l → neighbourCost now (linkCfgOf e s (e.node.ifOf n)) l = some v → P n v)

include hP hK in
theorem LinkInv.refresh {d d' : Daemon} (h : LinkInv e K P d) (hk : d.refresh e = some d') : LinkInv e K P d' := by
  unfold Daemon.refresh at hk
  have key : ∀ (l : List (NeighId × DNbr)) (d d' : Daemon), (∀ p ∈ l, K p.1 p.2.link) → LinkInv e K P d → l.foldlM (fun d p => do
      let v ← neighbourCost d.st.now (linkCfgOf e d.st (e.node.ifOf p.1)) p.2.link
      return { d with st := step e.node d.st (.setCost p.1 v) }) d = some d' → LinkInv e K P d' := by
    intro l
    induction l with
    | nil => intro d d' _ h hk; cases hk; exact h
    | cons p l ih =>
      intro d d' hl h hk
      rw [List.foldlM_cons] at hk
      obtain ⟨d1, h1, hk⟩ := Option.bind_eq_some_iff.1 hk
      obtain ⟨v, h2, h1⟩ := Option.bind_eq_some_iff.1 h1
      cases h1
      have g : CostInv P (step e.node d.st (.setCost p.1 v)) := step_costs hP h.inv h.costs _ fun n w hw => by
        cases hw
        exact hK _ _ _ _ _ (hl p (List.mem_cons_self ..)) h2
      exact ih { d with st := step e.node d.st (.setCost p.1 v) } _ (fun p hp => hl p (List.mem_cons_of_mem _ hp)) ⟨h.inv.step (.setCost p.1 v), g, h.nbrs⟩ hk
  exact key _ _ _ h.nbrs h hk

include hP hK in
theorem LinkInv.nodeAs {d d' : Daemon} (h : LinkInv e K P d) {f : (IfId → Link) → IfId → Link} {ev : Ev} (hev : ∀ n v, ev ≠ .setCost n v)
    (hk : d.nodeAs e f ev = some d') : LinkInv e K P d' := by
  unfold Daemon.nodeAs at hk
  simp only [Option.bind_eq_bind] at hk
  obtain ⟨d1, h1, hk⟩ := Option.bind_eq_some_iff.1 hk
  have g := h.refresh hP hK h1
  refine LinkInv.links ?_ (onlyLinks_foldlM (fun _ _ _ h => post_only h) _ hk)
  exact ⟨g.inv.step ev, step_costs hP g.inv g.costs ev fun n v hn => absurd hn (hev n v), g.nbrs⟩

include hP hK in
theorem LinkInv.recost {d d' : Daemon} (h : LinkInv e K P d) {n : NeighId} {b : Bool} (hk : d.recost e n b = some d') : LinkInv e K P d' := by
  unfold Daemon.recost at hk
  split at hk
  · exact h.nodeAs hP hK (fun _ _ h => by cases h) hk
  · cases hk
    exact h

theorem LinkInv.setNbr {d : Daemon} (h : LinkInv e K P d) {n : NeighId} {f : DNbr → DNbr} (hf : ∀ x, (n, x) ∈ d.nbrs → K n (f x).link) :
    LinkInv e K P (d.setNbr n f) := by
  refine ⟨h.inv, h.costs, fun p hp => ?_⟩
  unfold Daemon.setNbr at hp
  obtain ⟨q, hq, rfl⟩ := List.mem_map.1 hp
  split
  · rename_i hn
    have hn : q.1 = n := by simpa using hn
    rw [hn]
    exact hf q.2 (by rw [← hn]; exact hq)
  · exact h.nbrs q hq

include hP hK in
theorem LinkInv.item {d d' : Daemon} (h : LinkInv e K P d) {n : NeighId} {it : Item} (hi : ∀ now (x : DNbr), K n x.link → K n (noted now x it).link)
    (hk : d.item e n it = some d') : LinkInv e K P d' := by
  have node : ∀ {ev : Ev}, (∀ n v, ev ≠ .setCost n v) → d.node e ev = some d' → LinkInv e K P d' := fun hev hk => h.nodeAs hP hK hev hk
  cases it with
  | ackReq nonce interval =>
    simp only [Daemon.item] at hk
    split at hk
    · cases hk
      exact h
    · exact h.links (write_only hk)
  | hello u q iv ts =>
    simp only [Daemon.item] at hk
    cases hx : d.nbr n with
    | none =>
      rw [hx] at hk
      cases hk
      exact h
    | some x =>
      rw [hx] at hk
      simp only [Option.bind_eq_bind] at hk
      obtain ⟨d1, h1, hk⟩ := Option.bind_eq_some_iff.1 hk
      have hl : K n (x.link.hearHello d.st.now u (UInt16.ofNat q) iv).1 := by
        have := hi d.st.now x (h.nbrs _ (mem_of_nbr hx))
        cases ts <;> exact this
      have g := (h.setNbr (n := n) (f := fun y => { y with link := (x.link.hearHello d.st.now u (UInt16.ofNat q) iv).1 }) fun _ _ => hl).recost hP hK h1
      cases ts with
      | none =>
        cases hk
        exact g
      | some t =>
        cases hk
        exact g.setNbr fun y hy => g.nbrs _ hy
  | ihu tx iv =>
    simp only [Daemon.item] at hk
    cases hx : d.nbr n with
    | none =>
      rw [hx] at hk
      cases hk
      exact h
    | some x =>
      rw [hx] at hk
      exact (h.setNbr (n := n) (f := fun y => { y with link := (x.link.hearIhu d.st.now tx iv).1 }) fun _ _ =>
        hi d.st.now x (h.nbrs _ (mem_of_nbr hx))).recost hP hK hk
  | retractAll => exact node (ev := .retractNeigh (d.st.routes.length + 1) n) (fun _ _ h => by cases h) hk
  | update id k q m iv nh => exact node (ev := .update id k (UInt16.ofNat q) m iv n nh) (fun _ _ h => by cases h) hk
  | requestAll =>
    have hk : d.fullDump e (e.node.ifOf n) = some d' := hk
    unfold Daemon.fullDump at hk
    exact iteInduction (motive := fun x => x = some d' → LinkInv e K P d')
      (fun _ hk => node (ev := .fullUpdate (e.node.ifOf n) false) (fun _ _ h => by cases h) hk) (fun _ hk => by cases hk; exact h) hk
  | request k => exact node (ev := .routeRequest n k) (fun _ _ h => by cases h) hk
  | seqnoRequest k h' q id => exact node (ev := .seqnoRequest n k h' (UInt16.ofNat q) id) (fun _ _ h => by cases h) hk

include hP hK in
theorem LinkInv.items {n : NeighId} : ∀ (l : List Item) {d d' : Daemon}, LinkInv e K P d →
    (∀ it ∈ l, ∀ now (x : DNbr), K n x.link → K n (noted now x it).link) → d.items e n l = some d' → LinkInv e K P d' := by
  intro l
  induction l with
  | nil =>
    intro d d' h _ hk
    cases hk
    exact h
  | cons it l ih =>
    intro d d' h hi hk
    unfold Daemon.items at hk
    rw [List.foldlM_cons] at hk
    obtain ⟨d1, h1, hk⟩ := Option.bind_eq_some_iff.1 hk
    exact ih (h.item hP hK (hi it (List.mem_cons_self ..)) h1) (fun x hx => hi x (List.mem_cons_of_mem _ hx)) hk

attribute [local irreducible] rttSample rttcost in
include hP hK in
theorem LinkInv.sample {d d' : Daemon} (h : LinkInv e K P d) {n : NeighId} {p : PState} (hr : ∀ now i l rtt, K n l → K n (l.addRtt now i rtt).1)
    (hk : d.sampleRtt e n p = some d') : LinkInv e K P d' := by
  unfold Daemon.sampleRtt at hk
  split at hk
  · cases hk
    exact h
  · next x hx =>
    split at hk
    · split at hk
      · cases hk
        exact h
      · next rtt hr' =>
        simp only at hk
        split at hk
        · cases hk
        · exact (h.setNbr (n := n) (f := fun y => { y with link := (x.link.addRtt d.st.now (linkCfgOf e d.st (e.node.ifOf n)) rtt).1 }) fun _ _ =>
            hr _ _ _ _ (h.nbrs _ (mem_of_nbr hx))).recost hP hK hk
    · cases hk
      exact h

theorem LinkInv.ensure {d : Daemon} (h : LinkInv e K P d) {n : NeighId} (hf : ∀ now, K n (Nbr.fresh now)) : LinkInv e K P (d.ensureNbr e n) := by
  unfold Daemon.ensureNbr
  split
  · refine ⟨h.inv, h.costs, fun p hp => ?_⟩
    rcases List.mem_cons.1 hp with rfl | hp
    · exact hf _
    · exact h.nbrs p hp
  · exact h

attribute [local irreducible] rttSample rttcost Daemon.sampleRtt Daemon.items in
include hP hK in
theorem LinkInv.packet {d d' : Daemon} (h : LinkInv e K P d) {n : NeighId} {buf dst : Bytes} {len : Nat} (hf : ∀ now, K n (Nbr.fresh now))
    (hr : ∀ now i l rtt, K n l → K n (l.addRtt now i rtt).1)
    (hi : ∀ d1 eff, ifUp d.st (e.node.ifOf n) = true → d.accept e n buf len dst = some (d1, eff) → ∀ it ∈ eff.items, ∀ now (x : DNbr), K n x.link →
      K n (noted now x it).link) (hk : d.packet e n buf len dst = some d') : LinkInv e K P d' := by
  unfold Daemon.packet at hk
  by_cases hup : ifUp d.st (e.node.ifOf n) = true
  rotate_left
  · rw [if_neg hup] at hk
    cases hk
    exact h
  rw [if_pos hup] at hk
  simp only [Option.bind_eq_bind] at hk
  obtain ⟨⟨d1, eff⟩, ha, hk⟩ := Option.bind_eq_some_iff.1 hk
  obtain ⟨d2, hit, hk⟩ := Option.bind_eq_some_iff.1 hk
  have hi := hi _ _ hup ha
  unfold Daemon.accept at ha
  simp only [Option.bind_eq_bind] at ha
  obtain ⟨⟨a, eff'⟩, hrc, ha⟩ := Option.bind_eq_some_iff.1 ha
  obtain ⟨d0, hch, ha⟩ := Option.bind_eq_some_iff.1 ha
  cases ha
  have h0 : LinkInv e K P { d with auth := fun x => if x = e.node.ifOf n then a else d.auth x } := h.of_eq rfl rfl
  have h1 : LinkInv e K P d1 := (h0.ensure (n := n) hf).links (onlyLinks_foldlM (fun _ _ _ h => challenge_only h) _ hch)
  have h2 := LinkInv.items hP hK _ h1 hi hit
  by_cases hv : eff'.verdict = .dropped
  · rw [if_pos hv] at hk
    cases hk
    exact h2
  · rw [if_neg hv] at hk
    obtain ⟨⟨p', it'⟩, _, hk⟩ := Option.bind_eq_some_iff.1 hk
    exact h2.sample hP hK hr hk

include hP hK in
/-- Any event. -/
theorem dstep_link {d d' : Daemon} {ev : DEv} (h : LinkInv e K P d) (hf : ∀ n now, K n (Nbr.fresh now))
    (hr : ∀ n now i l rtt, K n l → K n (l.addRtt now i rtt).1) (hc : ∀ n now l l' b, K n l → l.check now = some (l', b) → K n l')
    (hi : ∀ n buf len dst d1 eff, ev = .packet n buf len dst → ifUp d.st (e.node.ifOf n) = true → d.accept e n buf len dst = some (d1, eff) →
      ∀ it ∈ eff.items, ∀ now (x : DNbr), K n x.link → K n (noted now x it).link) (hk : dstep e d ev = some d') : LinkInv e K P d' := by
  cases ev with
  | packet n buf len dst => exact h.packet hP hK (hf n) (hr n) (fun d1 eff => hi n buf len dst d1 eff rfl) hk
  | checkNbr n =>
    have hk : d.checkNbr e n = some d' := hk
    unfold Daemon.checkNbr at hk
    cases hx : d.nbr n with
    | none =>
      rw [hx] at hk
      cases hk
      exact h
    | some x =>
      rw [hx] at hk
      simp only at hk
      cases hcx : x.link.check d.st.now with
      | none =>
        rw [hcx] at hk
        simp only [Option.bind_eq_bind] at hk
        obtain ⟨d1, h1, hk⟩ := Option.bind_eq_some_iff.1 hk
        cases hk
        have g := h.nodeAs (ev := .flushNeigh n) hP hK (fun _ _ h => by cases h) h1
        exact ⟨g.inv, g.costs, fun p hp => g.nbrs p (List.mem_filter.1 hp).1⟩
      | some r =>
        obtain ⟨l, b⟩ := r
        rw [hcx] at hk
        exact (h.setNbr (n := n) (f := fun y => { y with link := l }) fun _ _ => hc _ _ _ _ _ (h.nbrs _ (mem_of_nbr hx)) hcx).recost hP hK hk
  | node ev =>
    have hk : (if isInternal ev = true then d.node e ev else some d) = some d' := hk
    by_cases hint : isInternal ev = true
    · rw [if_pos hint] at hk
      exact h.nodeAs hP hK (fun _ _ h => by rw [h] at hint; cases hint) hk
    · rw [if_neg hint] at hk
      cases hk
      exact h
  | say i j op =>
    have hk : (if isChatter op ∧ j < d.fresh i ∧ (ifUp d.st i = true ∨ j ≠ 0) then d.write e i j op else some d) = some d' := hk
    split at hk
    · exact h.links (write_only hk)
    · cases hk
      exact h
  | down i =>
    have hk : (if ifUp d.st i then d.nodeAs e (ownBuf i Buf.down) (.ifDown i) else some d) = some d' := hk
    split at hk
    · exact h.nodeAs (ev := .ifDown i) hP hK (fun _ _ h => by cases h) hk
    · cases hk
      exact h
  | up i mtu fi full =>
    have hk : (if (getIf d.st i).isSome ∧ ifUp d.st i = false then
      d.nodeAs e (ownBuf i fun b => b.up b.dst mtu fi) (.ifUp i full) else some d) = some d' := hk
    split at hk
    · exact h.nodeAs (ev := .ifUp i full) hP hK (fun _ _ h => by cases h) hk
    · cases hk
      exact h

end

end Babel
