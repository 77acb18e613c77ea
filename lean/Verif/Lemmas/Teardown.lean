import Verif.Lemmas.Walk2
import Verif.Lemmas.Reach
import Verif.Spec.Teardown
/-
Tables of neighbours and interfaces.
-/
set_option linter.unusedSimpArgs false
set_option linter.unusedVariables false
set_option linter.unusedSectionVars false
namespace Babel
open Spec

/-! ### Where routes come from -/

/-- A route of `l` has this destination and neighbour. -/
def Has (l : List Route) (k : PKey) (n : NeighId) : Prop := ∃ r ∈ l, r.key = k ∧ r.neigh = n

theorem Has.core {l l' : List Route} (e : l'.map Route.core = l.map Route.core) {k n} (h : Has l' k n) :
    Has l k n := by
  obtain ⟨r, h1, h2, h3⟩ := h
  obtain ⟨r', h5, h6⟩ := mem_core e h1
  have h7 := congrArg Route.key h6
  have h8 := congrArg Route.neigh h6
  simp only [Route.core] at h7 h8
  exact ⟨r', h5, by simp_all⟩

theorem Has.modify {l : List Route} {k k' n n'} {f : Route → Route} (hf : KeepsId f)
    (h : Has (flatModify l k' n' f) k n) : Has l k n := by
  obtain ⟨r, h1, h2, h3⟩ := h
  unfold flatModify at h1
  obtain ⟨a, ha, e⟩ := List.mem_map.1 h1
  split at e
  · subst e
    exact ⟨a, ha, by rw [← (hf a).1]; exact h2, by rw [← (hf a).2]; exact h3⟩
  · subst e; exact ⟨a, ha, h2, h3⟩

theorem Has.move {l : List Route} {k k' n n'} (h : Has (flatMove l k' n') k n) : Has l k n := by
  obtain ⟨r, h1, h2⟩ := h
  exact ⟨r, mem_flatMove h1, h2⟩

theorem Has.metric {c : Cfg} {s : St} {k n k' n'} {a b d : Nat}
    (h : Has (changeRouteMetric c s k' n' a b d).routes k n) : Has s.routes k n := by
  cases hr : findRoute s k' n' with
  | none => rw [changeRouteMetric_noop _ _ _ hr] at h; exact h
  | some r =>
    rcases changeRouteMetric_cases (c := c) a b d hr with ⟨_, _, e⟩ | ⟨s1, h1, e⟩ <;> rw [e] at h
    · rw [(konly_changeModify ..).routes] at h; exact h
    · rw [notifyRoute_routes] at h
      have h := Has.modify (keepsId_setMetric c s.now.sec a b d) h
      have h := Has.core (frame_smooth c s1 k' n').routes h
      rcases h1 with ⟨_, _, e1⟩ | ⟨_, e1⟩
      · have := (konly_changeModify c s r (metricToKernel c (routeMetric r)) r.nexthop
          (c.ifOf r.neigh) (metricToKernel c (min (a + b + d) INFINITY))).routes
        rw [e1] at this; rw [this] at h; exact h
      · rw [e1] at h; exact h

theorem Has.uninstall {c : Cfg} {s : St} {k n k' n'}
    (h : Has (uninstallRoute c s k' n').routes k n) : Has s.routes k n := by
  rcases uninstallRoute_routes c s k' n' with ⟨e, _⟩ | e <;> rw [e] at h
  · exact h
  · exact Has.modify (keepsId_installed false) h

theorem M.has {c : Cfg} {A : Allow} {s s' : St} {ex ex' : List SKey}
    (h : M c A s ex s' ex') (hl : LInv c s.routes) {k : PKey} {n : NeighId}
    (hs : Has s'.routes k n) : Has s.routes k n ∨ ∃ id q refm, A.upd n id k q refm := by
  cases h with
  | q h => exact .inl (hs.core h.same.routes)
  | @install s k' n' r h1 h2 h3 h4 =>
    left
    rcases installRoute_cases (c := c) h1 h2 h3 with ⟨_, e⟩ | ⟨_, _, e⟩ | ⟨_, _, e⟩ <;> rw [e] at hs
    · exact hs
    · rw [(konly_changeAdd ..).routes] at hs; exact hs
    · rw [notifyRoute_routes] at hs
      have h := Has.modify (keepsId_installed true) (Has.move hs)
      rw [(konly_changeAdd ..).routes] at h; exact h
  | @switch s k' n' r o ho hr h3 hf h4 h5 h6 =>
    left
    obtain ⟨hm, hok, hoi⟩ := findInstalled_mem ho
    have hfo : findRoute s k' o.neigh = some o := by rw [← hok]; exact findRoute_of_mem hl hm
    rcases switchRoutes_cases (c := c) hfo hr hf with ⟨_, e⟩ | ⟨_, _, e⟩ | ⟨_, _, e⟩ <;> rw [e] at hs
    · exact hs
    · rw [(konly_changeModify ..).routes] at hs; exact hs
    · rw [notifyRoute_routes, notifyRoute_routes] at hs
      have h := Has.modify (keepsId_installed false) (Has.modify (keepsId_installed true) (Has.move hs))
      rw [(konly_changeModify ..).routes] at h; exact h
  | uninstall k n => exact .inl (Has.uninstall hs)
  | recost h1 h2 => exact .inl (Has.metric hs)
  | retract k n => exact .inl (Has.metric hs)
  | @expire s k n r q h1 h2 h3 =>
    exact .inl (Has.modify (f := fun r => { r with seqno := q }) (fun _ => ⟨rfl, rfl⟩) (Has.metric hs))
  | @apply s r id q refm add hold u h1 h2 h3 h4 h5 h6 =>
    left
    unfold applyUpdate at hs
    simp only at hs
    have h := Has.modify (keepsId_updRoute _ _ _ _) (Has.metric (Has.modify (keepsId_hold _) hs))
    have h : Has (if u = true then uninstallRoute c s r.key r.neigh else s).routes k n := h
    split at h
    · exact Has.uninstall h
    · exact h
  | insert k' n' id q refm add hold nh h1 h2 h3 h4 h5 h6 h7 =>
    rw [notifyRoute_routes] at hs
    obtain ⟨r, hr, hk, hn⟩ := hs
    have hr : r ∈ flatInsert s.routes (newRoute s k' n' id q refm add hold nh) := hr
    unfold flatInsert at hr
    rcases List.mem_append.1 hr with hr | hr
    · exact .inl ⟨r, hr, hk, hn⟩
    · right
      simp only [List.mem_singleton] at hr
      subst hr
      have hk : k' = k := hk
      have hn : n' = n := hn
      rw [← hk, ← hn]; exact ⟨id, q, refm, h2⟩
  | @unlink s k' n' r h1 h2 hA' =>
    left
    obtain ⟨r, hr, hk⟩ := hs
    have hr : r ∈ flatRemove (notifyRoute s .flush k' n').routes k' n' := hr
    rw [notifyRoute_routes] at hr
    exact ⟨r, (List.mem_filter.1 hr).1, hk⟩
  | release k => exact .inl hs
  | ensure k' q =>
    have := (ensure_routes s k' q).1
    rw [this] at hs; exact .inl hs
  | gc hA' => exact .inl hs
  | xadd kr h1 h2 h3 hA' => unfold addXroute at hs; rw [h1] at hs; exact .inl hs
  | xdel x hx hA' => exact .inl hs
  | xmod x m p hx hm _ hA' => exact .inl hs
  | bump _ => exact .inl hs
  | tick t h => exact .inl hs
  | cost n v h => exact .inl hs

theorem Ms.has {c : Cfg} {A : Allow} {s s' : St} {ex ex' : List SKey}
    (h : Ms c A s ex s' ex') (hl : Inv c s ex) {k : PKey} {n : NeighId}
    (hs : Has s'.routes k n) : Has s.routes k n ∨ ∃ id q refm, A.upd n id k q refm := by
  induction h with
  | refl => exact .inl hs
  | step h m ih =>
    rcases m.has (h.inv hl).lst hs with h1 | h1
    · exact ih h1
    · exact .inr h1

/-- A route after an event was there before, or comes from an update of its neighbour. -/
theorem step_has {c : Cfg} {s : St} (hi : Inv c s []) (ev : Ev) {k : PKey} {n : NeighId}
    (hs : Has (step c s ev).routes k n) :
    Has s.routes k n ∨ ∃ id q refm int nh, ev = .update id k q refm int n nh := by
  rcases (run_ms c hi ev).has hi hs with h | ⟨id, q, refm, h⟩
  · exact .inl h
  · right
    cases ev <;> first | exact h.elim | skip
    obtain ⟨rfl, rfl, rfl, rfl, _⟩ := h
    exact ⟨_, _, _, _, _, rfl⟩

/-! ### Interfaces -/

/-- The interface that an event takes up or down. -/
def Ev.updown : Ev → Bool
  | .ifUp _ _ => true
  | .ifDown _ => true
  | _ => false

theorem step_conf (c : Cfg) (s : St) (ev : Ev) (h : ev.updown = false) :
    (step c s ev).ifaces.map Iface.conf = s.ifaces.map Iface.conf := by
  cases hs : Ev.special ev with
  | false => exact (soft_step (P := Perm.all) s ev hs (fun _ _ _ _ _ _ _ _ _ => trivial)).fine.conf
  | true =>
    cases ev <;> first | (cases hs; done) | (cases h; done) | skip
    · rfl
    · have : (expireResend s).ifaces = s.ifaces := by
        unfold expireResend; split <;> rfl
      show (expireResend s).ifaces.map Iface.conf = _
      rw [this]
    · exact walk_conf c s _

theorem run_conf (c : Cfg) (evs : List Ev) (s : St) (h : ∀ ev ∈ evs, Ev.updown ev = false) :
    (run c s evs).ifaces.map Iface.conf = s.ifaces.map Iface.conf := by
  unfold run
  induction evs generalizing s with
  | nil => rfl
  | cons e l ih =>
    exact (ih (step c s e) (fun ev he => h ev (List.mem_cons_of_mem _ he))).trans
      (step_conf c s e (h e List.mem_cons_self))

theorem run_inv (c : Cfg) (evs : List Ev) (s : St) (h : Inv c s []) : Inv c (run c s evs) [] := by
  unfold run
  induction evs generalizing s with
  | nil => exact h
  | cons e l ih => exact ih _ (h.step e)

theorem run_has (c : Cfg) (evs : List Ev) (s : St) (hi : Inv c s []) {k : PKey} {n : NeighId}
    (hs : Has (run c s evs).routes k n) :
    Has s.routes k n ∨ ∃ id q refm int nh, Ev.update id k q refm int n nh ∈ evs := by
  unfold run at hs
  induction evs generalizing s with
  | nil => exact .inl hs
  | cons e l ih =>
    rcases ih (step c s e) (hi.step e) hs with h | ⟨id, q, refm, int, nh, h⟩
    · rcases step_has hi e h with h | ⟨id, q, refm, int, nh, h⟩
      · exact .inl h
      · exact .inr ⟨id, q, refm, int, nh, by rw [h]; exact List.mem_cons_self⟩
    · exact .inr ⟨id, q, refm, int, nh, List.mem_cons_of_mem _ h⟩

theorem ifUp_modIf (s : St) (i j : IfId) (b : Bool) (h : (getIf s i).isSome) :
    ifUp (modIf s i (fun x => { x with up := b })) j = if j = i then b else ifUp s j := by
  have e : getIf (modIf s i (fun x => { x with up := b })) j =
      if j = i then (getIf s i).map (fun x => { x with up := b }) else getIf s j := by
    unfold getIf modIf
    simp only
    induction s.ifaces with
    | nil => simp
    | cons x l ih =>
      simp only [List.map_cons, List.find?_cons]
      by_cases hx : x.ifindex = i
      · by_cases hj : j = i
        · subst hj; simp [hx]
        · simp only [hx, beq_self_eq_true, if_true, hj, if_false]
          have h1 : (i == j) = false := by simp; exact fun e => hj e.symm
          simp only [h1]
          rw [ih, if_neg hj]
      · by_cases hj : j = i
        · subst hj
          have h1 : (x.ifindex == j) = false := by simp [hx]
          simp only [h1, Bool.false_eq_true, if_false, if_true]
          rw [ih, if_pos rfl]
        · have h1 : (x.ifindex == i) = false := by simp [hx]
          simp only [h1, Bool.false_eq_true, if_false, hj]
          rw [ih, if_neg hj]
  unfold ifUp
  rw [e]
  by_cases hj : j = i
  · subst hj
    simp only [if_true]
    cases hg : getIf s j with
    | none => rw [hg] at h; simp at h
    | some x => rfl
  · simp only [hj, if_false]

theorem exists_iff {w : World} {i : IfId} : InTable w i ↔ (getIf w.st i).isSome := by
  unfold InTable getIf
  rw [List.find?_isSome]
  simp

theorem exists_conf {w w' : World} (h : w'.st.ifaces.map Iface.conf = w.st.ifaces.map Iface.conf) (i : IfId) :
    InTable w' i ↔ InTable w i := by
  have e := conf_getIf h i
  rw [exists_iff, exists_iff]
  have := congrArg Option.isSome e
  rw [Option.isSome_map, Option.isSome_map] at this
  rw [this]

theorem ifUp_exists {w : World} {i : IfId} (h : ifUp w.st i = true) : InTable w i := by
  rw [exists_iff]
  unfold ifUp at h
  cases e : getIf w.st i with
  | none => rw [e] at h; simp at h
  | some x => rfl

theorem inv_ifaces {c : Cfg} {s : St} (h : Inv c s []) (l : List Iface) : Inv c { s with ifaces := l } [] :=
  ((Frame.ms (A := {}) (c := c) (s := s) (t := { s with ifaces := l })
    ⟨rfl, rfl, rfl, rfl, rfl, rfl, rfl, rfl, rfl⟩) []).inv h

/-! ### The invariant -/

structure WInv (c : Cfg) (w : World) : Prop where
  inv : Inv c w.st []
  neigh : ∀ r ∈ w.st.routes, r.neigh ∈ w.neighs
  up : ∀ r ∈ w.st.routes, ifUp w.st (c.ifOf r.neigh) = true

theorem flushNeigh_has {c : Cfg} {s : St} (hi : Inv c s []) (n : NeighId) :
    ∀ r ∈ (step c s (.flushNeigh n)).routes, r.neigh ≠ n := by
  intro r hr
  have h := flushWhere_ids c [] (fun i => i.2.1 == n) s hi
  have := h.mem_iff.1 (List.mem_map.2 ⟨r, hr, rfl⟩)
  rw [List.mem_filter] at this
  simpa [Route.ident] using this.2

theorem ifDown_has {c : Cfg} {s : St} (hi : Inv c s []) (i : IfId) :
    ∀ r ∈ (step c s (.ifDown i)).routes, c.ifOf r.neigh ≠ i := by
  intro r hr
  have hi : Inv c (modIf s i (fun x => { x with up := false })) [] := inv_ifaces hi _
  have h := flushWhere_ids c [] (fun x => c.ifOf x.2.1 == i && (!false || v4mapped x.2.2.1)) _ hi
  have := h.mem_iff.1 (List.mem_map.2 ⟨r, hr, rfl⟩)
  rw [List.mem_filter] at this
  simpa [Route.ident] using this.2

/-- An event of the node that leaves interfaces alone and only receives updates from known neighbours on
interfaces that are up. -/
theorem WInv.run {c : Cfg} {w : World} (h : WInv c w) (evs : List Ev) (N : List NeighId)
    (hN : ∀ n ∈ w.neighs, n ∈ N) (hu : ∀ ev ∈ evs, Ev.updown ev = false)
    (hup : ∀ id k q refm int n nh, Ev.update id k q refm int n nh ∈ evs → n ∈ N ∧ ifUp w.st (c.ifOf n) = true) :
    WInv c ⟨Babel.run c w.st evs, N⟩ := by
  have hc := run_conf c evs w.st hu
  have key : ∀ r ∈ (Babel.run c w.st evs).routes, r.neigh ∈ N ∧ ifUp w.st (c.ifOf r.neigh) = true := by
    intro r hr
    rcases run_has c evs w.st h.inv ⟨r, hr, rfl, rfl⟩ with ⟨r0, h1, h2, h3⟩ | ⟨id, q, refm, int, nh, h1⟩
    · rw [← h3]; exact ⟨hN _ (h.neigh r0 h1), h.up r0 h1⟩
    · exact hup _ _ _ _ _ _ _ h1
  refine ⟨run_inv c evs _ h.inv, fun r hr => (key r hr).1, fun r hr => ?_⟩
  show ifUp (Babel.run c w.st evs) _ = true
  rw [conf_ifUp hc]
  exact (key r hr).2

theorem tlv_updown (n : NeighId) (tlvs : List Tlv) : ∀ ev ∈ tlvs.flatMap (Tlv.events n), Ev.updown ev = false := by
  intro ev he
  obtain ⟨t, _, ht⟩ := List.mem_flatMap.1 he
  cases t <;> simp [Tlv.events] at ht
  case cost => rcases ht with ht | ht <;> subst ht <;> rfl
  all_goals subst ht; rfl

theorem tlv_update {n m : NeighId} {tlvs : List Tlv} {id k q refm int nh}
    (h : Ev.update id k q refm int m nh ∈ tlvs.flatMap (Tlv.events n)) : m = n := by
  obtain ⟨t, _, ht⟩ := List.mem_flatMap.1 h
  cases t <;> simp [Tlv.events] at ht
  exact ht.2.2.2.2.2.1

theorem findNeighbour_neighs (w : World) (n : NeighId) :
    (∀ m, m ∈ (findNeighbour w n).neighs ↔ m = n ∨ m ∈ w.neighs) ∧ (findNeighbour w n).st = w.st := by
  unfold findNeighbour
  split
  · next h =>
    refine ⟨fun m => ⟨.inr, ?_⟩, rfl⟩
    rintro (rfl | h1)
    · simpa using h
    · exact h1
  · exact ⟨fun m => by simp, rfl⟩

theorem WInv.updown {c : Cfg} {w : World} (h : WInv c w) (i : IfId) (up full : Bool) :
    WInv c (interfaceUpdown c w i up full) ∧ (∀ j, InTable (interfaceUpdown c w i up full) j ↔ InTable w j) ∧
    (interfaceUpdown c w i up full).neighs = w.neighs ∧
    (InTable w i → ∀ j, ifUp (interfaceUpdown c w i up full).st j = if j = i then up else ifUp w.st j) := by
  unfold interfaceUpdown
  by_cases hn : (getIf w.st i).isNone || up == ifUp w.st i
  · rw [if_pos hn]
    refine ⟨h, fun _ => .rfl, rfl, fun he j => ?_⟩
    split
    · next e =>
      subst e
      rw [exists_iff] at he
      cases hg : getIf w.st j with
      | none => rw [hg] at he; simp at he
      | some x => rw [hg] at hn; simp at hn; exact hn.symm
    · rfl
  · rw [if_neg hn]
    have hsome : (getIf w.st i).isSome := by
      cases hg : getIf w.st i with
      | none => rw [hg] at hn; simp at hn
      | some x => rfl
    have hfor : ∀ ev, (up = true ∧ ev = Ev.ifUp i full ∨ up = false ∧ ev = .ifDown i) →
        ((step c w.st ev).ifaces.map Iface.conf = (modIf w.st i (fun x => { x with up := up })).ifaces.map Iface.conf ∧
        ∀ r ∈ (step c w.st ev).routes, up = false → c.ifOf r.neigh ≠ i) := by
      rintro ev (⟨rfl, rfl⟩ | ⟨rfl, rfl⟩)
      · exact ⟨(ifUp_fines (P := Perm.all) c w.st i full).conf, fun _ _ h => absurd h (by simp)⟩
      · exact ⟨(ifDown_fines (P := Perm.all) c w.st i).conf, fun r hr _ => ifDown_has h.inv i r hr⟩
    obtain ⟨ev, hev, hupd⟩ : ∃ ev, (if up = true then Ev.ifUp i full else .ifDown i) = ev ∧
        (up = true ∧ ev = Ev.ifUp i full ∨ up = false ∧ ev = .ifDown i) := by
      cases up
      · exact ⟨_, rfl, .inr ⟨rfl, rfl⟩⟩
      · exact ⟨_, rfl, .inl ⟨rfl, rfl⟩⟩
    rw [hev]
    obtain ⟨h1, h2⟩ := hfor ev hupd
    have hifup : ∀ j, ifUp (step c w.st ev) j = if j = i then up else ifUp w.st j := by
      intro j
      rw [conf_ifUp h1 j]
      exact ifUp_modIf w.st i j up hsome
    refine ⟨⟨h.inv.step ev, fun r hr => ?_, fun r hr => ?_⟩, fun j => ?_, rfl, fun _ => hifup⟩
    · rcases step_has h.inv ev ⟨r, hr, rfl, rfl⟩ with ⟨r0, h3, h4, h5⟩ | ⟨id, q, refm, int, nh, h3⟩
      · rw [← h5]; exact h.neigh r0 h3
      · rcases hupd with ⟨_, e⟩ | ⟨_, e⟩ <;> rw [e] at h3 <;> cases h3
    · show ifUp (step c w.st ev) _ = true
      rw [hifup]
      rcases step_has h.inv ev ⟨r, hr, rfl, rfl⟩ with ⟨r0, h3, h4, h5⟩ | ⟨id, q, refm, int, nh, h3⟩
      · split
        · next e =>
          cases hb : up with
          | true => rfl
          | false => exact absurd e (h2 r hr hb)
        · rw [← h5]; exact h.up r0 h3
      · rcases hupd with ⟨_, e⟩ | ⟨_, e⟩ <;> rw [e] at h3 <;> cases h3
    · have h3 := exists_conf (w := ⟨modIf w.st i (fun x => { x with up := up }), w.neighs⟩)
        (w' := ⟨step c w.st ev, w.neighs⟩) h1 j
      refine h3.trans ?_
      unfold InTable modIf
      simp only [List.mem_map]
      constructor
      · rintro ⟨x, ⟨y, hy, rfl⟩, hx⟩
        refine ⟨y, hy, ?_⟩
        revert hx
        split <;> exact id
      · rintro ⟨y, hy, hx⟩
        refine ⟨_, ⟨y, hy, rfl⟩, ?_⟩
        split <;> exact hx

theorem ifUp_append {s : St} {x : Iface} (h : (getIf s x.ifindex).isNone) (j : IfId) :
    ifUp s j = true → ifUp { s with ifaces := s.ifaces ++ [x] } j = true := by
  unfold ifUp getIf
  simp only [List.find?_append]
  cases s.ifaces.find? (fun y => y.ifindex == j) with
  | none => simp
  | some y => simp

theorem getIf_remove (s : St) (i j : IfId) :
    getIf { s with ifaces := s.ifaces.filter (·.ifindex != i) } j = if j = i then none else getIf s j := by
  unfold getIf
  simp only
  induction s.ifaces with
  | nil => simp
  | cons x l ih =>
    simp only [List.filter_cons]
    by_cases hx : x.ifindex = i
    · have h1 : (x.ifindex != i) = false := by simp [hx]
      rw [h1]
      simp only [Bool.false_eq_true, if_false]
      rw [ih]
      by_cases hj : j = i
      · rw [if_pos hj, if_pos hj]
      · rw [if_neg hj, if_neg hj, List.find?_cons]
        have : (x.ifindex == j) = false := by rw [hx]; simp; exact fun e => hj e.symm
        rw [this]
    · have h1 : (x.ifindex != i) = true := by simp [hx]
      rw [h1]
      simp only [if_true, List.find?_cons]
      cases hj : x.ifindex == j with
      | true =>
        have : j ≠ i := by
          intro e; simp at hj; exact hx (hj.trans e)
        simp [this]
      | false => exact ih

theorem WInv.step {c : Cfg} {w : World} (h : WInv c w) (ev : WEv) : WInv c (w.step c ev) := by
  have plain : ∀ e, ev.plain = some e → Ev.updown e = false →
      (∀ id k q refm int n nh, e ≠ .update id k q refm int n nh) →
      WInv c { w with st := Babel.step c w.st e } := by
    intro e _ he hn
    have := h.run [e] w.neighs (fun _ h => h) (by simpa using he)
      (fun id k q refm int n nh hm => (hn id k q refm int n nh (List.mem_singleton.1 hm).symm).elim)
    exact this
  cases ev
  case packet n tlvs =>
    show WInv c (tableReceive c w n tlvs)
    unfold tableReceive
    split
    · next hu =>
      obtain ⟨h1, h2⟩ := findNeighbour_neighs w n
      simp only
      rw [h2]
      refine h.run _ _ (fun m hm => (h1 m).2 (.inr hm)) (tlv_updown n tlvs) ?_
      intro id k q refm int m nh hm
      rw [tlv_update hm]
      exact ⟨(h1 n).2 (.inl rfl), hu⟩
    · exact h
  case check n v fuel =>
    show WInv c (if w.neighs.contains n then _ else w)
    split
    · refine h.run _ _ (fun _ h => h) (fun ev he => ?_) (fun id k q refm int m nh hm => ?_)
      · simp at he; rcases he with rfl | rfl <;> rfl
      · simp at hm
    · exact h
  case silent n =>
    show WInv c (if w.neighs.contains n then _ else w)
    split
    · have h1 := h.run [.flushNeigh n] w.neighs (fun _ h => h) (by simp [Ev.updown])
        (fun id k q refm int m nh hm => by simp at hm)
      unfold flushNeighbour
      refine ⟨h1.inv, fun r hr => ?_, h1.up⟩
      rw [List.mem_filter]
      exact ⟨h1.neigh r hr, by simp; exact flushNeigh_has h.inv n r hr⟩
    · exact h
  case updown i up full => exact (h.updown i up full).1
  case add x =>
    show WInv c (tableAddIf w x)
    unfold tableAddIf
    split
    · exact h
    · next hx =>
      refine ⟨inv_ifaces h.inv _, h.neigh, fun r hr => ?_⟩
      refine ifUp_append (x := { x with up := false, queue := [], queueCap := 0 }) ?_ _ (h.up r hr)
      cases hg : getIf w.st x.ifindex with
      | none => rfl
      | some y => rw [hg] at hx; simp at hx
  case remove i =>
    show WInv c (tableFlushIf c w i)
    unfold tableFlushIf
    split
    · exact h
    · next hx =>
      obtain ⟨h1, h2, h3, h4⟩ := h.updown i false false
      refine ⟨inv_ifaces h1.inv _, h1.neigh, fun r hr => ?_⟩
      have hex : InTable w i := by
        rw [exists_iff]
        cases hg : getIf w.st i with
        | none => rw [hg] at hx; simp at hx
        | some y => rfl
      have hu := h1.up r hr
      have hne : c.ifOf r.neigh ≠ i := by
        intro e
        rw [e, h4 hex i, if_pos rfl] at hu
        simp at hu
      show ifUp { (interfaceUpdown c w i false false).st with ifaces := _ } _ = true
      unfold ifUp at hu ⊢
      rw [getIf_remove, if_neg hne]
      exact hu
  all_goals exact plain _ rfl rfl (by intros; simp)

theorem Spec.WReachable.winv {c : Cfg} {w : World} (h : WReachable c w) : WInv c w := by
  induction h with
  | init now q ifs nc rand kres =>
    exact ⟨Inv.init .., fun r hr => absurd hr (by simp [World.init, St.init]),
      fun r hr => absurd hr (by simp [World.init, St.init])⟩
  | step ev _ ih => exact ih.step ev

end Babel
