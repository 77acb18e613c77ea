import Verif.Lemmas.Lost
/-
What the neighbours have been told about a destination that cannot be reached any more: the functions of route.c.
-/
set_option linter.unusedSimpArgs false
set_option linter.unusedVariables false
set_option linter.unusedSectionVars false
namespace Babel
open Spec

variable {c : Cfg} {v : Bytes → Bytes} {e : Prop} {i : IfId} {k : PKey}

/-! ### Steps on the tables -/

theorem tbl_install {s : St} {k' : PKey} {n : NeighId} {r : Route} (h1 : findRoute s k' n = some r)
    (h2 : r.installed = false) (h3 : routeFeasible s r = true) : Tbl c s (installRoute c s k' n) := by
  have hk := keep_install c _ _ _ h1 h2 h3
  rcases install_routes (c := c) h1 h2 h3 with e | ⟨hn, e⟩
  · exact .same (hard_install ..) hk.xroutes e
  · refine ⟨hard_install .., hk.xroutes, fun hl => ?_, fun x hx => ?_⟩
    · rw [e]; exact hl.mark _ _ (noneInstalled_of_find hl hn)
    · rw [e] at hx
      rcases mem_flatModify (mem_flatMove hx) with ⟨y, hy, -, -, rfl⟩ | ⟨hy, -⟩
      · exact ⟨y, hy, rfl, rfl⟩
      · exact ⟨x, hy, rfl, rfl⟩

theorem tbl_switch {s : St} {k' : PKey} {n : NeighId} {o r : Route} (ho : findInstalled s k' = some o)
    (hr : findRoute s k' n = some r) (hf : routeFeasible s r = true) : Tbl c s (switchRoutes c s k' o.neigh n) := by
  obtain ⟨hm, hok, hoi⟩ := findInstalled_mem ho
  have hfo := findInstalled_findRoute ho
  have hk := keep_switch c s k' o.neigh n hfo hr hf
  rcases switch_routes (c := c) hfo hr hf with e | ⟨-, e⟩
  · exact .same (hard_switch ..) hk.xroutes e
  · refine ⟨hard_switch .., hk.xroutes, fun hl => ?_, fun x hx => ?_⟩
    · have h1 : LInv c (flatModify s.routes k' o.neigh (fun r => { r with installed := false })) :=
        hl.modify k' _ (keepsId_installed false) (fun _ e => by simp at e) (fun _ e => e)
      rw [e]; exact h1.mark _ _ (hl.noneInstalled_after hm hok hoi)
    · rw [e] at hx
      rcases mem_flatModify (mem_flatMove hx) with ⟨y, hy, -, -, rfl⟩ | ⟨hy, -⟩
      · rcases mem_flatModify hy with ⟨z, hz, -, -, rfl⟩ | ⟨hz, -⟩
        · exact ⟨z, hz, rfl, rfl⟩
        · exact ⟨y, hz, rfl, rfl⟩
      · rcases mem_flatModify hy with ⟨z, hz, -, -, rfl⟩ | ⟨hz, -⟩
        · exact ⟨z, hz, rfl, rfl⟩
        · exact ⟨x, hz, rfl, rfl⟩

theorem tbl_uninstall (s : St) (k' : PKey) (n : NeighId) : Tbl c s (uninstallRoute c s k' n) := by
  refine ⟨hard_uninstall .., (keep_uninstall c s k' n).xroutes, fun hl => hl.uninstall k' n, ?_⟩
  rcases uninstallRoute_routes c s k' n with ⟨e, hi⟩ | e
  · exact .core (by rw [e])
  · intro x hx
    rw [e] at hx
    rcases mem_flatModify hx with ⟨y, hy, -, -, rfl⟩ | ⟨hy, -⟩
    · exact ⟨y, hy, rfl, rfl⟩
    · exact ⟨x, hy, rfl, rfl⟩

theorem tbl_metric (s : St) (k' : PKey) (n : NeighId) (a b d : Nat) : Tbl c s (changeRouteMetric c s k' n a b d) :=
  ⟨hard_metric .., (keep_metric c s k' n a b d).xroutes, fun hl => hl.setMetric k' n a b d, (mod1_metric ..).from_⟩

theorem tbl_modRoute (s : St) (k' : PKey) (n : NeighId) {f : Route → Route} (hf : KeepsId f)
    (hi : ∀ y, (f y).installed = y.installed) (hg : ∀ y, y.id ≠ c.myid → (f y).id ≠ c.myid) : Tbl c s (modRoute s k' n f) := by
  refine ⟨hard_modRoute .., rfl, fun hl => hl.modify k' n hf (fun r h => by rw [hi] at h; exact h) hg, ?_⟩
  intro x hx
  rcases mem_flatModify hx with ⟨y, hy, -, -, rfl⟩ | ⟨hy, -⟩
  · exact ⟨y, hy, (hf y).1.symm, (hf y).2.symm⟩
  · exact ⟨x, hy, rfl, rfl⟩

theorem tbl_notify (s : St) (kd : NKind) (k' : PKey) (n : NeighId) : Tbl c s (notifyRoute s kd k' n) :=
  .same (hard_notify ..) (notifyRoute_xroutes ..) (notifyRoute_routes ..)

theorem tbl_sources (s : St) (l : List Source) : Tbl c s { s with sources := l } := .same (hard_sources ..) rfl rfl

theorem tbl_sourceFor (s : St) (r : Option Route) (sk : SKey) (q : UInt16) : Tbl c s (sourceFor s r sk q) := by
  unfold sourceFor
  split
  · exact .refl s
  · unfold ensureSource
    split
    · exact .refl s
    · exact tbl_sources ..

theorem tbl_apply (s : St) (k' : PKey) (n : NeighId) {id' : Bytes} (hid : id' ≠ c.myid) (q : UInt16) (a b d : Nat) (u : Bool) :
    Tbl c s (applyUpdate c s k' n id' q a b d u) := by
  unfold applyUpdate
  simp only
  have h1 : Tbl c s (if u then uninstallRoute c s k' n else s) := by
    cases u with
    | true => exact tbl_uninstall ..
    | false => exact .refl s
  have h2 : Tbl c s (retainSource (if u then uninstallRoute c s k' n else s) ⟨id', k'⟩) := h1.trans (tbl_sources ..)
  have h3 := h2.trans (tbl_modRoute _ k' n (f := fun r => { r with
    id := id', seqno := q, time := if a < INFINITY then s.now.sec else r.time }) (fun _ => ⟨rfl, rfl⟩) (fun _ => rfl) (fun _ _ => hid))
  have h4 := h3.trans (tbl_metric _ k' n a (s.ncost n) b)
  exact h4.trans (tbl_modRoute _ k' n (f := fun r => { r with holdTime := d }) (fun _ => ⟨rfl, rfl⟩) (fun _ => rfl) (fun _ h => h))

theorem tbl_unlink (s : St) (k' : PKey) (n : NeighId) : Tbl c s (unlinkRoute s k' n) :=
  ⟨hard_routes .., rfl, fun hl => hl.remove k' n, fun x hx => ⟨x, (List.mem_filter.1 hx).1, rfl, rfl⟩⟩

theorem tbl_findBest {s s1 : St} {k' : PKey} {fe : Bool} {ex b : Option NeighId} (h : findBest c s k' fe ex = (b, s1)) :
    Tbl c s s1 := .frame (hard_findBest' h) (findBest_frame h)

/-! ### Triggered updates -/

theorem trigger_none {s : St} {r : Route} {sk : SKey} {m : Nat} (h : triggerUrgency s r sk m = none) :
    r.skey = sk ∧ (m < INFINITY → routeMetric r < INFINITY) := by
  unfold triggerUrgency at h
  simp only at h
  split at h
  · cases h
  · next hc =>
    constructor
    · exact Classical.not_not.1 (fun h => hc (.inl h))
    · intro hm
      rcases Nat.lt_or_ge (routeMetric r) INFINITY with h1 | h1
      · exact h1
      · exact absurd (.inr ⟨hm, h1⟩) hc

theorem quiet_trig {s : St} (hl : LInv c s.routes) (k' : PKey) (n : NeighId) (sk : SKey) (m : Nat) :
    Quiet c s (sendTriggeredUpdate c s k' n sk m) := by
  unfold sendTriggeredUpdate
  split
  · exact .refl s
  · split
    · exact .refl s
    · split
      · exact .refl s
      · simp only
        have h1 : ∀ u : Nat, Quiet c s (if u ≥ 2 then sendUpdateResend c s k' else sendUpdate c s (u == 1) k') := by
          intro u
          split
          · exact (quiet_sendUpdateResend hl k').1
          · exact (quiet_sendUpdate hl _ k').1
        split
        · exact (h1 _).trans (quiet_mrequest ((h1 _).linv hl) _)
        · exact h1 _

theorem J.trig {s s1 : St} (h : Tbl c s s1) {k' : PKey} {n : NeighId} {x : Route} {sk : SKey} {m : Nat}
    (hr : findRoute s1 k' n = some x) (hx : x.installed = true) (hc : k' ≠ k → LInv c s.routes → Cls v k s s1)
    (hk : k' = k → LInv c s.routes → x.skey = sk → (m < INFINITY → routeMetric x < INFINITY) → Cls v k s s1) :
    J c v e i k s (sendTriggeredUpdate c s1 k' n sk m) := by
  unfold sendTriggeredUpdate
  rw [hr]
  simp only [hx, Bool.not_true, Bool.false_eq_true, if_false]
  cases hu : triggerUrgency s1 x sk m with
  | none =>
    simp only
    refine .tbl h fun hl => ?_
    by_cases e : k' = k
    · exact hk e hl (trigger_none hu).1 (trigger_none hu).2
    · exact hc e hl
  | some u =>
    simp only
    have h1 : J c v e i k s (if u ≥ 2 then sendUpdateResend c s1 k' else sendUpdate c s1 (u == 1) k') := by
      split
      · exact .resend h hc
      · exact .send h hc _
    split
    · exact h1.trans (.quiet fun hl => quiet_mrequest hl _)
    · exact h1

/-! ### consider_route -/

theorem considerRoute_cases (s : St) (k' : PKey) (b : NeighId) :
    (Tbl c s (considerRoute c s k' b) ∧ Frame s (considerRoute c s k' b)) ∨
    (∃ s1, Tbl c s s1 ∧ Only k' s s1 ∧ considerRoute c s k' b = sendUpdate c s1 true k') ∨
    (∃ s1 o r x, findInstalled s k' = some o ∧ findRoute s k' b = some r ∧ r.installed = false ∧ Tbl c s s1 ∧ Only k' s s1 ∧
      findRoute s1 k' b = some x ∧ x.installed = true ∧ x.content = r.content ∧ RSame s s1 ∧
      considerRoute c s k' b = sendTriggeredUpdate c s1 k' b o.skey (routeMetric o)) := by
  unfold considerRoute
  cases hr : findRoute s k' b with
  | none => left; exact ⟨.refl s, .refl s⟩
  | some r =>
    simp only
    cases hi : r.installed with
    | true => left; simp only [if_true]; exact ⟨.refl s, .refl s⟩
    | false =>
      cases hf : routeFeasible s r with
      | false => left; simp only [Bool.not_false, if_true, Bool.false_eq_true, if_false]; exact ⟨.refl s, .refl s⟩
      | true =>
        simp only [Bool.not_true, Bool.false_eq_true, if_false]
        by_cases hb : xrouteBlocks c s k' = true
        · rw [if_pos hb]; left; exact ⟨.refl s, .refl s⟩
        · rw [if_neg hb]
          have hfr := frame_shouldSwitch c s r (findInstalled s k')
          have hh := hard_shouldSwitch c s r (findInstalled s k')
          have hd : Tbl c s (shouldSwitch c s r (findInstalled s k')).2 := .frame hh hfr
          have hod := only_shouldSwitch c s k' r (findInstalled s k')
          by_cases hs : (shouldSwitch c s r (findInstalled s k')).1 = true
          · rw [if_pos hs]
            right
            generalize (shouldSwitch c s r (findInstalled s k')).2 = d at hfr hd hod
            obtain ⟨rd, hrd, ed⟩ := hfr.route hr
            have hfd : routeFeasible d rd = true := by rw [hfr.feasible ed]; exact hf
            have hid : rd.installed = false := by rw [core_installed ed]; exact hi
            cases ho : findInstalled s k' with
            | none =>
              left
              exact ⟨_, hd.trans (tbl_install hrd hid hfd), hod.trans (only_install ..), rfl⟩
            | some o =>
              obtain ⟨od, hod2, eo⟩ := hfr.installed ho
              unfold considerInstall
              simp only
              rw [show o.neigh = od.neigh from (core_neigh eo).symm]
              have ht := hd.trans (tbl_switch (c := c) hod2 hrd hfd)
              have hon := hod.trans (only_switch c d k' od.neigh b)
              have hcs := cons_switch (c := c) (findInstalled_findRoute hod2) hrd hfd
              obtain ⟨x, hx, ex⟩ := hcs.same.route hrd
              rw [hx]
              simp only
              cases hxi : x.installed with
              | true =>
                right
                exact ⟨_, o, r, x, rfl, rfl, hi, ht, hon, hx, hxi, ex.trans (content_of_core ed),
                  hfr.qsame.rsame.trans hcs.same, by simp⟩
              | false =>
                left
                exact ⟨_, ht, hon, by simp⟩
          · rw [if_neg hs]
            exact .inl ⟨hd, hfr⟩

theorem content_id {r r' : Route} (h : r'.content = r.content) : r'.id = r.id := by rw [content_eq h]
theorem content_key {r r' : Route} (h : r'.content = r.content) : r'.key = r.key := by rw [content_eq h]
theorem content_neigh {r r' : Route} (h : r'.content = r.content) : r'.neigh = r.neigh := by rw [content_eq h]

/-- The origin of `k` is given by its selected route. -/
theorem origin_some {s : St} (hl : LInv c s.routes) {x : Route} (h : findInstalled s k = some x) :
    origin s k = if routeMetric x < INFINITY then some x.id else none := by
  rw [origin_eq hl, h]; rfl

theorem origin_none {s : St} (hl : LInv c s.routes) (h : findInstalled s k = none) : origin s k = none := by
  rw [origin_eq hl, h]; rfl

theorem installed_of_find {s : St} (hl : LInv c s.routes) {k' : PKey} {n : NeighId} {x : Route} (h : findRoute s k' n = some x)
    (hi : x.installed = true) : findInstalled s k' = some x := by
  obtain ⟨h1, h2, h3⟩ := findRoute_mem h
  exact (findInstalled_iff hl).2 ⟨h1, h2, hi⟩

theorem cls_of {s s1 : St} (hl : LInv c s.routes) (hl1 : LInv c s1.routes) {o x : Route} (ho : findInstalled s k = some o)
    (hx : findInstalled s1 k = some x) (hid : v x.id = v o.id) (hm : routeMetric o < INFINITY → routeMetric x < INFINITY) :
    Cls v k s s1 := by
  intro a ha
  rw [origin_some hl ho] at ha
  split at ha
  · next h =>
    cases ha
    exact ⟨x.id, by rw [origin_some hl1 hx, if_pos (hm h)], hid⟩
  · cases ha

theorem j_considerRoute (s : St) (k' : PKey) (b : NeighId) : J c v e i k s (considerRoute c s k' b) := by
  rcases considerRoute_cases (c := c) s k' b with ⟨h1, h2⟩ | ⟨s1, h1, h2, h3⟩ | ⟨s1, o, r, x, h1, h2, h3, h4, h5, h6, h7, h8, -, h9⟩
  · exact .tbl h1 fun _ => h2.cls
  · rw [h3]; exact .send h1 (fun hk _ => h2.cls hk) _
  · rw [h9]
    refine .trig h4 h6 h7 (fun hk _ => h5.cls hk) ?_
    intro hk hl hsk hm
    subst hk
    exact cls_of hl (h4.linv hl) h1 (installed_of_find (h4.linv hl) h6 h7) (congrArg v (congrArg SKey.id hsk)) hm

/-! ### route_lost -/

theorem quiet_announceLost {s : St} (hl : LInv c s.routes) (sk : SKey) (m : Nat) : Quiet c s (announceLost c s sk m) := by
  unfold announceLost
  split
  · simp only
    have h := (quiet_sendUpdateResend hl sk.key).1
    split
    · split
      · exact h
      · exact h.trans (quiet_requestResend (h.linv hl) ..)
    · exact h
  · exact .refl s

theorem j_announceLost {s s1 : St} (h : Tbl c s s1) (sk : SKey) (m : Nat) (hc : sk.key ≠ k → LInv c s.routes → Cls v k s s1)
    (hm : LInv c s.routes → INFINITY ≤ m → Cls v k s s1) : J c v e i k s (announceLost c s1 sk m) := by
  unfold announceLost
  split
  · simp only
    have h1 : J c v e i k s (sendUpdateResend c s1 sk.key) := .resend h hc
    split
    · split
      · exact h1
      · exact h1.trans (.quiet fun hl => quiet_requestResend hl ..)
    · exact h1
  · next hn => exact .tbl h fun hl => hm hl (by omega)

/-- The generic case. -/
theorem j_routeLost (s : St) (sk : SKey) (m : Nat) : J c v e i k s (routeLost c s sk m) := by
  unfold routeLost
  split
  · next hb => exact (J.quiet fun _ => quiet_findBest hb).trans (.quiet fun hl => quiet_announceLost hl ..)
  · next n s1 hb =>
    have h1 : J c v e i k s s1 := J.quiet fun _ => quiet_findBest hb
    split
    · exact h1
    · split
      · exact h1.trans (j_considerRoute _ _ _)
      · exact h1.trans (.quiet fun hl => quiet_announceLost hl ..)

/-- After the selected route has been removed. -/
theorem j_routeLost_after {s s1 : St} (h : Tbl c s s1) (sk : SKey) (m : Nat) (hn : findInstalled s1 sk.key = none)
    (hc : sk.key ≠ k → LInv c s.routes → Cls v k s s1) (hm : LInv c s.routes → INFINITY ≤ m → Cls v k s s1) :
    J c v e i k s (routeLost c s1 sk m) := by
  intro he
  have hl := he.linv
  revert he
  show J c v e i k s (routeLost c s1 sk m)
  unfold routeLost
  split
  · next s2 hb =>
    have h2 := h.trans (tbl_findBest hb)
    have hf := findBest_frame hb
    exact j_announceLost h2 sk m (fun hk hl => (hc hk hl).trans hf.cls) (fun hl hi => (hm hl hi).trans hf.cls)
  · next n s2 hb =>
    have h2 := h.trans (tbl_findBest hb)
    have hf := findBest_frame hb
    obtain ⟨r, hr, hexp, hfe, -⟩ := acceptable_spec (findBest_acceptable hb)
    have hfe := hfe rfl
    rw [hr]
    simp only
    rw [if_pos hfe]
    by_cases hk : sk.key = k
    · intro he
      have hx : xrouteBlocks c s2 sk.key = false := by
        have : findXroute s2 sk.key = none := by
          have := (h2.env he).own
          rw [hk]; exact this
        unfold xrouteBlocks
        rw [this]
      have hn2 := hf.installed_none hn
      have hi : r.installed = false := by
        cases hri : r.installed with
        | false => rfl
        | true =>
          have := installed_of_find (h2.linv hl) hr hri
          rw [hn2] at this; cases this
      have e : considerRoute c s2 sk.key n = sendUpdate c (installRoute c s2 sk.key n) true sk.key := by
        unfold considerRoute
        rw [hr]
        simp only [hi, hfe, hx, hn2]
        rfl
      rw [e]
      exact J.send (h2.trans (tbl_install hr hi hfe)) (fun hne => absurd hk hne) true he
    · exact (J.tbl h2 (fun hl => (hc hk hl).trans hf.cls)).trans (j_considerRoute _ _ _)

/-! ### flush_route -/

theorem mod1_unlink_cls {s : St} {k' : PKey} {n : NeighId} {r : Route} (hl : LInv c s.routes) (hr : findRoute s k' n = some r)
    (hi : r.installed = false) : Cls v k s (unlinkRoute s k' n) := by
  cases ho : findInstalled s k with
  | none => intro a ha; rw [origin_none hl ho] at ha; cases ha
  | some o =>
    obtain ⟨hm, hk, hoi⟩ := findInstalled_mem ho
    have hne : ¬ (o.key = k' ∧ o.neigh = n) := by
      rintro ⟨h1, h2⟩
      have := findRoute_of_mem hl hm
      rw [h1, h2, hr] at this
      cases this
      rw [hoi] at hi; cases hi
    have hl1 := (tbl_unlink (c := c) s k' n).linv hl
    have : findInstalled (unlinkRoute s k' n) k = some o := by
      refine (findInstalled_iff hl1).2 ⟨?_, hk, hoi⟩
      show o ∈ flatRemove s.routes k' n
      unfold flatRemove
      refine List.mem_filter.2 ⟨hm, ?_⟩
      simp only [Bool.not_eq_true', Bool.and_eq_false_iff, beq_eq_false_iff_ne]
      by_cases h1 : o.key = k'
      · exact .inr fun h2 => hne ⟨h1, h2⟩
      · exact .inl h1
    exact cls_of hl hl1 ho this rfl id

theorem j_flushRoute (s : St) (k' : PKey) (n : NeighId) : J c v e i k s (flushRoute c s k' n) := by
  intro he
  have hl := he.linv
  revert he
  show J c v e i k s (flushRoute c s k' n)
  unfold flushRoute
  cases hr : findRoute s k' n with
  | none => exact .refl s
  | some r =>
    obtain ⟨hrm, hrk, hrn⟩ := findRoute_mem hr
    simp only
    refine J.trans ?_ (.tbl (tbl_sources ..) fun _ a ha => ⟨a, ha, rfl⟩)
    cases hi : r.installed with
    | false =>
      simp only [Bool.false_eq_true, if_false]
      refine .tbl ((tbl_notify ..).trans (tbl_unlink ..)) fun hl => ?_
      have h1 : Cls v k s (notifyRoute s .flush k' n) := by
        intro a ha
        exact ⟨a, (origin_of_core (selectedRoute_core (by rw [notifyRoute_routes]) k)).trans ha, rfl⟩
      refine h1.trans (mod1_unlink_cls (c := c) ((tbl_notify ..).linv hl) (r := r) ?_ hi)
      unfold findRoute; rw [notifyRoute_routes]; exact hr
    | true =>
      simp only [if_true]
      have ht : Tbl c s (unlinkRoute (notifyRoute (uninstallRoute c s k' n) .flush k' n) k' n) :=
        ((tbl_uninstall ..).trans (tbl_notify ..)).trans (tbl_unlink ..)
      have hins := installed_of_find hl hr hi
      have hnone : findInstalled (uninstallRoute c s k' n) k' = none := (mod1_uninstall hl k' n).removed hl hins hrn
      have hsk : r.skey.key = k' := hrk
      refine j_routeLost_after ht r.skey (routeMetric r) ?_ ?_ ?_
      · rw [hsk]
        have hl3 := ht.linv hl
        cases hx : findInstalled (unlinkRoute (notifyRoute (uninstallRoute c s k' n) .flush k' n) k' n) k' with
        | none => rfl
        | some x =>
          exfalso
          obtain ⟨h1, h2, h3⟩ := findInstalled_mem hx
          have h1 : x ∈ flatRemove (notifyRoute (uninstallRoute c s k' n) .flush k' n).routes k' n := h1
          rw [notifyRoute_routes] at h1
          have := noneInstalled_of_find ((tbl_uninstall s k' n).linv hl) hnone x (List.mem_filter.1 h1).1 h2
          rw [h3] at this; cases this
      · intro hk _
        rw [hsk] at hk
        have h1 : Only k' s (notifyRoute (uninstallRoute c s k' n) .flush k' n) := (only_uninstall ..).trans (only_notify ..)
        have h2 : Only k' (notifyRoute (uninstallRoute c s k' n) .flush k' n)
            (unlinkRoute (notifyRoute (uninstallRoute c s k' n) .flush k' n) k' n) := by
          refine .routes (hard_routes ..) rfl rfl fun k2 e2 => ?_
          congr 1
          show (flatRemove _ k' n).filter _ = _
          unfold flatRemove
          rw [List.filter_filter]
          apply List.filter_congr
          intro y _
          by_cases hy : y.key = k2
          · simp [hy, e2]
          · simp [hy]
        exact (h1.trans h2).cls hk
      · intro _ hm a ha
        by_cases hk : k' = k
        · subst hk
          rw [origin_some hl hins, if_neg (by omega)] at ha
          cases ha
        · have h1 : Only k' s (notifyRoute (uninstallRoute c s k' n) .flush k' n) := (only_uninstall ..).trans (only_notify ..)
          have h2 : Only k' (notifyRoute (uninstallRoute c s k' n) .flush k' n)
              (unlinkRoute (notifyRoute (uninstallRoute c s k' n) .flush k' n) k' n) := by
            refine .routes (hard_routes ..) rfl rfl fun k2 e2 => ?_
            congr 1
            show (flatRemove _ k' n).filter _ = _
            unfold flatRemove
            rw [List.filter_filter]
            apply List.filter_congr
            intro y _
            by_cases hy : y.key = k2
            · simp [hy, e2]
            · simp [hy]
          exact (h1.trans h2).cls hk a ha

end Babel
