import Verif.Lemmas.Lost2
import Verif.Lemmas.Store
/-
What the neighbours have been told about a destination that cannot be reached any more: route changes and updates.
-/
set_option linter.unusedSimpArgs false
set_option linter.unusedVariables false
set_option linter.unusedSectionVars false
namespace Babel
open Spec

variable {c : Cfg} {v : Bytes → Bytes} {e : Prop} {i : IfId} {k : PKey}

/-- The one case in which a change of originator is not announced: the selected route has taken the originator
of a better route, to which the daemon then switches. -/
def Bad (c : Cfg) (v : Bytes → Bytes) (k k' : PKey) (n : NeighId) (r0 : Route) (id' : Bytes) (s' : St) : Prop :=
  LInv c s'.routes ∧ k' = k ∧ v id' ≠ v r0.id ∧ r0.installed = true ∧ ∃ x, findInstalled s' k = some x ∧ x.neigh ≠ n ∧ x.id = id'

theorem Bad.core {v : Bytes → Bytes} {k k' : PKey} {n : NeighId} {r0 : Route} {id' : Bytes} {s s' : St}
    (h : Bad c v k k' n r0 id' s) (hl : LInv c s'.routes)
    (hs : (findInstalled s' k).map Route.core = (findInstalled s k).map Route.core) :
    Bad c v k k' n r0 id' s' := by
  obtain ⟨-, h1, h2, h3, x, h4, h5, h6⟩ := h
  rw [h4] at hs
  obtain ⟨y, hy, ey⟩ := map_core_some hs
  exact ⟨hl, h1, h2, h3, y, hy, by rw [core_neigh ey]; exact h5, by rw [core_id ey]; exact h6⟩

theorem Quiet.installed_core {s s' : St} (h : Quiet c s s') (hl : LInv c s.routes) (k : PKey) :
    (findInstalled s' k).map Route.core = (findInstalled s k).map Route.core := by
  rw [selected_eq hl, selected_eq (h.linv hl)]
  exact selectedRoute_core h.ann.routes k

theorem trig_tail {s0 s2 : St} (h : J c v e i k s0 s2) (k' : PKey) (n : NeighId) (sk : SKey) (m : Nat) :
    J c v e i k s0 (match findRoute s2 k' n with
      | none => s2
      | some r => if r.installed then sendTriggeredUpdate c s2 k' n sk m else considerRoute c s2 k' n) := by
  split
  · exact h
  · split
    · exact h.trans (.quiet fun hl => quiet_trig hl ..)
    · exact h.trans (j_considerRoute _ _ _)

theorem routeChanged_eq (s : St) (k' : PKey) (n : NeighId) (sk : SKey) (m : Nat) :
    routeChanged c s k' n sk m = match findRoute (routeChangedBetter c s k' n) k' n with
      | none => routeChangedBetter c s k' n
      | some r => if r.installed then sendTriggeredUpdate c (routeChangedBetter c s k' n) k' n sk m
          else considerRoute c (routeChangedBetter c s k' n) k' n := rfl

theorem j_routeChanged {s0 s : St} {k' : PKey} {n : NeighId} {g : Bytes → Bytes} {r0 : Route} (hl : LInv c s0.routes)
    (ht : Tbl c s0 s) (ho : Only k' s0 s) (hm : Mod1 k' n false g s0 s) (h0 : findRoute s0 k' n = some r0) :
    J c v e i k s0 (routeChanged c s k' n r0.skey (routeMetric r0)) ∨
    Bad c v k k' n r0 (g r0.id) (routeChanged c s k' n r0.skey (routeMetric r0)) := by
  have hl1 := ht.linv hl
  obtain ⟨h0m, h0k, h0n⟩ := findRoute_mem h0
  obtain ⟨x1, hx1m, hx1k, hx1n, hx1⟩ := hm.fwd r0 h0m
  rw [if_pos ⟨h0k, h0n⟩] at hx1
  obtain ⟨hx1i, hx1id⟩ := hx1
  simp only [Bool.not_false, Bool.and_true] at hx1i
  have hx1f : findRoute s k' n = some x1 := by
    have := findRoute_of_mem hl1 hx1m
    rw [hx1k, hx1n, h0k, h0n] at this
    exact this
  rw [routeChanged_eq]
  cases hi : r0.installed with
  | false =>
    left
    rw [hi] at hx1i
    have hb : routeChangedBetter c s k' n = s := by
      unfold routeChangedBetter
      rw [hx1f]
      simp [hx1i]
    rw [hb]
    refine trig_tail (.tbl ht fun _ => ?_) _ _ _ _
    by_cases hk : k' = k
    · subst hk
      cases hs : findInstalled s0 k' with
      | none => intro a ha; rw [origin_none hl hs] at ha; cases ha
      | some o =>
        have hne : o.neigh ≠ n := by
          intro hn
          have := findInstalled_findRoute hs
          rw [hn, h0] at this
          cases this
          rw [(findInstalled_mem hs).2.2] at hi
          cases hi
        obtain ⟨y, hy, -, -, hyc⟩ := hm.installed hl hl1 hs
        have hyc := hyc hne
        exact cls_of hl hl1 hs hy (by rw [core_id hyc]) (by rw [core_metric hyc]; exact id)
    · exact ho.cls hk
  | true =>
    rw [hi] at hx1i
    have hins0 := installed_of_find hl h0 hi
    -- when nothing else happens
    have plain : ∀ s2, Frame s s2 → Tbl c s s2 → J c v e i k s0 (match findRoute s2 k' n with
        | none => s2
        | some r => if r.installed then sendTriggeredUpdate c s2 k' n r0.skey (routeMetric r0) else considerRoute c s2 k' n) := by
      intro s2 hf ht2
      obtain ⟨x2, hx2, ex2⟩ := hf.route hx1f
      rw [hx2]
      simp only
      have hx2i : x2.installed = true := by rw [core_installed ex2]; exact hx1i
      rw [if_pos hx2i]
      refine .trig (ht.trans ht2) hx2 hx2i (fun hk _ => (ho.cls hk).trans hf.cls) ?_
      intro hk _ hsk hmt
      subst hk
      exact cls_of hl ((ht.trans ht2).linv hl) hins0 (installed_of_find ((ht.trans ht2).linv hl) hx2 hx2i)
        (congrArg v (congrArg SKey.id hsk)) hmt
    have hbet : routeChangedBetter c s k' n = match findBest c s k' true none with
        | (none, s1) => s1
        | (some b, s1) => match findRoute s1 k' b with
          | none => s1
          | some rb => if routeMetric rb < routeMetric x1 then considerRoute c s1 k' b else s1 := by
      unfold routeChangedBetter
      rw [hx1f]
      simp only [hx1i, if_true]
      rfl
    rw [hbet]
    generalize hfb : findBest c s k' true none = p
    obtain ⟨b?, s1⟩ := p
    have hf1 := findBest_frame hfb
    have ht1 : Tbl c s s1 := tbl_findBest hfb
    cases b? with
    | none => exact .inl (plain s1 hf1 ht1)
    | some b =>
      simp only
      cases hrb : findRoute s1 k' b with
      | none => exact .inl (plain s1 hf1 ht1)
      | some rb =>
        simp only
        by_cases hlt : routeMetric rb < routeMetric x1
        · rw [if_pos hlt]
          have hrbfin : routeMetric rb < INFINITY := Nat.lt_of_lt_of_le hlt (by unfold routeMetric; omega)
          rcases considerRoute_cases (c := c) s1 k' b with ⟨h1, h2⟩ | ⟨s2, h1, h2, h3⟩ |
            ⟨s2, o, r, x, h1, h2, h3, h4, h5, h6, h7, h8, hrs, h9⟩
          · exact .inl (plain _ (hf1.trans h2) (ht1.trans h1))
          · left
            rw [h3]
            refine trig_tail (.send ((ht.trans ht1).trans h1) (fun hk _ => ?_) true) _ _ _ _
            exact ((ho.cls hk).trans hf1.cls).trans (h2.cls hk)
          · rw [hrb] at h2
            cases h2
            obtain ⟨x2, hx2, ex2⟩ := hf1.route hx1f
            have hx2i : x2.installed = true := by rw [core_installed ex2]; exact hx1i
            have htt := (ht.trans ht1).trans h4
            have hl2 := htt.linv hl
            have hox : o = x2 := by
              have := installed_of_find ((ht.trans ht1).linv hl) hx2 hx2i
              rw [h1] at this
              cases this; rfl
            subst hox
            have hxins := installed_of_find hl2 h6 h7
            have hbn : b ≠ n := by
              intro hbn
              rw [hbn, hx2] at hrb
              cases hrb
              rw [hx2i] at h3; cases h3
            by_cases hgood : k' = k ∧ x.skey = o.skey ∧ v (g r0.id) ≠ v r0.id
            · right
              obtain ⟨hk, hsk, hv⟩ := hgood
              subst hk
              have hxid : x.id = g r0.id := by
                have := congrArg SKey.id hsk
                rw [show x.id = o.id from this, core_id ex2, hx1id]
              rw [h9]
              have hq := quiet_trig (c := c) hl2 k' b o.skey (routeMetric o)
              generalize sendTriggeredUpdate c s2 k' b o.skey (routeMetric o) = s3 at hq
              have hl3 := hq.linv hl2
              have hbad3 : Bad c v k' k' n r0 (g r0.id) s3 := by
                refine Bad.core ⟨hl2, rfl, hv, hi, x, hxins, ?_, hxid⟩ hl3 (hq.installed_core hl2 k')
                rw [(findRoute_mem h6).2.2]; exact hbn
              -- the route through n
              obtain ⟨z, hz, ez⟩ := hrs.route hx2
              have hz3 : ∃ z3, findRoute s3 k' n = some z3 ∧ z3.core = z.core := by
                obtain ⟨hzm, hzk, hzn⟩ := findRoute_mem hz
                obtain ⟨z3, hz3, e3⟩ := mem_core hq.ann.routes.symm hzm
                refine ⟨z3, ?_, e3.symm⟩
                have := findRoute_of_mem hl3 hz3
                rw [← core_key e3, ← core_neigh e3, hzk, hzn] at this
                exact this
              obtain ⟨z3, hz3, e3⟩ := hz3
              obtain ⟨-, -, -, -, y, hy, hyn, hyid⟩ := id hbad3
              have hyc : y.core = x.core := by
                have := hq.installed_core hl2 k'
                rw [hy, hxins] at this
                simpa using this
              have hz3i : z3.installed = false := by
                cases hzi : z3.installed with
                | false => rfl
                | true =>
                  have := installed_of_find hl3 hz3 hzi
                  rw [hy] at this
                  cases this
                  exact absurd (findRoute_mem hz3).2.2 hyn
              rw [hz3]
              simp only
              rw [if_neg (by simp [hz3i])]
              have hmet : routeMetric y < routeMetric z3 := by
                rw [core_metric hyc, content_metric h8, core_metric e3, content_metric ez, core_metric ex2]
                exact hlt
              have hyfin : routeMetric y < INFINITY := by
                rw [core_metric hyc, content_metric h8]; exact hrbfin
              rw [considerRoute_worse hz3 hy hmet]
              exact hbad3
            · left
              rw [h9]
              refine trig_tail (.trig htt h6 h7 (fun hk _ => ((ho.cls hk).trans hf1.cls).trans (h5.cls hk)) ?_) _ _ _ _
              intro hk _ hsk _
              subst hk
              have hv : v (g r0.id) = v r0.id := Classical.not_not.1 fun hv => hgood ⟨rfl, hsk, hv⟩
              refine cls_of hl hl2 hins0 hxins ?_ (fun _ => by rw [content_metric h8]; exact hrbfin)
              have := congrArg SKey.id hsk
              rw [show x.id = o.id from this, core_id ex2, hx1id, hv]
        · rw [if_neg hlt]
          exact .inl (plain s1 hf1 ht1)

/-- Changes that keep the originator. -/
theorem j_routeChanged' {s0 s : St} {k' : PKey} {n : NeighId} {r0 : Route} (ht : Tbl c s0 s) (ho : Only k' s0 s)
    (hm : Mod1 k' n false id s0 s) (h0 : findRoute s0 k' n = some r0) :
    J c v e i k s0 (routeChanged c s k' n r0.skey (routeMetric r0)) := by
  intro he
  rcases j_routeChanged (v := v) (e := e) (i := i) (k := k) he.linv ht ho hm h0 with h | h
  · exact h he
  · exact absurd rfl h.2.2.1

/-- Changes that keep the originator and do not lose a usable route. -/
theorem mod1_cls {s0 s : St} {k' : PKey} {n : NeighId} {r0 : Route} (hl : LInv c s0.routes) (ht : Tbl c s0 s)
    (ho : Only k' s0 s) (hm : Mod1 k' n false id s0 s) (h0 : findRoute s0 k' n = some r0)
    (hmt : routeMetric r0 < INFINITY → ∀ x, findRoute s k' n = some x → routeMetric x < INFINITY) : Cls v k s0 s := by
  by_cases hk : k' = k
  · subst hk
    have hl1 := ht.linv hl
    cases hs : findInstalled s0 k' with
    | none => intro a ha; rw [origin_none hl hs] at ha; cases ha
    | some o =>
      obtain ⟨y, hy, hyn, hyid, hyc⟩ := hm.installed hl hl1 hs
      by_cases hn : o.neigh = n
      · have : o = r0 := by
          have := findInstalled_findRoute hs
          rw [hn, h0] at this
          cases this; rfl
        subst this
        refine cls_of hl hl1 hs hy (congrArg v (hyid hn)) (fun h => hmt h y ?_)
        have := findInstalled_findRoute hy
        rw [hyn, hn] at this
        exact this
      · have hyc := hyc hn
        exact cls_of hl hl1 hs hy (by rw [core_id hyc]) (by rw [core_metric hyc]; exact id)
  · exact ho.cls hk

theorem routeMetric_le_inf (r : Route) : routeMetric r ≤ INFINITY := by unfold routeMetric; omega

theorem j_retractOne (s : St) (k' : PKey) (n : NeighId) : J c v e i k s (retractOne c s k' n) := by
  unfold retractOne
  cases hr : findRoute s k' n with
  | none => exact .refl s
  | some r =>
    simp only
    split
    · unfold retractRoute
      split
      · exact j_routeChanged' (tbl_metric ..) (only_metric ..) (mod1_metric ..) hr
      · next hm =>
        have hm : routeMetric r = INFINITY := Classical.not_not.1 hm
        exact .tbl (tbl_metric ..) fun hl => mod1_cls hl (tbl_metric ..) (only_metric ..) (mod1_metric ..) hr
          (fun h => by omega)
    · exact .refl s

theorem frame_mod1 {s s' : St} (h : Frame s s') (k' : PKey) (n : NeighId) : Mod1 k' n false id s s' := .core h.routes

theorem j_updateRouteMetric (s : St) (k' : PKey) (n : NeighId) : J c v e i k s (updateRouteMetric c s k' n) := by
  unfold updateRouteMetric
  cases hr : findRoute s k' n with
  | none => exact .refl s
  | some r =>
    simp only
    have hs1 : Tbl c s (smoothRoute c s k' n).2 := .frame (hard_smooth ..) (frame_smooth ..)
    have ho1 : Only k' s (smoothRoute c s k' n).2 := only_smooth ..
    have hm1 := frame_mod1 (frame_smooth c s k' n) k' n
    split
    · split
      · have hs2 := fun q : UInt16 => hs1.trans (tbl_modRoute (c := c) (smoothRoute c s k' n).2 k' n (f := fun r => { r with seqno := q })
          (fun _ => ⟨rfl, rfl⟩) (fun _ => rfl) (fun _ h => h))
        have ho2 := fun q : UInt16 => ho1.trans (only_modRoute (smoothRoute c s k' n).2 k' n (f := fun r => { r with seqno := q })
          (fun _ => ⟨rfl, rfl⟩))
        have hm2 := fun q : UInt16 => hm1.trans (mod1_modRoute (smoothRoute c s k' n).2 k' n (f := fun r => { r with seqno := q })
          (g := id) (fun _ => ⟨rfl, rfl⟩) (fun _ => rfl) (fun _ => rfl))
        have hs3 := fun q : UInt16 => (hs2 q).trans (tbl_metric _ k' n INFINITY INFINITY 0)
        have ho3 := fun q : UInt16 => (ho2 q).trans (only_metric c _ k' n INFINITY INFINITY 0)
        have hm3 := fun q : UInt16 => (hm2 q).trans (mod1_metric (c := c) _ k' n INFINITY INFINITY 0)
        unfold retractRoute
        split
        · exact j_routeChanged' (hs3 _) (ho3 _) (hm3 _) hr
        · exact .tbl (hs3 _) fun hl => mod1_cls hl (hs3 _) (ho3 _) (hm3 _) hr (fun h => by omega)
      · exact .tbl hs1 fun _ => (frame_smooth ..).cls
    · have hs2 := hs1.trans (tbl_metric _ k' n r.refmetric ((smoothRoute c s k' n).2.ncost n)
        (c.inputFilter (some r.id) k' (some n) (c.ifOf n)))
      have ho2 := ho1.trans (only_metric c _ k' n r.refmetric ((smoothRoute c s k' n).2.ncost n)
        (c.inputFilter (some r.id) k' (some n) (c.ifOf n)))
      have hm2 := hm1.trans (mod1_metric (c := c) _ k' n r.refmetric ((smoothRoute c s k' n).2.ncost n)
        (c.inputFilter (some r.id) k' (some n) (c.ifOf n)))
      generalize changeRouteMetric c (smoothRoute c s k' n).2 k' n r.refmetric ((smoothRoute c s k' n).2.ncost n)
        (c.inputFilter (some r.id) k' (some n) (c.ifOf n)) = s2 at hs2 ho2 hm2
      cases hr2 : findRoute s2 k' n with
      | none => exact .tbl hs2 fun hl => mod1_cls hl hs2 ho2 hm2 hr (fun _ x hx => by rw [hr2] at hx; cases hx)
      | some r2 =>
        simp only
        split
        · exact j_routeChanged' hs2 ho2 hm2 hr
        · next hm =>
          have hm : routeMetric r2 = routeMetric r := Classical.not_not.1 hm
          have hs3 := hs2.trans (.frame (hard_smooth c s2 k' n) (frame_smooth c s2 k' n))
          have ho3 := ho2.trans (only_smooth c s2 k' k' n)
          have hm3 := hm2.trans (frame_mod1 (frame_smooth c s2 k' n) k' n)
          split
          · exact j_routeChanged' hs3 ho3 hm3 hr
          · refine .tbl hs3 fun hl => mod1_cls hl hs3 ho3 hm3 hr fun h x hx => ?_
            obtain ⟨y, hy, ey⟩ := (frame_smooth c s2 k' n).route_inv hx
            rw [hr2] at hy
            cases hy
            rw [core_metric ey, hm]
            exact h

theorem quiet_unfeasible {s : St} (hl : LInv c s.routes) (n : NeighId) (f : Bool) (q : UInt16) (m : Nat) (sk : SKey) :
    Quiet c s (sendUnfeasibleRequest c s n f q m sk) := by
  unfold sendUnfeasibleRequest
  split
  · exact .refl s
  · split
    · exact .refl s
    · generalize (f || _) = b
      cases b with
      | true => exact quiet_umh hl ..
      | false => exact .refl s

theorem j_release (s : St) (sk : SKey) : J c v e i k s (releaseSource s sk) :=
  .tbl (tbl_sources ..) fun _ a ha => ⟨a, ha, rfl⟩

theorem updateExisting_eq (s : St) (r : Route) (id' : Bytes) (q : UInt16) (refm add hold : Nat) :
    updateExisting c s r id' q refm add hold =
      (let feasible := updateFeasible s (findSource s ⟨id', r.key⟩) q refm
       let lost0 := !feasible && r.installed && id' != r.id
       let s6 := routeChanged c (applyUpdate c s r.key r.neigh id' q refm add hold lost0) r.key r.neigh r.skey (routeMetric r)
       releaseSource (if lost0 || (r.installed && (findInstalled s6 r.key).isNone) then routeLost c s6 r.skey (routeMetric r)
        else if !feasible then
          sendUnfeasibleRequest c s6 r.neigh
            (match findRoute s6 r.key r.neigh with | some r => routeOld s6 r | none => false) q
            (min (refm + s.ncost r.neigh + add) INFINITY) ⟨id', r.key⟩
        else s6) r.skey) := rfl

theorem j_updateExisting {s : St} {r : Route} {id' : Bytes} (hl : LInv c s.routes) (hr : findRoute s r.key r.neigh = some r)
    (hid : id' ≠ c.myid) (q : UInt16) (refm add hold : Nat) :
    J c v e i k s (updateExisting c s r id' q refm add hold) ∨
    Bad c v k r.key r.neigh r id' (updateExisting c s r id' q refm add hold) := by
  rw [updateExisting_eq]
  simp only
  generalize hlost0 : (!updateFeasible s (findSource s ⟨id', r.key⟩) q refm && r.installed && id' != r.id) = u
  have ht := tbl_apply s r.key r.neigh hid q refm add hold u
  have ho := only_apply c s r.key r.neigh id' q refm add hold u
  have hm := mod1_apply (c := c) hl (k' := r.key) (n := r.neigh) id' q refm add hold u
  generalize applyUpdate c s r.key r.neigh id' q refm add hold u = s5 at ht ho hm
  cases u with
  | false =>
    rcases j_routeChanged (v := v) (e := e) (i := i) (k := k) hl ht ho hm hr with h | h
    · left
      refine J.trans ?_ (j_release _ _)
      split
      · exact h.trans (j_routeLost _ _ _)
      · split
        · exact h.trans (.quiet fun hl => quiet_unfeasible hl ..)
        · exact h
    · right
      generalize routeChanged c s5 r.key r.neigh r.skey (routeMetric r) = s6 at h
      obtain ⟨hl6, hk, hv, hri, x, hx, hxn, hxid⟩ := id h
      have hsome : (findInstalled s6 r.key).isNone = false := by rw [hk, hx]; rfl
      rw [hsome]
      simp only [Bool.and_false, Bool.or_false, Bool.false_eq_true, if_false]
      have key : ∀ t, Quiet c s6 t → Bad c v k r.key r.neigh r id' (releaseSource t r.skey) :=
        fun t ht => Bad.core h (ht.linv hl6) (ht.installed_core hl6 k)
      split
      · exact key _ (quiet_unfeasible hl6 ..)
      · exact key _ (.refl s6)
  | true =>
    left
    refine J.trans ?_ (j_release _ _)
    simp only [Bool.true_or, if_true]
    have hri : r.installed = true := by
      cases hri : r.installed with
      | true => rfl
      | false => rw [hri] at hlost0; simp at hlost0
    have hins := installed_of_find hl hr hri
    have hnone := hm.removed hl hins rfl
    obtain ⟨x, hxm, hxk, hxn, hx⟩ := hm.fwd r (findRoute_mem hr).1
    rw [if_pos ⟨rfl, rfl⟩] at hx
    have hxi : x.installed = false := by rw [hx.1]; simp
    have hxf : findRoute s5 r.key r.neigh = some x := by
      have := findRoute_of_mem (ht.linv hl) hxm
      rw [hxk, hxn] at this
      exact this
    have hrc : routeChanged c s5 r.key r.neigh r.skey (routeMetric r) = considerRoute c s5 r.key r.neigh := by
      have hb : routeChangedBetter c s5 r.key r.neigh = s5 := by
        unfold routeChangedBetter
        rw [hxf]
        simp [hxi]
      rw [routeChanged_eq, hb, hxf]
      simp [hxi]
    rw [hrc]
    rcases considerRoute_cases (c := c) s5 r.key r.neigh with ⟨h1, h2⟩ | ⟨s1, h1, h2, h3⟩ |
      ⟨s1, o, r', x', h1, -⟩
    · refine j_routeLost_after (ht.trans h1) r.skey (routeMetric r) (h2.installed_none hnone)
        (fun hk _ => (ho.cls hk).trans h2.cls) ?_
      intro _ hinf
      by_cases hk : r.key = k
      · intro a ha
        rw [← hk, origin_some hl hins, if_neg (by omega)] at ha
        cases ha
      · exact (ho.cls hk).trans h2.cls
    · rw [h3]
      exact (J.send (ht.trans h1) (fun hk _ => (ho.cls hk).trans (h2.cls hk)) true).trans (j_routeLost _ _ _)
    · rw [hnone] at h1; cases h1

end Babel
