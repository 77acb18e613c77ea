import Verif.Lemmas.Best
import Verif.Spec.Update
/-
The contents of the route table after an update.
-/
set_option linter.unusedSimpArgs false
set_option linter.unusedVariables false
set_option linter.unusedSectionVars false
namespace Babel
open Spec

theorem considerInstall_rsame {c : Cfg} {s : St} {k : PKey} {n : NeighId} {r : Route}
    (hr : findRoute s k n = some r) (hi : r.installed = false) (hf : routeFeasible s r = true)
    (o : Option Route) (ho : ∀ x, o = some x → ∃ y, findRoute s k x.neigh = some y) :
    RSame s (considerInstall c s k n o) := by
  unfold considerInstall
  split
  · exact (cons_install hr hi hf).same.trans (qms_sendUpdate ..).same.rsame
  · next x =>
    obtain ⟨y, hy⟩ := ho x rfl
    have h1 := (cons_switch (c := c) hy hr hf).same
    simp only
    split
    · exact h1
    · split
      · exact h1.trans (qms_sendTriggered ..).same.rsame
      · exact h1.trans (qms_sendUpdate ..).same.rsame

theorem considerRoute_rsame (c : Cfg) (s : St) (k : PKey) (n : NeighId) :
    RSame s (considerRoute c s k n) := by
  unfold considerRoute
  split
  · exact .refl _
  · next r hr =>
    split
    · exact .refl _
    · next hi =>
      split
      · exact .refl _
      · next hfe =>
        split
        · exact .refl _
        · simp only
          have hf := frame_shouldSwitch c s r (findInstalled s k)
          generalize shouldSwitch c s r (findInstalled s k) = d at hf
          split
          · obtain ⟨r1, hr1, e1⟩ := hf.route hr
            refine hf.qsame.rsame.trans (considerInstall_rsame hr1
              (by rw [core_installed e1]; simpa using hi)
              (by rw [hf.feasible e1]; simpa using hfe) _ ?_)
            intro x hx
            obtain ⟨y, hy, -⟩ := hf.route (findInstalled_findRoute hx)
            exact ⟨y, hy⟩
          · exact hf.qsame.rsame

theorem routeChangedBetter_rsame (c : Cfg) (s : St) (k : PKey) (n : NeighId) :
    RSame s (routeChangedBetter c s k n) := by
  unfold routeChangedBetter
  split
  · exact .refl _
  · next r hr =>
    split
    · split
      · next s1 hb => exact (findBest_frame hb).qsame.rsame
      · next b s1 hb =>
        have hf := (findBest_frame hb).qsame.rsame
        split
        · exact hf
        · split
          · exact hf.trans (considerRoute_rsame ..)
          · exact hf
    · exact .refl _

theorem routeChanged_rsame (c : Cfg) (s : St) (k : PKey) (n : NeighId) (os : SKey) (om : Nat) :
    RSame s (routeChanged c s k n os om) := by
  unfold routeChanged
  simp only
  have key := routeChangedBetter_rsame c s k n
  generalize routeChangedBetter c s k n = s1 at key
  split
  · exact key
  · split
    · exact key.trans (qms_sendTriggered ..).same.rsame
    · exact key.trans (considerRoute_rsame ..)

theorem routeLost_rsame (c : Cfg) (s : St) (sk : SKey) (om : Nat) : RSame s (routeLost c s sk om) := by
  unfold routeLost
  split
  · next s1 hb => exact (findBest_frame hb).qsame.rsame.trans (qms_announceLost ..).same.rsame
  · next n s1 hb =>
    have hf := (findBest_frame hb).qsame.rsame
    split
    · exact hf
    · split
      · exact hf.trans (considerRoute_rsame ..)
      · exact hf.trans (qms_announceLost ..).same.rsame

theorem release_rsame (s : St) (k : SKey) : RSame s (releaseSource s k) := rsame_of_routes rfl rfl

theorem updateExisting_rsame (c : Cfg) (s : St) (r : Route) (id : Bytes) (q : UInt16) (refm add hold : Nat) :
    RSame (applyUpdate c s r.key r.neigh id q refm add hold
        (!updateFeasible s (findSource s ⟨id, r.key⟩) q refm && r.installed && id != r.id))
      (updateExisting c s r id q refm add hold) := by
  unfold updateExisting
  simp only
  refine RSame.trans ?_ (release_rsame ..)
  refine RSame.trans (routeChanged_rsame c _ r.key r.neigh r.skey (routeMetric r)) ?_
  split
  · exact routeLost_rsame ..
  · split
    · exact (qms_sendUnfeasible ..).same.rsame
    · exact .refl _

theorem applyUpdate_stored {c : Cfg} {s : St} {r : Route} (id : Bytes) (q : UInt16)
    (refm add hold : Nat) (u : Bool) (h : findRoute s r.key r.neigh = some r) :
    ∃ r', findRoute (applyUpdate c s r.key r.neigh id q refm add hold u) r.key r.neigh = some r' ∧
      Stored r r' s.now.sec id q refm (s.ncost r.neigh) add hold := by
  unfold applyUpdate
  simp only
  have key : ∃ s2 b, (if u = true then uninstallRoute c s r.key r.neigh else s) = s2 ∧
      findRoute s2 r.key r.neigh = some { r with installed := b } ∧ (b = true → r.installed = true) := by
    cases u with
    | false => exact ⟨s, r.installed, rfl, h, fun h => h⟩
    | true =>
      obtain ⟨r', h1, -, -, h2⟩ := uninstall_find c s _ _ h
      exact ⟨_, false, rfl, by rw [if_pos rfl, h1, h2], by simp⟩
  obtain ⟨s2, b, e2, h2, hb⟩ := key
  rw [e2]
  let f3 : Route → Route := fun x =>
    { x with id := id, seqno := q, time := if refm < INFINITY then s.now.sec else x.time }
  have h3 : findRoute (modRoute (retainSource s2 ⟨id, r.key⟩) r.key r.neigh f3) r.key r.neigh =
      some (f3 { r with installed := b }) := by
    refine Eq.trans (findRoute_modRoute _ _ _ _ _ _ ?_) ?_
    · exact fun _ => ⟨rfl, rfl⟩
    have : findRoute (retainSource s2 ⟨id, r.key⟩) r.key r.neigh = some { r with installed := b } := h2
    simp [this]
  obtain ⟨r4, h4, h5⟩ := changeRouteMetric_find (c := c) refm (s.ncost r.neigh) add h3
  refine ⟨{ r4 with holdTime := hold }, ?_, ?_⟩
  · refine Eq.trans (findRoute_modRoute _ _ _ _ _ _ ?_) ?_
    · exact fun _ => ⟨rfl, rfl⟩
    simp only [true_and, if_true]
    show Option.map _ (findRoute (changeRouteMetric c (modRoute (retainSource s2 ⟨id, r.key⟩)
      r.key r.neigh f3) r.key r.neigh refm (s.ncost r.neigh) add) r.key r.neigh) = _
    rw [h4]; rfl
  · rcases h5 with ⟨hi, e⟩ | e
    · subst e
      exact ⟨rfl, rfl, rfl, rfl, rfl, rfl, rfl, .inr ⟨hb hi, rfl, rfl, rfl⟩⟩
    · rw [core_eq (r := setRc refm (s.ncost r.neigh) add (f3 { r with installed := b })) e]
      exact ⟨rfl, rfl, rfl, rfl, rfl, rfl, rfl, .inl ⟨rfl, rfl, rfl⟩⟩

/-- Other routes are not touched. -/
theorem applyUpdate_other {c : Cfg} {s : St} {k : PKey} {n : NeighId} (id : Bytes) (q : UInt16)
    (refm add hold : Nat) (u : Bool) {k' : PKey} {n' : NeighId} (hne : ¬ (k' = k ∧ n' = n)) :
    (findRoute (applyUpdate c s k n id q refm add hold u) k' n').map Route.content =
      (findRoute s k' n').map Route.content := by
  have hmod : ∀ (s : St) (f : Route → Route), KeepsId f → findRoute (modRoute s k n f) k' n' = findRoute s k' n' := by
    intro s f hf
    rw [findRoute_modRoute s k k' n n' f hf, if_neg hne]
  unfold applyUpdate
  simp only
  rw [hmod _ (fun r => { r with holdTime := hold }) (keepsId_of _ (fun _ => ⟨rfl, rfl⟩))]
  have h1 : ∀ (s : St) (a b d : Nat), (findRoute (changeRouteMetric c s k n a b d) k' n').map Route.content =
      (findRoute s k' n').map Route.content := by
    intro s a b d
    cases hr : findRoute s k n with
    | none => unfold changeRouteMetric; rw [hr]
    | some r =>
      rcases changeRouteMetric_routes (c := c) a b d hr with ⟨-, e⟩ | e
      · unfold findRoute; rw [e]
      · have h2 := find_core e (fun r => r.key == k' && r.neigh == n') (fun _ => rfl)
        have h3 : (flatModify s.routes k n (setRc a b d)).find? (fun r => r.key == k' && r.neigh == n') =
            findRoute s k' n' := by
          show flatFind _ k' n' = _
          rw [flatFind_modify _ _ _ _ _ _ (keepsId_setRc _ _ _), if_neg hne]; rfl
        rw [h3] at h2
        exact map_content_of_core h2
  rw [h1]
  have h2 := hmod (retainSource (if u = true then uninstallRoute c s k n else s) ⟨id, k⟩) (fun r => { r with
    id := id, seqno := q, time := if refm < INFINITY then s.now.sec else r.time }) (keepsId_of _ (fun _ => ⟨rfl, rfl⟩))
  rw [h2]
  show (findRoute (if u = true then uninstallRoute c s k n else s) k' n').map Route.content = _
  split
  · rcases uninstallRoute_routes c s k n with ⟨e, -⟩ | e
    · unfold findRoute; rw [e]
    · have : findRoute (uninstallRoute c s k n) k' n' = findRoute s k' n' := by
        unfold findRoute
        rw [e, flatFind_modify _ _ _ _ _ _ (keepsId_installed false), if_neg hne]
      rw [this]
  · rfl

theorem updateNew_find (c : Cfg) (s : St) (k : PKey) (n : NeighId) (id : Bytes) (q : UInt16)
    (refm add hold : Nat) (nh : Bytes) (hr : findRoute s k n = none) (k' : PKey) (n' : NeighId) :
    (findRoute (updateNew c s k n id q refm add hold (some nh)) k' n').map Route.content =
      if k' = k ∧ n' = n then some (newRoute s k n id q refm add hold nh).content
      else (findRoute s k' n').map Route.content := by
  unfold updateNew
  simp only
  have key : ∃ s1, (if (!updateFeasible s (findSource s ⟨id, k⟩) q refm) = true then
      sendUnfeasibleRequest c s n false q (min (refm + s.ncost n + add) INFINITY) ⟨id, k⟩ else s) =
      s1 ∧ QMs c s s1 := by
    refine ⟨_, rfl, ?_⟩
    split
    · exact qms_sendUnfeasible ..
    · exact .refl s
  obtain ⟨s1, e1, h1⟩ := key
  rw [e1]
  have hs := h1.same
  have hr1 : findRoute s1 k n = none := by
    have := hs.findRoute k n
    rw [hr] at this
    cases e : findRoute s1 k n with
    | none => rfl
    | some x => rw [e] at this; simp at this
  rw [(considerRoute_rsame ..).find, notify_find]
  show (flatFind (flatInsert s1.routes (newRoute s1 k n id q refm add hold nh)) k' n').map Route.content = _
  rw [flatFind_insert (r := newRoute s1 k n id q refm add hold nh) hr1]
  have e : newRoute s1 k n id q refm add hold nh = newRoute s k n id q refm add hold nh := by
    unfold newRoute; rw [hs.now, hs.ncost]
  rw [e]
  show Option.map _ (if k' = k ∧ n' = n then _ else _) = _
  by_cases hc : k' = k ∧ n' = n
  · rw [if_pos hc, if_pos hc]; rfl
  · rw [if_neg hc, if_neg hc]
    exact map_content_of_core (hs.findRoute k' n')

theorem sameContent_of {r r' : Route} (h : r'.content = r.content) : SameContent r r' := by
  rw [content_eq h]
  exact ⟨⟨rfl, rfl, rfl, rfl, rfl, rfl⟩, rfl, rfl, rfl, rfl⟩

theorem refused_iff (c : Cfg) (id : Option Bytes) (k : PKey) (refm : Nat) (n : NeighId) :
    updateRefused c id k refm n = true ↔ Ignored c id k refm n := by
  unfold updateRefused Ignored
  cases id <;> simp [or_assoc]

end Babel
