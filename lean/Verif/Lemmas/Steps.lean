import Verif.Lemmas.Decomp
/-
Every event is a sequence of elementary transitions.
-/
set_option linter.unusedSimpArgs false
set_option linter.unusedVariables false
set_option linter.unusedSectionVars false
namespace Babel
open Spec

/-! ### update_route -/

theorem isSome_ensure (s : St) (k : SKey) (q : UInt16) :
    (findSource (ensureSource s k q) k).isSome = true := by
  unfold ensureSource
  split
  · next x h => rw [h]; rfl
  · next h =>
    unfold findSource at h ⊢
    simp [h]

theorem ensure_routes (s : St) (k : SKey) (q : UInt16) :
    (ensureSource s k q).routes = s.routes ∧ (ensureSource s k q).now = s.now ∧
    (ensureSource s k q).ncost = s.ncost := by
  unfold ensureSource
  split <;> exact ⟨rfl, rfl, rfl⟩

theorem hold_pos (i : Nat) : (0 : Int) ≤ (holdTimeOf i : Int) := by omega

theorem keepsId_of (f : Route → Route) (h : ∀ r, (f r).key = r.key ∧ (f r).neigh = r.neigh) :
    KeepsId f := h

/-- The route after `applyUpdate`. -/
theorem applyUpdate_find {c : Cfg} {s : St} {r : Route} (id : Bytes) (q : UInt16)
    (refm add hold : Nat) (u : Bool) (h : findRoute s r.key r.neigh = some r) :
    ∃ r', findRoute (applyUpdate c s r.key r.neigh id q refm add hold u) r.key r.neigh = some r' ∧
      (r'.installed = true ∨ (routeMetric r' < INFINITY → r'.time = s.now.sec ∧ r'.holdTime = hold)) ∧
      (applyUpdate c s r.key r.neigh id q refm add hold u).now = s.now := by
  unfold applyUpdate
  simp only
  have key : ∃ s2 r2, (if u = true then uninstallRoute c s r.key r.neigh else s) = s2 ∧
      findRoute s2 r.key r.neigh = some r2 ∧ s2.now = s.now := by
    cases u with
    | false => exact ⟨s, r, rfl, h, rfl⟩
    | true =>
      obtain ⟨r', h1, -⟩ := uninstall_find c s _ _ h
      refine ⟨_, r', rfl, h1, ?_⟩
      simp only [if_true]
      cases hi : r.installed with
      | false => rw [uninstallRoute_noop (by rw [h]; simp [hi])]
      | true =>
        rw [uninstallRoute_eq h hi]
        simp only
        split
        · rw [notifyRoute_now, (konly_changeFlush ..).now]; rfl
        · rw [(konly_changeFlush ..).now]; rfl
  obtain ⟨s2, r2, e2, h2, hn2⟩ := key
  rw [e2]
  let f3 : Route → Route := fun x =>
    { x with id := id, seqno := q, time := if refm < INFINITY then s.now.sec else x.time }
  have h3 : findRoute (modRoute (retainSource s2 ⟨id, r.key⟩) r.key r.neigh f3) r.key r.neigh =
      some (f3 r2) := by
    refine Eq.trans (findRoute_modRoute _ _ _ _ _ _ ?_) ?_
    · exact fun _ => ⟨rfl, rfl⟩
    have : findRoute (retainSource s2 ⟨id, r.key⟩) r.key r.neigh = some r2 := h2
    simp [this]
  obtain ⟨r4, h4, h5⟩ := changeRouteMetric_find (c := c) refm (s.ncost r.neigh) add h3
  have hn4 := changeRouteMetric_now c (modRoute (retainSource s2 ⟨id, r.key⟩) r.key r.neigh f3)
    r.key r.neigh refm (s.ncost r.neigh) add
  have hn3 : (modRoute (retainSource s2 ⟨id, r.key⟩) r.key r.neigh f3).now = s.now := hn2
  rw [hn3] at hn4
  refine ⟨{ r4 with holdTime := hold }, ?_, ?_, hn4⟩
  · refine Eq.trans (findRoute_modRoute _ _ _ _ _ _ ?_) ?_
    · exact fun _ => ⟨rfl, rfl⟩
    simp only [true_and, if_true]
    show Option.map _ (findRoute (changeRouteMetric c (modRoute (retainSource s2 ⟨id, r.key⟩)
      r.key r.neigh f3) r.key r.neigh refm (s.ncost r.neigh) add) r.key r.neigh) = _
    rw [h4]; rfl
  · rcases h5 with ⟨hi, e⟩ | e
    · left; rw [e]; exact hi
    · right
      have ec := core_eq (r := setRc refm (s.ncost r.neigh) add (f3 r2)) e
      intro hm
      refine ⟨?_, rfl⟩
      have hm' : routeMetric r4 < INFINITY := hm
      have : routeMetric r4 = min (refm + s.ncost r.neigh + add) INFINITY := by rw [ec]; rfl
      have hr : refm < INFINITY := by rw [this] at hm'; omega
      show r4.time = _
      rw [ec]
      show (if refm < INFINITY then s.now.sec else r2.time) = s.now.sec
      rw [if_pos hr]

theorem sourceFor_ms (c : Cfg) (A : Allow) (s : St) (ex : List SKey) (r : Option Route) (k : SKey)
    (q : UInt16) (h : ∃ n m, A.upd n k.id k.key q m) : Ms c A s ex (sourceFor s r k q) ex := by
  unfold sourceFor
  split
  · exact .refl ..
  · exact .one (.ensure k q h)

theorem sourceFor_routes (s : St) (r : Option Route) (k : SKey) (q : UInt16) :
    (sourceFor s r k q).routes = s.routes := by
  unfold sourceFor
  split
  · rfl
  · exact (ensure_routes ..).1

theorem updateExisting_ms (c : Cfg) (A : Allow) (s : St) (ex : List SKey) (r : Route) (id : Bytes)
    (q : UInt16) (refm add hold : Nat) (hr : findRoute s r.key r.neigh = some r)
    (hu : A.upd r.neigh id r.key q refm) (hid : id ≠ c.myid)
    (hsrc : r.id ≠ id → (findSource s ⟨id, r.key⟩).isSome) (hk : KeyOk r.key) :
    Ms c A s ex (updateExisting c s r id q refm add hold) ex := by
  unfold updateExisting
  simp only
  have h1 : M c A s ex _ _ := .apply id q refm add hold
    (!updateFeasible s (findSource s ⟨id, r.key⟩) q refm && r.installed && id != r.id) hr hu hid hsrc hk rfl
  obtain ⟨r', hr', hx, hn⟩ := applyUpdate_find (c := c) id q refm add hold
    (!updateFeasible s (findSource s ⟨id, r.key⟩) q refm && r.installed && id != r.id) hr
  generalize (!updateFeasible s (findSource s ⟨id, r.key⟩) q refm && r.installed && id != r.id) = u
    at h1 hr' hn
  generalize applyUpdate c s r.key r.neigh id q refm add hold u = s5 at h1 hr' hn
  have hfr : Fresh s5 r.key r.neigh := by
    intro x hx' hm hi
    rw [hr'] at hx'; simp at hx'; subst hx'
    rcases hx with hx | hx
    · rw [hx] at hi; simp at hi
    · obtain ⟨h1, h2⟩ := hx hm
      unfold routeExpired
      rw [h1, h2, hn]
      simp
      omega
  have h2 := (Ms.one h1).trans (routeChanged_ms c A s5 (r.skey :: ex) r.key r.neigh r.skey
    (routeMetric r) hfr)
  generalize routeChanged c s5 r.key r.neigh r.skey (routeMetric r) = s6 at h2
  refine Ms.step ?_ (.release r.skey)
  split
  · exact h2.trans (routeLost_ms ..)
  · split
    · exact h2.trans ((qms_sendUnfeasible ..).ms _)
    · exact h2

theorem updateNew_ms (c : Cfg) (A : Allow) (s : St) (ex : List SKey) (k : PKey) (n : NeighId)
    (id : Bytes) (q : UInt16) (refm add hold : Nat) (nh : Option Bytes)
    (hr : findRoute s k n = none) (hu : A.upd n id k q refm) (hid : id ≠ c.myid)
    (hsrc : (findSource s ⟨id, k⟩).isSome) (hk : KeyOk k) (hm : refm < INFINITY)
    (hg : ∀ g, nh = some g → A.gate k g) :
    Ms c A s ex (updateNew c s k n id q refm add hold nh) ex := by
  unfold updateNew
  split
  · exact .refl ..
  · next nh =>
    simp only
    have key : ∃ s1, (if (!updateFeasible s (findSource s ⟨id, k⟩) q refm) = true then
        sendUnfeasibleRequest c s n false q (min (refm + s.ncost n + add) INFINITY) ⟨id, k⟩ else s) =
        s1 ∧ QMs c s s1 := by
      refine ⟨_, rfl, ?_⟩
      split
      · exact qms_sendUnfeasible ..
      · exact .refl s
    obtain ⟨s1, e1, h1⟩ := key
    rw [e1]
    have hs := h1.same
    have hr1 : findRoute s1 k n = none := by
      have := hs.findRoute k n
      rw [hr] at this
      cases e : findRoute s1 k n with
      | none => rfl
      | some x => rw [e] at this; simp at this
    have hm2 : M c A s1 ex _ ex := .insert k n id q refm add hold nh hr1 hu hid
      (by rw [hs.findSource]; exact hsrc) hk hm (hg nh rfl)
    have e2 : newRoute (retainSource s1 ⟨id, k⟩) k n id q refm add hold nh =
        newRoute s1 k n id q refm add hold nh := rfl
    rw [e2]
    have e3 : (retainSource s1 ⟨id, k⟩).routes = s1.routes := rfl
    rw [e3]
    refine ((h1.ms ex).step hm2).trans (considerRoute_ms c A _ ex k n ?_).1
    intro r hr' _ _
    rw [notify_find] at hr'
    have : findRoute { retainSource s1 ⟨id, k⟩ with
        routes := flatInsert s1.routes (newRoute s1 k n id q refm add hold nh) } k n =
        some (newRoute s1 k n id q refm add hold nh) := by
      show flatFind _ k n = _
      rw [flatFind_insert (r := newRoute s1 k n id q refm add hold nh) hr1]
      rw [if_pos ⟨rfl, rfl⟩]
    rw [this] at hr'
    simp at hr'
    subst hr'
    unfold routeExpired
    rw [notifyRoute_now]
    show decide (s1.now.sec < s1.now.sec - (hold : Int)) = false
    simp
    omega

/-- The update that may be stored when an update is received: a retraction may lack the
router-id. -/
def allowUpd (id? : Option Bytes) (k : PKey) (q : UInt16) (refm : Nat) (n : NeighId)
    (nh : Option Bytes) : Allow where
  upd n' id k' q' refm' := n' = n ∧ k' = k ∧ q' = q ∧ refm' = refm ∧
    (id? = some id ∨ (id? = none ∧ refm ≥ INFINITY))
  gate k' g := k' = k ∧ nh = some g

theorem updateRefused_spec {c : Cfg} {id : Option Bytes} {k : PKey} {refm : Nat} {n : NeighId}
    (h : updateRefused c id k refm n = false) :
    KeyOk k ∧ (∀ i, id = some i → i ≠ c.myid) ∧ (id = none → refm ≥ INFINITY) ∧
    c.inputFilter id k (some n) (c.ifOf n) < INFINITY := by
  unfold updateRefused at h
  simp only [Bool.or_eq_false_iff, decide_eq_false_iff_not] at h
  obtain ⟨⟨⟨⟨h1, h2⟩, h3⟩, h4⟩, h5⟩ := h
  refine ⟨⟨h2, h3, by simpa using h4⟩, ?_, ?_, by omega⟩
  · intro i e; subst e; simpa using h1
  · intro e; subst e; simp at h1; exact h1

/-- A route with the router-id of the node itself would break this; see `NoSelf`. -/
theorem updateRoute_ms (c : Cfg) (s : St) (ex : List SKey) (id : Option Bytes) (k : PKey)
    (q : UInt16) (refm interval : Nat) (n : NeighId) (nh : Option Bytes)
    (hself : ∀ r ∈ s.routes, r.id ≠ c.myid) :
    Ms c (allowUpd id k q refm n nh) s ex (updateRoute c s id k q refm interval n nh) ex := by
  unfold updateRoute
  split
  · exact .refl ..
  · next href =>
    obtain ⟨hk, hid, hnone, hadd⟩ := updateRefused_spec (by simpa using href)
    simp only
    split
    · exact .refl ..
    · next i hr =>
      split
      · exact .refl ..
      · next hm =>
        have hs : Ms c (allowUpd (some i) k q refm n nh) s ex (sourceFor s none ⟨i, k⟩ q) ex :=
          sourceFor_ms _ _ _ _ _ _ _ ⟨n, refm, rfl, rfl, rfl, rfl, .inl rfl⟩
        refine hs.trans (updateNew_ms _ _ _ _ _ _ _ _ _ _ _ _ ?_ ?_ (hid i rfl) ?_ hk ?_
          (fun g e => ⟨rfl, e⟩))
        · unfold findRoute at hr ⊢; rw [sourceFor_routes]; exact hr
        · exact ⟨rfl, rfl, rfl, rfl, .inl rfl⟩
        · unfold sourceFor
          rw [if_neg (by simp)]
          exact isSome_ensure ..
        · omega
    · next idv _ _ r hr =>
      obtain ⟨hmem, hkk, hnn⟩ := findRoute_mem hr
      subst hkk; subst hnn
      have hs : Ms c (allowUpd idv r.key q refm r.neigh nh) s ex (sourceFor s (some r) ⟨idv.getD r.id, r.key⟩ q) ex := by
        refine sourceFor_ms _ _ _ _ _ _ _ ⟨r.neigh, refm, rfl, rfl, rfl, rfl, ?_⟩
        cases idv with
        | none => exact .inr ⟨rfl, hnone rfl⟩
        | some i => exact .inl rfl
      refine hs.trans (updateExisting_ms _ _ _ _ _ _ _ _ _ _ ?_ ?_ ?_ ?_ hk)
      · unfold findRoute at hr ⊢; rw [sourceFor_routes]; exact hr
      · refine ⟨rfl, rfl, rfl, rfl, ?_⟩
        cases idv with
        | none => exact .inr ⟨rfl, hnone rfl⟩
        | some i => exact .inl rfl
      · cases idv with
        | none => exact hself r hmem
        | some i => exact hid i rfl
      · intro hne
        unfold sourceFor
        rw [if_neg (by simpa using hne)]
        exact isSome_ensure ..

/-! ### Walks -/

theorem walkFrom_ms {c : Cfg} {A : Allow} {ex : List SKey} (act : St → NeighId → St) (k : PKey)
    (h : ∀ s n, Ms c A s ex (act s n) ex) (fuel : Nat) (cur : Option NeighId) (s : St) :
    Ms c A s ex (walkFrom act k fuel cur s) ex := by
  induction fuel generalizing cur s with
  | zero => exact .refl ..
  | succ f ih =>
    cases cur with
    | none => exact .refl ..
    | some n =>
      simp only [walkFrom]
      exact (h s n).trans (ih _ _)

theorem updateNeighbourMetric_ms (c : Cfg) (A : Allow) (ex : List SKey) (fuel : Nat) (s : St)
    (n : NeighId) : Ms c A s ex (updateNeighbourMetric c fuel s n) ex := by
  refine Ms.foldl _ (fun s k => walkFrom_ms _ k (fun s m => ?_) _ _ _) _ _
  simp only
  split
  · exact updateRouteMetric_ms ..
  · exact .refl ..

theorem updateInterfaceMetric_ms (c : Cfg) (A : Allow) (ex : List SKey) (fuel : Nat) (s : St)
    (i : IfId) : Ms c A s ex (updateInterfaceMetric c fuel s i) ex := by
  refine Ms.foldl _ (fun s k => walkFrom_ms _ k (fun s m => ?_) _ _ _) _ _
  simp only
  split
  · exact updateRouteMetric_ms ..
  · exact .refl ..

theorem retractOne_ms (c : Cfg) (A : Allow) (s : St) (ex : List SKey) (k : PKey) (n : NeighId) :
    Ms c A s ex (retractOne c s k n) ex := by
  unfold retractOne
  split
  · exact .refl ..
  · simp only
    split
    · split
      · exact (Ms.one (.retract k n)).trans (routeChanged_ms c A _ ex k n _ _ retract_fresh)
      · exact .one (.retract k n)
    · exact .refl ..

theorem retractNeighbourRoutes_ms (c : Cfg) (A : Allow) (ex : List SKey) (fuel : Nat) (s : St)
    (n : NeighId) : Ms c A s ex (retractNeighbourRoutes c fuel s n) ex := by
  refine Ms.foldl _ (fun s k => walkFrom_ms _ k (fun s m => ?_) _ _ _) _ _
  simp only
  split
  · exact retractOne_ms ..
  · exact .refl ..

theorem flushSlot_ms (c : Cfg) (A : Allow) (ex : List SKey) (p : Route → Bool) (k : PKey)
    (fuel : Nat) (s : St) (hA : A.drop) : Ms c A s ex (flushSlot c p k fuel s) ex := by
  induction fuel generalizing s with
  | zero => exact .refl ..
  | succ f ih =>
    simp only [flushSlot]
    split
    · exact .refl ..
    · exact (flushRoute_ms _ _ _ _ _ _ hA).trans (ih _)

theorem flushWhere_ms (c : Cfg) (A : Allow) (ex : List SKey) (p : Route → Bool) (s : St)
    (hA : A.drop) : Ms c A s ex (flushWhere c p s) ex :=
  Ms.foldl _ (fun s k => flushSlot_ms _ _ _ _ _ _ _ hA) _ _

theorem flushAllSlot_ms (c : Cfg) (A : Allow) (ex : List SKey) (k : PKey)
    (fuel : Nat) (s : St) (hA : A.drop) : Ms c A s ex (flushAllSlot c k fuel s) ex := by
  induction fuel generalizing s with
  | zero => exact .refl ..
  | succ f ih =>
    simp only [flushAllSlot]
    split
    · exact .refl ..
    · exact ((Ms.one (.uninstall _ _)).trans (flushRoute_ms _ _ _ _ _ _ hA)).trans (ih _)

theorem flushAllRoutes_ms (c : Cfg) (A : Allow) (ex : List SKey) (s : St) (hA : A.drop) :
    Ms c A s ex (flushAllRoutes c s) ex :=
  Ms.foldl _ (fun s k => flushAllSlot_ms _ _ _ _ _ _ hA) _ _

theorem expireKeep_ms (c : Cfg) (A : Allow) (s : St) (ex : List SKey) (k : PKey) (n : NeighId) :
    Ms c A s ex (expireKeep c s k n) ex := by
  unfold expireKeep
  simp only
  have h := updateRouteMetric_ms c A s ex k n
  split
  · exact h
  · split
    · exact h.trans ((qms_sendUnicastRequest ..).ms ex)
    · exact h

theorem expireFrom_ms (c : Cfg) (A : Allow) (ex : List SKey) (k : PKey) (fuel : Nat)
    (cur : Option NeighId) (s : St) (hA : A.drop) : Ms c A s ex (expireFrom c k fuel cur s).1 ex := by
  induction fuel generalizing cur s with
  | zero => exact .refl ..
  | succ f ih =>
    cases cur with
    | none => exact .refl ..
    | some n =>
      simp only [expireFrom]
      split
      · exact .refl ..
      · split
        · exact (flushRoute_ms _ _ _ _ _ _ hA).trans (ih _ _)
        · exact (expireKeep_ms ..).trans (ih _ _)

theorem expireRoutes_ms (c : Cfg) (A : Allow) (ex : List SKey) (fuel : Nat) (s : St) (hA : A.drop) :
    Ms c A s ex (expireRoutes c fuel s).1 ex := by
  unfold expireRoutes
  generalize slotKeys s = l
  suffices h : ∀ p : St × Bool, Ms c A p.1 ex (l.foldl (fun p k =>
      let q := expireSlot c fuel p.1 k
      (q.1, p.2 && q.2)) p).1 ex from h (s, true)
  induction l with
  | nil => intro p; exact .refl ..
  | cons k l ih =>
    intro p
    rw [List.foldl_cons]
    exact (expireFrom_ms c A ex k fuel _ p.1 hA).trans
      (ih ((expireSlot c fuel p.1 k).1, p.2 && (expireSlot c fuel p.1 k).2))

/-! ### Redistribution -/

theorem flushXroute_ms (c : Cfg) (A : Allow) (ex : List SKey) (s : St) (x : Xroute) (u : Bool)
    (hx : x ∈ s.xroutes) (hA : A.xr) : Ms c A s ex (flushXroute c s x u) ex := by
  unfold flushXroute
  simp only
  have h1 : M c A s ex _ ex := .xdel x hx hA
  have e : (emit s (.notifyXroute .flush x)).xroutes = s.xroutes := rfl
  rw [e]
  generalize { emit s (.notifyXroute .flush x) with
        xroutes := s.xroutes.filter (fun y => !(y.key == x.key)) } = s2 at h1
  generalize flushXrouteKey s x = k
  cases hb : findBest c s2 k true none with
  | mk b s3 =>
    have hf := findBest_frame hb
    have h3 := (Ms.one h1).trans (hf.ms ex)
    simp only
    cases b with
    | none =>
      simp only [Option.bind_none]
      split
      · exact h3.trans ((qms_sendUpdateResend ..).ms ex)
      · exact h3
    | some n =>
      obtain ⟨r, hr, hex, hfe, -⟩ := acceptable_spec (findBest_acceptable hb)
      simp only [Option.bind_some, hr]
      split
      · have hnn := (findRoute_mem hr).2.2
        have h4 : Ms c A s ex (installRoute c s3 k r.neigh) ex := by
          rw [hnn]
          cases hi : r.installed with
          | true =>
            have : installRoute c s3 k n = s3 := by unfold installRoute; rw [hr]; simp [hi]
            rw [this]; exact h3
          | false => exact h3.step (.install hr hi (hfe rfl) (fun _ => hex) (.inr hA))
        split
        · exact h4.trans ((qms_sendUpdate ..).ms ex)
        · exact h4
      · split
        · exact h3.trans ((qms_sendUpdateResend ..).ms ex)
        · exact h3

theorem modifyXroute_ms (c : Cfg) (A : Allow) (ex : List SKey) (s : St) (x : Xroute) (kr : KRoute)
    (u : Bool) (hx : x ∈ s.xroutes) (hm : kr.metric < INFINITY) (hA : A.xr) :
    Ms c A s ex (modifyXroute c s x kr u) ex := by
  unfold modifyXroute
  split
  · next hd =>
    have h : M c A s ex _ ex := .xmod x kr.metric kr.proto hx hm hd hA
    simp only
    split
    · exact (Ms.one h).trans ((qms_sendUpdate ..).ms ex)
    · exact .one h
  · exact .refl ..

theorem addAndAnnounce_ms (c : Cfg) (A : Allow) (ex : List SKey) (s : St) (kr : KRoute) (u : Bool)
    (hm : kr.metric < INFINITY) (hk : martianPrefix kr.key.prefix_ kr.key.plen = false)
    (hA : A.xr) :
    Ms c A s ex (addAndAnnounce c s kr u).1 ex := by
  unfold addAndAnnounce
  simp only
  cases hx : findXroute s kr.key with
  | some x =>
    have : addXroute s kr = (s, false) := by unfold addXroute; rw [hx]
    rw [this]
    exact .refl ..
  | none =>
    have h1 : M c A s ex (addXroute s kr).1 ex := .xadd kr hx hm hk hA
    have e2 : (addXroute s kr).2 = true := by unfold addXroute; rw [hx]
    generalize addXroute s kr = p at h1 e2
    obtain ⟨s1, b⟩ := p
    simp only at e2 h1
    subst e2
    simp only [if_true]
    have h2 : Ms c A s ex (flushDuplicateRoute c s1 kr) ex := by
      unfold flushDuplicateRoute
      split
      · exact .one h1
      · split
        · exact (Ms.one h1).step (.uninstall _ _)
        · exact .one h1
    split
    · exact h2.trans ((qms_sendUpdate ..).ms ex)
    · exact h2

theorem kernelRouteNotify_ms (c : Cfg) (A : Allow) (ex : List SKey) (s : St) (add : Bool)
    (kr : KRoute) (hA : A.xr) : Ms c A s ex (kernelRouteNotify c s add kr) ex := by
  unfold kernelRouteNotify
  simp only
  generalize redistribute c kr = kr
  split
  · exact .refl ..
  · next hm =>
    have hm : kr.metric < INFINITY := by omega
    split
    · next x hx =>
      split
      · exact modifyXroute_ms _ _ _ _ _ _ _ (findXroute_key hx).2 hm hA
      · exact flushXroute_ms _ _ _ _ _ _ (findXroute_key hx).2 hA
    · split
      · exact .refl ..
      · split
        · exact .refl ..
        · next hk => exact addAndAnnounce_ms _ _ _ _ _ _ hm (by simpa using hk) hA

theorem mergeXroutes_ms (c : Cfg) (A : Allow) (ex : List SKey) (u : Bool) (fuel : Nat)
    (krs : List KRoute) (j : Nat) (s : St) (hA : A.xr) : Ms c A s ex (mergeXroutes c u fuel krs j s) ex := by
  induction fuel generalizing krs j s with
  | zero => unfold mergeXroutes; exact .refl ..
  | succ f ih =>
    have hadd : ∀ (kr : KRoute) (rest : List KRoute), kr.metric < INFINITY →
        Ms c A s ex (mergeAdd c u (mergeXroutes c u f) kr rest j s) ex := by
      intro kr rest hm
      unfold mergeAdd
      split
      · next hk => exact (addAndAnnounce_ms _ _ _ _ _ _ hm (by simpa using hk) hA).trans (ih _ _ _)
      · exact ih _ _ _
    unfold mergeXroutes
    split
    · exact .refl ..
    · next x hx => exact (flushXroute_ms _ _ _ _ _ _ (List.mem_of_getElem? hx) hA).trans (ih _ _ _)
    · next _ _ kr rest =>
      split
      · exact ih _ _ _
      · next hm =>
        have hm : kr.metric < INFINITY := by omega
        split
        · exact hadd kr rest hm
        · next x hx =>
          have hmem : x ∈ s.xroutes := List.mem_of_getElem? hx
          split
          · exact hadd kr rest hm
          · exact (flushXroute_ms _ _ _ _ _ _ hmem hA).trans (ih _ _ _)
          · exact (modifyXroute_ms _ _ _ _ _ _ _ hmem hm hA).trans (ih _ _ _)

/-! ### Requests -/

def allowBump : Allow := { bump := True }

theorem handleRequest_other (c : Cfg) (A : Allow) (ex : List SKey) (s : St) (n : NeighId) (k : PKey)
    (hop : Nat) (q : UInt16) (id : Bytes) : Ms c A s ex
      (let route := findInstalled s k
       if answersRequest route q id then sendUpdateIf c s (c.ifOf n) true k
       else if hop ≤ 1 then s
       else if requestTooFar route q id then s
       else if requestRedundant s (c.ifOf n) k q id then s
       else
        let p := chooseSuccessor c s n k route
        forwardRequest c p.2 n k hop q id p.1) ex := by
  simp only
  split
  · exact (qms_sendUpdateIf ..).ms ex
  · split
    · exact .refl ..
    · split
      · exact .refl ..
      · split
        · exact .refl ..
        · have hf : Frame s (chooseSuccessor c s n k (findInstalled s k)).2 := by
            unfold chooseSuccessor
            simp only
            split
            · split
              · next h => exact findBest_frame h
              · next h =>
                split
                · exact findBest_frame h
                · exact findBest_frame h
            · exact .refl s
          refine (hf.ms ex).trans ?_
          unfold forwardRequest
          split
          · exact .refl ..
          · split
            · exact .refl ..
            · exact ((qms_sendUnicastMh ..).trans (.frame (frame_record ..))).ms ex

theorem handleRequest_ms (c : Cfg) (ex : List SKey) (s : St) (n : NeighId) (k : PKey) (hop : Nat)
    (q : UInt16) (id : Bytes) : Ms c allowBump s ex (handleRequest c s n k hop q id) ex := by
  unfold handleRequest
  split
  · unfold answerOwn
    split
    · split
      · exact .refl ..
      · exact (Ms.one (.bump trivial)).trans ((qms_sendUpdateIf ..).ms ex)
    · exact (qms_sendUpdateIf ..).ms ex
  · exact handleRequest_other ..

/-! ### Events -/

/-- What an event may do. -/
def allowEv : Ev → Allow
  | .update id k q refm _ n nh => allowUpd id k q refm n nh
  | .seqnoRequest .. => allowBump
  | .tick _ => { env := True }
  | .setCost _ _ => { env := True }
  | .expireSources => { gc := True }
  | .kernelRoute .. => { xr := True }
  | .checkXroutes .. => { xr := True }
  | .flushNeigh _ => { drop := True }
  | .flushIface .. => { drop := True }
  | .ifDown _ => { drop := True }
  | .expireRoutes _ => { drop := True }
  | .flushAll => { drop := True }
  | _ => {}

theorem step_ms (c : Cfg) (s : St) (ev : Ev) (hself : ∀ r ∈ s.routes, r.id ≠ c.myid) :
    Ms c (allowEv ev) s [] (step c s ev) [] := by
  cases ev with
  | tick t => exact .one (.tick t trivial)
  | setCost n v => exact .one (.cost n v trivial)
  | update id k q refm i n nh => exact updateRoute_ms c s [] id k q refm i n nh hself
  | retractNeigh f n => exact retractNeighbourRoutes_ms ..
  | updNeigh f n => exact updateNeighbourMetric_ms ..
  | updIface f i => exact updateInterfaceMetric_ms ..
  | flushNeigh n => exact flushWhere_ms _ _ _ _ _ trivial
  | flushIface i v => exact flushWhere_ms _ _ _ _ _ trivial
  | ifDown i =>
    exact (((frame_modIf ..).ms []).trans (flushWhere_ms _ _ _ _ _ trivial)).trans ((frame_modIf ..).ms [])
  | ifUp i full =>
    have hup : QMs c (modIf s i (fun x => { x with up := true })) (announceUp c (modIf s i (fun x => { x with up := true })) i full) := by
      unfold announceUp
      split
      · exact qms_sendUpdateAny ..
      · exact .refl _
    exact ((QMs.frame (frame_modIf ..)).trans (hup.trans (qms_sendMulticastRequestIf ..))).ms []
  | expireRoutes f => exact expireRoutes_ms _ _ _ _ _ trivial
  | expireSources => exact .one (.gc trivial)
  | expireResend => exact (frame_expireResend s).ms []
  | doResend => exact (qms_doResend c s).ms []
  | flushUpdates i => exact (qms_flushUpdates c s i).ms []
  | fullUpdate i u => exact (qms_sendUpdateAny c s i u).ms []
  | routeRequest n k => exact (qms_sendUpdateIf ..).ms []
  | seqnoRequest n k h q id => exact handleRequest_ms ..
  | kernelRoute a kr => exact kernelRouteNotify_ms _ _ _ _ _ _ trivial
  | checkXroutes krs u => exact mergeXroutes_ms _ _ _ _ _ _ _ _ trivial
  | flushAll => exact flushAllRoutes_ms _ _ _ _ trivial

end Babel
