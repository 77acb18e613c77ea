import Verif.Lemmas.Expire
/-
The walks over the route table terminate.
-/
set_option linter.unusedSimpArgs false
set_option linter.unusedVariables false
set_option linter.unusedSectionVars false
namespace Babel
open Spec

/-! ### Smoothing is idempotent at one time -/

theorem smoothSnap_idem (m sm : Nat) : smoothSnap m (smoothSnap m sm) = smoothSnap m sm := by
  unfold smoothSnap
  simp only
  split
  · split <;> rfl
  · rfl

theorem smoothLoop_done (hl m : Nat) (now : Int) (rnd : Nat → Nat) (sm : Nat) :
    smoothLoop hl m now (now - now).toNat rnd sm now = (sm, rnd) := by
  rw [Int.sub_self]; rfl

theorem smoothedMetric_idem (hl : Nat) (now : Int) (rnd rnd' : Nat → Nat) (r r' : Route)
    (hm : routeMetric r' = routeMetric r) (hs : r'.smoothed = (smoothedMetric hl now rnd r).1)
    (ht : r'.smoothedTime = now) :
    (smoothedMetric hl now rnd' r').1 = (smoothedMetric hl now rnd r).1 := by
  have key : (smoothedMetric hl now rnd r).1 = routeMetric r ∨
      (hl ≠ 0 ∧ routeMetric r < INFINITY ∧ ∃ x, (smoothedMetric hl now rnd r).1 = smoothSnap (routeMetric r) x) := by
    unfold smoothedMetric
    simp only
    split
    · exact .inl rfl
    · next h => right; exact ⟨by grind, by grind, _, rfl⟩
  generalize (smoothedMetric hl now rnd r).1 = v at hs key
  unfold smoothedMetric
  simp only
  rw [hm, hs, ht]
  split
  · next hc =>
    rcases key with h | ⟨h1, h2, h3⟩
    · exact h.symm
    · rcases hc with h | h | h | h
      · exact absurd h h1
      · omega
      · omega
      · exact h.symm
  · next hc =>
    rw [smoothLoop_done]
    rcases key with h | ⟨h1, h2, x, h3⟩
    · grind
    · rw [h3]; exact smoothSnap_idem ..

/-- The route, just smoothed. -/
def Smoothed (c : Cfg) (s : St) (r : Route) (v : Nat) : Prop :=
  ∀ r' rnd, routeMetric r' = routeMetric r → r'.smoothed = r.smoothed → r'.smoothedTime = r.smoothedTime →
    (smoothedMetric c.halfLife s.now.sec rnd r').1 = v

theorem smoothRoute_val {c : Cfg} {s : St} {k : PKey} {n : NeighId} {r : Route} (h : findRoute s k n = some r) :
    (smoothRoute c s k n).1 = (smoothedMetric c.halfLife s.now.sec s.rand r).1 := by
  unfold smoothRoute; rw [h]

theorem smoothRoute_find {c : Cfg} {s : St} {k : PKey} {n : NeighId} {r : Route} (h : findRoute s k n = some r) :
    findRoute (smoothRoute c s k n).2 k n =
      some { r with smoothed := (smoothRoute c s k n).1, smoothedTime := s.now.sec } := by
  rw [findRoute_smooth, h]
  have := (findRoute_mem h).2.2
  simp [this]

/-- Smoothing a route whose smoothed metric has just been computed. -/
theorem smoothRoute_idem {c : Cfg} {s : St} {k : PKey} {n : NeighId} {r r' : Route}
    (h : findRoute s k n = some r) {s' : St} (hn : s'.now = s.now) (h' : findRoute s' k n = some r')
    (hm : routeMetric r' = routeMetric r) (hs : r'.smoothed = (smoothRoute c s k n).1)
    (ht : r'.smoothedTime = s.now.sec) : (smoothRoute c s' k n).1 = (smoothRoute c s k n).1 := by
  rw [smoothRoute_val h', smoothRoute_val h, hn]
  exact smoothedMetric_idem _ _ _ _ _ _ hm (by rw [hs, smoothRoute_val h]) ht

/-- The looked-up routes after `change_route_metric`, exactly. -/
theorem changeRouteMetric_exact {c : Cfg} {s : St} {k : PKey} {n : NeighId} {r : Route}
    (refm cost add : Nat) (h : findRoute s k n = some r) :
    findRoute (changeRouteMetric c s k n refm cost add) k n = some r ∨
    ∃ v t, (v = (smoothedMetric c.halfLife s.now.sec s.rand r).1) ∧ t = s.now.sec ∧
      findRoute (changeRouteMetric c s k n refm cost add) k n =
        some (setMetric c s.now.sec refm cost add { r with smoothed := v, smoothedTime := t }) := by
  rcases changeRouteMetric_cases (c := c) refm cost add h with ⟨hi, -, e⟩ | ⟨s1, h1, e⟩
  · left; rw [e]; unfold findRoute; rw [(konly_changeModify ..).routes]; exact h
  · right
    have hs1 : s1.routes = s.routes ∧ s1.now = s.now ∧ s1.rand = s.rand := by
      rcases h1 with ⟨-, -, h1⟩ | ⟨-, h1⟩
      · have := konly_changeModify c s r (metricToKernel c (routeMetric r)) r.nexthop
          (c.ifOf r.neigh) (metricToKernel c (min (refm + cost + add) INFINITY))
        rw [h1] at this
        exact ⟨this.routes, this.now, (congrArg St.rand (show s1 = _ from this)).trans rfl⟩
      · rw [h1]; exact ⟨rfl, rfl, rfl⟩
    have hf1 : findRoute s1 k n = some r := by unfold findRoute; rw [hs1.1]; exact h
    refine ⟨_, _, rfl, rfl, ?_⟩
    rw [e, notify_find, findRoute_modRoute _ k k n n (setMetric c s.now.sec refm cost add)
      (keepsId_setMetric c _ _ _ _), if_pos ⟨rfl, rfl⟩, smoothRoute_find hf1, smoothRoute_val hf1, hs1.2.1, hs1.2.2]
    rfl

theorem setMetric_metric (c : Cfg) (t : Int) (a b d : Nat) (r : Route) :
    routeMetric (setMetric c t a b d r) = min (a + b + d) INFINITY := by
  unfold setMetric; simp only; split <;> rfl

/-- If `change_route_metric` leaves the metric alone, then it leaves the smoothed metric alone when it
has just been computed. -/
theorem changeRouteMetric_smoothed {c : Cfg} {s : St} {k : PKey} {n : NeighId} {r r2 : Route}
    (refm cost add : Nat) (h : findRoute s k n = some r)
    (h2 : findRoute (changeRouteMetric c (smoothRoute c s k n).2 k n refm cost add) k n = some r2)
    (hm : routeMetric r2 = routeMetric r) :
    (smoothRoute c (changeRouteMetric c (smoothRoute c s k n).2 k n refm cost add) k n).1 =
      (smoothRoute c s k n).1 := by
  have hn := (frame_smooth c s k n).now
  have hn2 : (changeRouteMetric c (smoothRoute c s k n).2 k n refm cost add).now = s.now := by
    rw [changeRouteMetric_now, hn]
  have hf := smoothRoute_find (c := c) h
  rcases changeRouteMetric_exact (c := c) refm cost add hf with e | ⟨v, t, hv, ht, e⟩
  · rw [h2] at e; cases e
    exact smoothRoute_idem h hn2 h2 rfl rfl rfl
  · have hv' : v = (smoothRoute c s k n).1 := by
      rw [hv, hn, smoothRoute_val h]
      exact smoothedMetric_idem _ _ _ _ _ _ rfl (by simp [smoothRoute_val h]) rfl
    rw [h2] at e
    have e := Option.some.inj e
    rw [hn] at ht e
    rw [smoothRoute_val h2, hn2, smoothRoute_val h]
    rw [e] at hm ⊢
    apply smoothedMetric_idem _ _ _ _ _ _ hm
    · rw [setMetric_metric] at hm
      rw [← smoothRoute_val h]
      unfold setMetric
      simp only
      split
      · next h0 =>
        show min (refm + cost + add) INFINITY = _
        rw [hm, smoothRoute_val h]
        unfold smoothedMetric; rw [if_pos (.inl h0)]
      · exact hv'
    · unfold setMetric
      simp only
      split
      · rfl
      · exact ht

/-- `update_route_metric` on a route that has not expired: it only goes on to `route_changed` if the
metric has changed.  (The comparison of the smoothed metrics never makes a difference.) -/
theorem updateRouteMetric_eq {c : Cfg} {s : St} {k : PKey} {n : NeighId} {r : Route}
    (h : findRoute s k n = some r) (hx : routeExpired s r = false) :
    let s1 := (smoothRoute c s k n).2
    let s2 := changeRouteMetric c s1 k n r.refmetric (s.ncost n) (c.inputFilter (some r.id) k (some n) (c.ifOf n))
    updateRouteMetric c s k n =
      match findRoute s2 k n with
      | none => s2
      | some r2 => if routeMetric r2 ≠ routeMetric r then routeChanged c s2 k n r.skey (routeMetric r)
        else (smoothRoute c s2 k n).2 := by
  intro s1 s2
  have e2 : updateRouteMetric c s k n =
      match findRoute s2 k n with
      | none => s2
      | some r2 =>
        if routeMetric r2 ≠ routeMetric r then routeChanged c s2 k n r.skey (routeMetric r)
        else if (smoothRoute c s2 k n).1 ≠ (smoothRoute c s k n).1
          then routeChanged c (smoothRoute c s2 k n).2 k n r.skey (routeMetric r)
          else (smoothRoute c s2 k n).2 := by
    have hnc : (smoothRoute c s k n).2.ncost = s.ncost := (frame_smooth c s k n).ncost
    unfold updateRouteMetric
    rw [h]
    simp only
    rw [if_neg (by rw [hx]; simp), hnc]
    rfl
  rw [e2]
  split
  · rfl
  · next r2 hr2 =>
    split
    · rfl
    · next hm =>
      rw [if_neg]
      intro hne
      exact hne (changeRouteMetric_smoothed _ _ _ h hr2 (by simpa using hm))

/-! ### Settled routes -/

/-- The link cost and filter addition of the route are up to date. -/
def settledB (c : Cfg) (s : St) (k : PKey) (n : NeighId) : Bool :=
  match findRoute s k n with
  | none => true
  | some r => r.cost == s.ncost n && r.addMetric == c.inputFilter (some r.id) k (some n) (c.ifOf n)

theorem content_fields {r r' : Route} (h : r'.content = r.content) :
    r'.cost = r.cost ∧ r'.addMetric = r.addMetric ∧ r'.id = r.id := by
  simp only [Route.content, Route.mk.injEq] at h
  exact ⟨h.2.2.2.1, h.2.2.2.2.1, h.1⟩

theorem settled_of_content {c : Cfg} {s s' : St} {k : PKey} {m : NeighId}
    (h : (findRoute s' k m).map Route.content = (findRoute s k m).map Route.content)
    (hn : s'.ncost = s.ncost) : settledB c s' k m = settledB c s k m := by
  unfold settledB
  cases h1 : findRoute s k m <;> cases h2 : findRoute s' k m <;> rw [h1, h2] at h <;> simp at h ⊢
  obtain ⟨e1, e2, e3⟩ := content_fields h
  rw [e1, e2, e3, hn]

theorem considerRoute_content (c : Cfg) (s : St) (k : PKey) (n : NeighId)
    (h : ∀ r, findRoute s k n = some r → routeExpired s r = false) :
    RSame s (considerRoute c s k n) :=
  (considerRoute_ms c {} s [] k n (fun r hr _ _ => h r hr)).2.same

theorem routeChanged_content (c : Cfg) (s : St) (k : PKey) (n : NeighId) (os : SKey) (om : Nat)
    (h : ∀ r, findRoute s k n = some r → routeExpired s r = false) :
    RSame s (routeChanged c s k n os om) := by
  have key : RSame s (routeChangedBetter c s k n) := by
    unfold routeChangedBetter
    split
    · exact .refl _
    · next r hr =>
      split
      · split
        · next s1 hb => exact (findBest_frame hb).qsame.rsame
        · next b s1 hb =>
          have hf := findBest_frame hb
          obtain ⟨rb, hrb, hex, -⟩ := acceptable_spec (findBest_acceptable hb)
          rw [hrb]
          simp only
          split
          · exact hf.qsame.rsame.trans (considerRoute_content c s1 k b (by
              intro r' hr'; rw [hrb] at hr'; cases hr'; exact hex))
          · exact hf.qsame.rsame
      · exact .refl _
  unfold routeChanged
  simp only
  generalize routeChangedBetter c s k n = s1 at key
  split
  · exact key
  · next r hr =>
    split
    · exact key.trans (qms_sendTriggered ..).same.rsame
    · refine key.trans (considerRoute_content c s1 k n ?_)
      intro r' hr'
      obtain ⟨r0, h0, e0⟩ := key.route_inv hr'
      rw [key.expired e0]
      exact h r0 h0

theorem M.ncost {c : Cfg} {A : Allow} (hA : ¬ A.env) {s s' : St} {ex ex' : List SKey}
    (h : M c A s ex s' ex') (hl : LInv c s.routes) : s'.ncost = s.ncost := by
  cases h with
  | q h => exact h.same.ncost
  | install h1 h2 h3 h4 => exact (keep_install c _ _ _ h1 h2 h3).ncost
  | @switch s k n r o ho hr h3 hf h4 h5 h6 =>
    obtain ⟨hm, hok, hoi⟩ := findInstalled_mem ho
    have hfo : findRoute s k o.neigh = some o := by rw [← hok]; exact findRoute_of_mem hl hm
    exact (keep_switch c s k o.neigh n hfo hr hf).ncost
  | uninstall k n => exact (keep_uninstall c s k n).ncost
  | recost h1 h2 => exact (keep_metric ..).ncost
  | retract k n => exact (keep_metric ..).ncost
  | @expire s k n r q h1 h2 h3 => exact (keep_metric ..).ncost
  | @apply s r id q refm add hold u h1 h2 h3 h4 h5 h6 =>
    unfold applyUpdate
    show (changeRouteMetric c _ _ _ _ _ _).ncost = _
    rw [(keep_metric ..).ncost]
    show (if u = true then uninstallRoute c s r.key r.neigh else s).ncost = _
    split
    · exact (keep_uninstall ..).ncost
    · rfl
  | insert k n id q refm add hold nh h1 h2 h3 h4 h5 h6 h7 => rw [notifyRoute_eq]; rfl
  | unlink h1 h2 hA' =>
    show (notifyRoute s .flush _ _).ncost = _
    rw [notifyRoute_eq]
  | release k => rfl
  | ensure k' q => unfold ensureSource; split <;> rfl
  | gc hA' => rfl
  | xadd kr h1 h2 h3 hA' => unfold addXroute; rw [h1]; rfl
  | xdel x hx hA' => rfl
  | xmod x m p hx hm _ hA' => rfl
  | bump _ => rfl
  | tick t h => exact absurd h hA
  | cost n v h => exact absurd h hA

theorem Ms.ncost {c : Cfg} {A : Allow} (hA : ¬ A.env) {s s' : St} {ex ex' : List SKey}
    (h : Ms c A s ex s' ex') (hl : Inv c s ex) : s'.ncost = s.ncost := by
  induction h with
  | refl => rfl
  | step h m ih => rw [m.ncost hA (h.inv hl).lst, ih]

theorem changeRouteMetric_other {c : Cfg} {s : St} {k : PKey} {n m : NeighId} {r : Route}
    (refm cost add : Nat) (h : findRoute s k n = some r) (hne : m ≠ n) :
    (findRoute (changeRouteMetric c s k n refm cost add) k m).map Route.content =
      (findRoute s k m).map Route.content := by
  rcases changeRouteMetric_routes (c := c) refm cost add h with ⟨hi, e⟩ | e
  · unfold findRoute; rw [e]
  · have := find_core e (fun r => r.key == k && r.neigh == m) (fun _ => rfl)
    have e2 : (flatModify s.routes k n (setRc refm cost add)).find?
        (fun r => r.key == k && r.neigh == m) = findRoute s k m := by
      show flatFind _ k m = _
      rw [flatFind_modify _ _ _ _ _ _ (keepsId_setRc _ _ _), if_neg (by simp [hne])]
      rfl
    rw [e2] at this
    exact map_content_of_core this

/-- `update_route_metric` keeps settled routes settled; it changes the order of the table only if it
settles the route. -/
theorem updateRouteMetric_settle {c : Cfg} {s : St} {ex : List SKey} (hi : Inv c s ex) {k : PKey} {n : NeighId}
    {r : Route} (h : findRoute s k n = some r) (hx : routeExpired s r = false) :
    (∀ m, settledB c s k m = true → settledB c (updateRouteMetric c s k n) k m = true) ∧
    (ids (updateRouteMetric c s k n) = ids s ∨
      (settledB c s k n = false ∧ settledB c (updateRouteMetric c s k n) k n = true)) := by
  have hnc : (updateRouteMetric c s k n).ncost = s.ncost :=
    (updateRouteMetric_ms c {} s ex k n).ncost (fun h => h) hi
  have e := updateRouteMetric_eq (c := c) h hx
  simp only at e
  have hf := frame_smooth c s k n
  have hr1 := smoothRoute_find (c := c) h
  generalize hs1 : (smoothRoute c s k n).2 = s1 at e hf hr1
  generalize hrr : ({ r with smoothed := (smoothRoute c s k n).1, smoothedTime := s.now.sec } : Route) = r1 at hr1
  have hc1 : r1.content = r.content := by subst hrr; rfl
  have hm1 : routeMetric r1 = routeMetric r := content_metric hc1
  obtain ⟨r2, hr2, hd⟩ := changeRouteMetric_find (c := c) r.refmetric (s.ncost n)
    (c.inputFilter (some r.id) k (some n) (c.ifOf n)) hr1
  have hids : ids (changeRouteMetric c s1 k n r.refmetric (s.ncost n)
    (c.inputFilter (some r.id) k (some n) (c.ifOf n))) = ids s := by
    unfold ids; rw [ident_metric]; exact ident_core hf.routes
  have hnow : (changeRouteMetric c s1 k n r.refmetric (s.ncost n)
    (c.inputFilter (some r.id) k (some n) (c.ifOf n))).now = s.now := by
    rw [changeRouteMetric_now, hf.now]
  have hoth : ∀ m, m ≠ n → (findRoute (changeRouteMetric c s1 k n r.refmetric (s.ncost n)
      (c.inputFilter (some r.id) k (some n) (c.ifOf n))) k m).map Route.content =
      (findRoute s k m).map Route.content := fun m hm =>
    (changeRouteMetric_other _ _ _ hr1 hm).trans (hf.qsame.rsame.find k m)
  generalize changeRouteMetric c s1 k n r.refmetric (s.ncost n)
    (c.inputFilter (some r.id) k (some n) (c.ifOf n)) = s2 at e hr2 hids hnow hoth
  rw [hr2] at e
  simp only at e
  have hx2 : ∀ r', findRoute s2 k n = some r' → routeExpired s2 r' = false := by
    intro r' hr'
    obtain ⟨r0, h0, e0⟩ := find_ident_inv hids hr'
    rw [h] at h0; cases h0
    apply notExp_route.1
    rw [hnow, e0]
    exact notExp_route.2 hx
  have hsame : RSame s2 (updateRouteMetric c s k n) := by
    rw [e]
    split
    · exact routeChanged_content c s2 k n _ _ hx2
    · exact (frame_smooth c s2 k n).qsame.rsame
  -- whether the route is settled in `s2`
  have hcase : (r2 = r1 ∧ routeMetric r2 = routeMetric r) ∨
      (r2.cost = s.ncost n ∧ r2.addMetric = c.inputFilter (some r.id) k (some n) (c.ifOf n) ∧ r2.id = r.id ∧
        routeMetric r2 = min (r.refmetric + s.ncost n + c.inputFilter (some r.id) k (some n) (c.ifOf n)) INFINITY) := by
    rcases hd with ⟨-, hd⟩ | hd
    · left; subst hd; exact ⟨rfl, hm1⟩
    · right
      have hid : r1.id = r.id := (content_fields hc1).2.2
      have a := congrArg Route.cost hd
      have b := congrArg Route.addMetric hd
      have d := congrArg Route.id hd
      simp only [Route.core, setRc] at a b d
      exact ⟨a, b, d.trans hid, core_metric (r' := r2) (r := setRc _ _ _ r1) hd⟩
  have hset : settledB c (updateRouteMetric c s k n) k n = true ∨
      (settledB c (updateRouteMetric c s k n) k n = settledB c s k n ∧ routeMetric r2 = routeMetric r) := by
    have hsn : settledB c (updateRouteMetric c s k n) k n =
        (r2.cost == s.ncost n && r2.addMetric == c.inputFilter (some r2.id) k (some n) (c.ifOf n)) := by
      obtain ⟨r3, h3, e3⟩ := hsame.route hr2
      obtain ⟨a, b, d⟩ := content_fields e3
      unfold settledB
      rw [h3]
      simp only
      rw [a, b, d, hnc]
    rcases hcase with ⟨h1, h2⟩ | ⟨h1, h2, h3, h4⟩
    · right
      refine ⟨?_, h2⟩
      rw [hsn, h1]
      obtain ⟨a, b, d⟩ := content_fields hc1
      rw [a, b, d]
      unfold settledB; rw [h]
    · left; rw [hsn, h1, h2, h3]; simp
  constructor
  · intro m hm
    by_cases hmn : m = n
    · subst hmn
      rcases hset with h' | h'
      · exact h'
      · rw [h'.1]; exact hm
    · rw [settled_of_content ((hsame.find k m).trans (hoth m hmn)) hnc]; exact hm
  · by_cases hmeq : routeMetric r2 = routeMetric r
    · left
      rw [e, if_neg (by simpa using hmeq)]
      exact (ident_core (frame_smooth c s2 k n).routes).trans hids
    · right
      rcases hset with h' | h'
      · refine ⟨?_, h'⟩
        -- otherwise the metric would be the same
        rcases hcase with ⟨-, h2⟩ | ⟨h1, h2, h3, h4⟩
        · exact absurd h2 hmeq
        · rw [Bool.eq_false_iff]
          intro hs
          unfold settledB at hs
          rw [h] at hs
          simp only [Bool.and_eq_true, beq_iff_eq] at hs
          apply hmeq
          rw [h4, ← hs.1, ← hs.2]
          rfl
      · exact absurd h'.2 hmeq

/-! ### Termination of the expiry pass -/

theorem expireFrom_mono (c : Cfg) (k : PKey) (f g : Nat) (cur : Option NeighId) (s : St) (hfg : f ≤ g)
    (h : (expireFrom c k f cur s).2 = true) : expireFrom c k g cur s = expireFrom c k f cur s := by
  induction f generalizing g cur s with
  | zero => simp [expireFrom] at h
  | succ f ih =>
    obtain ⟨g, rfl⟩ : ∃ g', g = g' + 1 := ⟨g - 1, by omega⟩
    cases cur with
    | none => rfl
    | some n =>
      simp only [expireFrom] at h ⊢
      cases hr : findRoute s k n with
      | none => rfl
      | some r =>
        rw [hr] at h
        simp only at h ⊢
        split
        · next hd => rw [if_pos hd] at h; exact ih _ _ _ (by omega) h
        · next hd => rw [if_neg hd] at h; exact ih _ _ _ (by omega) h

def Split (S : List Ident) (d : Nat) : Option NeighId → Prop
  | none => True
  | some n => ∃ pre x post, S = pre ++ x :: post ∧ x.2.1 = n ∧ (∀ i ∈ pre, i.2.1 ≠ n) ∧ post.length < d

theorem split_head (S : List Ident) : Split S S.length (S.head?.map (·.2.1)) := by
  cases S with
  | nil => trivial
  | cons x S => exact ⟨[], x, S, rfl, rfl, by simp, by simp⟩

theorem split_mem {S : List Ident} {n : NeighId} (h : ∃ i ∈ S, i.2.1 = n) : Split S S.length (some n) := by
  induction S with
  | nil => simp at h
  | cons a S ih =>
    by_cases ha : a.2.1 = n
    · exact ⟨[], a, S, rfl, ha, by simp, by simp⟩
    · obtain ⟨i, hi, e⟩ := h
      rcases List.mem_cons.1 hi with h1 | h1
      · subst h1; exact absurd e ha
      · obtain ⟨pre, x, post, e1, e2, e3, e4⟩ := ih ⟨i, h1, e⟩
        refine ⟨a :: pre, x, post, by rw [e1]; rfl, e2, ?_, by simp; omega⟩
        intro j hj
        rcases List.mem_cons.1 hj with h2 | h2
        · subst h2; exact ha
        · exact e3 j h2

theorem succI_mem {S : List Ident} {n m : NeighId} (h : succI S n = some m) : ∃ i ∈ S, i.2.1 = m := by
  induction S with
  | nil => simp [succI] at h
  | cons a S ih =>
    simp only [succI] at h
    split at h
    · cases S with
      | nil => simp at h
      | cons b S => exact ⟨b, by simp, by simpa using h⟩
    · obtain ⟨i, h1, h2⟩ := ih h
      exact ⟨i, by simp [h1], h2⟩

theorem split_succ_any (S : List Ident) (n : NeighId) : Split S S.length (succI S n) := by
  cases h : succI S n with
  | none => trivial
  | some m => exact split_mem (succI_mem h)

theorem split_succ {S : List Ident} {n : NeighId} {d : Nat} (h : Split S (d + 1) (some n))
    (hu : ∀ i ∈ S, ∀ j ∈ S, i.2.1 = j.2.1 → i = j) (hn : S.Nodup) : Split S d (succI S n) := by
  obtain ⟨pre, x, post, e, hx1, hp, hl⟩ := h
  have hs : succI S n = post.head?.map (·.2.1) := by
    rw [e]; exact succI_split pre x post n hx1 hp
  rw [hs]
  cases post with
  | nil => trivial
  | cons y post =>
    refine ⟨pre ++ [x], y, post, by rw [e]; simp, rfl, ?_, by simp at hl; omega⟩
    intro i hi heq
    have hiS : i ∈ S := by rw [e]; simp at hi ⊢; grind
    have hyS : y ∈ S := by rw [e]; simp
    have := hu i hiS y hyS heq
    subst this
    rw [e, List.nodup_append] at hn
    rcases List.mem_append.1 hi with hi | hi
    · exact hn.2.2 i hi i (by simp) rfl
    · simp at hi; subst hi
      have := hn.2.1
      simp at this

/-- Number of routes of the slot that are not settled. -/
def unsettled (c : Cfg) (s : St) (k : PKey) : Nat :=
  (slotIds (ids s) k).countP (fun i => !settledB c s k i.2.1)

theorem expireKeep_settle {c : Cfg} {s : St} {ex : List SKey} (hi : Inv c s ex) {k : PKey} {n : NeighId}
    {r : Route} (h : findRoute s k n = some r) (hx : routeExpired s r = false) :
    (∀ m, settledB c s k m = true → settledB c (expireKeep c s k n) k m = true) ∧
    (ids (expireKeep c s k n) = ids s ∨
      (settledB c s k n = false ∧ settledB c (expireKeep c s k n) k n = true)) := by
  obtain ⟨h1, h2⟩ := updateRouteMetric_settle hi h hx
  have hs : QSame (updateRouteMetric c s k n) (expireKeep c s k n) := by
    unfold expireKeep
    simp only
    split
    · exact .refl _
    · split
      · exact (qms_sendUnicastRequest ..).same
      · exact .refl _
  have e : ∀ m, settledB c (expireKeep c s k n) k m = settledB c (updateRouteMetric c s k n) k m :=
    fun m => settled_of_content (hs.rsame.find k m) hs.ncost
  have ei : ids (expireKeep c s k n) = ids (updateRouteMetric c s k n) := ident_core hs.routes
  rw [ei]
  exact ⟨fun m hm => by rw [e]; exact h1 m hm, by rw [e]; exact h2⟩

theorem slotIds_perm {c : Cfg} {s s' : St} {ex : List SKey} (hi : Inv c s ex) {A : Allow}
    (hu : ∀ n id k q m, ¬ A.upd n id k q m) (hd : ¬ A.drop) (h : Ms c A s ex s' ex) (k : PKey) :
    (slotIds (ids s') k).Perm (slotIds (ids s) k) := (h.ids hu hd hi).filter _

theorem expireFrom_terminates (c : Cfg) (ex : List SKey) (k : PKey) (a b d : Nat) :
    ∀ (s : St) (cur : Option NeighId), Inv c s ex → (slotIds (ids s) k).length = a → unsettled c s k = b →
      Split (slotIds (ids s) k) d cur → ∃ fuel, (expireFrom c k fuel cur s).2 = true := by
  induction a using Nat.strongRecOn generalizing b d with
  | ind a iha =>
  induction b using Nat.strongRecOn generalizing d with
  | ind b ihb =>
  induction d with
  | zero =>
    intro s cur hi ha hb hs
    cases cur with
    | none => exact ⟨1, rfl⟩
    | some n => obtain ⟨pre, x, post, -, -, -, h⟩ := hs; omega
  | succ d ihd =>
    intro s cur hi ha hb hs
    cases cur with
    | none => exact ⟨1, rfl⟩
    | some n =>
      have hn : ∃ r, findRoute s k n = some r := by
        obtain ⟨pre, x, post, e, hx, -, -⟩ := hs
        have : x ∈ slotIds (ids s) k := by rw [e]; simp
        rw [List.mem_filter] at this
        obtain ⟨y, hy, e2⟩ := List.mem_map.1 this.1
        cases hf : findRoute s k n with
        | some r => exact ⟨r, rfl⟩
        | none =>
          have h3 := flatFind_none.1 hf y hy
          have h4 := this.2
          rw [← e2] at h4 hx
          simp only [Route.ident] at h4 hx
          grind
      obtain ⟨r, hr⟩ := hn
      have hm := findRoute_mem hr
      have hrS : r.ident ∈ slotIds (ids s) k :=
        List.mem_filter.2 ⟨List.mem_map_of_mem hm.1, by simp [Route.ident, hm.2.1]⟩
      have hslotu : ∀ s', Inv c s' ex → ∀ i ∈ slotIds (ids s') k, ∀ j ∈ slotIds (ids s') k, i.2.1 = j.2.1 → i = j := by
        intro s' hi' i h1 j h2 he
        rw [List.mem_filter] at h1 h2
        exact uniq_ids hi' i h1.1 j h2.1 (by have := h1.2; have := h2.2; grind) he
      by_cases hd : dueForFlush s r = true
      · have hfe := flushRoute_expired c s ex hi k n hr (due_route.1 hd)
        have hlt : (slotIds (ids (flushRoute c s k n)) k).length < a := by
          have hp := ((flushRoute_ids c s ex hi k n).1.filter (fun i => i.1 == k)).length_eq
          rw [hp, ← ha]
          rw [List.filter_filter]
          have : (List.filter (fun i => i.1 == k && !(i.1 == k && i.2.1 == n)) (ids s)) =
              (slotIds (ids s) k).filter (fun i => !(i.2.1 == n)) := by
            unfold slotIds
            rw [List.filter_filter]
            apply List.filter_congr
            intro i _
            cases (i.1 == k) <;> cases (i.2.1 == n) <;> rfl
          rw [this]
          apply Nat.lt_of_le_of_ne (List.length_filter_le ..)
          intro he
          have := List.length_filter_eq_length_iff.1 he r.ident hrS
          simp [Route.ident, hm.2.2] at this
        obtain ⟨f, hf⟩ := iha _ hlt _ _ (flushRoute c s k n)
          ((slotIds (ids (flushRoute c s k n)) k).head?.map (·.2.1)) hfe.inv rfl rfl (split_head _)
        refine ⟨f + 1, ?_⟩
        simp only [expireFrom]
        rw [hr]
        simp only
        rw [if_pos hd]
        rw [← slot_ids, List.head?_map, Option.map_map] at hf
        exact hf
      · have hx : routeExpired s r = false :=
          notExp_route.1 (not_due_notExp (fun h => hd (due_route.2 h)))
        have hms := expireKeep_ms c {} s ex k n
        have hi1 := hms.inv hi
        have hperm := slotIds_perm hi (fun _ _ _ _ _ h => h) (fun h => h) hms k
        obtain ⟨h1, h2⟩ := expireKeep_settle hi hr hx
        have hcnt : (slotIds (ids s) k).countP (fun i => !settledB c (expireKeep c s k n) k i.2.1) ≤ b := by
          rw [← hb]
          refine List.countP_mono_left (fun i _ h => ?_)
          cases hs : settledB c s k i.2.1 with
          | false => rfl
          | true => rw [h1 _ hs] at h; simp at h
        have hun : unsettled c (expireKeep c s k n) k =
            (slotIds (ids s) k).countP (fun i => !settledB c (expireKeep c s k n) k i.2.1) :=
          hperm.countP_eq _
        have hlen : (slotIds (ids (expireKeep c s k n)) k).length = a := by rw [hperm.length_eq, ha]
        have hgoal : ∃ f, (expireFrom c k f (succI (slotIds (ids (expireKeep c s k n)) k) n)
            (expireKeep c s k n)).2 = true := by
          rcases Nat.lt_or_eq_of_le hcnt with hlt | heq
          · exact ihb _ hlt _ _ _ hi1 hlen hun (split_succ_any _ _)
          · rcases h2 with h2 | h2
            · refine ihd _ _ hi1 hlen (by rw [hun, heq]) ?_
              rw [h2]
              exact split_succ hs (hslotu s hi) ((ids_nodup hi).filter _)
            · exfalso
              have : (slotIds (ids s) k).countP (fun i => !settledB c (expireKeep c s k n) k i.2.1) <
                  (slotIds (ids s) k).countP (fun i => !settledB c s k i.2.1) := by
                have hle : ∀ M : List Ident, M.countP (fun i => !settledB c (expireKeep c s k n) k i.2.1) ≤
                    M.countP (fun i => !settledB c s k i.2.1) := by
                  intro M
                  refine List.countP_mono_left (fun i _ h => ?_)
                  cases hs : settledB c s k i.2.1 with
                  | false => rfl
                  | true => rw [h1 _ hs] at h; simp at h
                generalize slotIds (ids s) k = L at hrS
                induction L with
                | nil => simp at hrS
                | cons y L ihL =>
                  rw [List.countP_cons, List.countP_cons]
                  rcases List.mem_cons.1 hrS with h | h
                  · have := hle L
                    have e1 : y.2.1 = n := by rw [← h]; exact hm.2.2
                    rw [e1, h2.1, h2.2]
                    simp; omega
                  · have := ihL h
                    have h3 := hle [y]
                    rw [List.countP_cons, List.countP_cons] at h3
                    simp only [List.countP_nil, Nat.zero_add] at h3
                    omega
              unfold unsettled at hb
              omega
        obtain ⟨f, hf⟩ := hgoal
        refine ⟨f + 1, ?_⟩
        simp only [expireFrom]
        rw [hr]
        simp only
        rw [if_neg hd, succOf_ids, slot_ids]
        exact hf

theorem expireFold_terminates (c : Cfg) (ex : List SKey) (L : List PKey) (p : St × Bool)
    (hi : Inv c p.1 ex) (hp : p.2 = true) :
    ∃ f, ∀ fuel, f ≤ fuel →
      (L.foldl (fun p k => let q := expireSlot c fuel p.1 k; (q.1, p.2 && q.2)) p).2 = true := by
  induction L generalizing p with
  | nil => exact ⟨0, fun _ _ => hp⟩
  | cons k L ih =>
    have hpos : Split (slotIds (ids p.1) k) (slotIds (ids p.1) k).length ((slotOf p.1.routes k).head?.map (·.neigh)) := by
      have := split_head (slotIds (ids p.1) k)
      rw [← slot_ids] at this ⊢
      rw [List.head?_map, Option.map_map] at this
      exact this
    obtain ⟨f1, h1⟩ := expireFrom_terminates c ex k _ _ _ p.1 _ hi rfl rfl hpos
    have hinv := (expireFrom_spec c ex k f1 ((slotOf p.1.routes k).head?.map (·.neigh)) p.1 hi).1.inv
    obtain ⟨f2, h2⟩ := ih ((expireSlot c f1 p.1 k).1, p.2 && (expireSlot c f1 p.1 k).2) hinv
      (by show (p.2 && (expireFrom c k f1 _ p.1).2) = true; rw [hp, h1]; rfl)
    refine ⟨max f1 f2, fun fuel hf => ?_⟩
    have : expireSlot c fuel p.1 k = expireSlot c f1 p.1 k :=
      expireFrom_mono c k f1 fuel _ p.1 (by omega) h1
    simp only [List.foldl_cons]
    rw [this]
    exact h2 fuel (by omega)

/-- The expiry pass terminates. -/
theorem expireRoutes_terminates (c : Cfg) (ex : List SKey) (s : St) (hi : Inv c s ex) :
    ∃ f, ∀ fuel, f ≤ fuel → (expireRoutes c fuel s).2 = true ∧ expireRoutes c fuel s = expireRoutes c f s := by
  obtain ⟨f, hf⟩ := expireFold_terminates c ex (slotKeys s) (s, true) hi rfl
  refine ⟨f, fun fuel h => ⟨hf fuel h, ?_⟩⟩
  -- the result does not depend on the fuel
  unfold expireRoutes
  have key : ∀ (L : List PKey) (p : St × Bool),
      (L.foldl (fun p k => let q := expireSlot c f p.1 k; (q.1, p.2 && q.2)) p).2 = true →
      L.foldl (fun p k => let q := expireSlot c fuel p.1 k; (q.1, p.2 && q.2)) p =
        L.foldl (fun p k => let q := expireSlot c f p.1 k; (q.1, p.2 && q.2)) p := by
    intro L
    induction L with
    | nil => intros; rfl
    | cons k L ih =>
      intro p hp
      simp only [List.foldl_cons] at hp ⊢
      have hmono : ∀ (L : List PKey) (p : St × Bool),
          (L.foldl (fun p k => let q := expireSlot c f p.1 k; (q.1, p.2 && q.2)) p).2 = true → p.2 = true := by
        intro L
        induction L with
        | nil => intro p h; exact h
        | cons k L ih =>
          intro p h
          have := ih _ h
          simp only [Bool.and_eq_true] at this
          exact this.1
      have h2 := hmono L _ hp
      simp only [Bool.and_eq_true] at h2
      have : expireSlot c fuel p.1 k = expireSlot c f p.1 k :=
        expireFrom_mono c k f fuel _ p.1 h h2.2
      rw [this]
      exact ih _ hp
  exact key _ _ (hf f (Nat.le_refl _))

end Babel
