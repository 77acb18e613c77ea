import Verif.Lemmas.Monitor
/-
What the clients are told agrees with the tables: elementary transitions and runs.
-/
set_option linter.unusedSimpArgs false
set_option linter.unusedVariables false
set_option linter.unusedSectionVars false
namespace Babel
open Spec

section
variable {R : RouteLine → RouteLine → Prop} {c : Cfg} {s s' : St}

/-- Everywhere. -/
abbrev PicAll (R : RouteLine → RouteLine → Prop) (s : St) : Prop := Pic R (fun _ _ => False) s

theorem PicAll.modNotify (hR : TalkRel R) (h : PicAll R s) (k : PKey) (n : NeighId) (f : Route → Route) (hf : KeepsId f)
    (hs : s'.out = s.out) (hr : s'.routes = flatModify s.routes k n f) : PicAll R (notifyRoute s' .change k n) := by
  refine Pic.notify hR k n ?_
  exact (h.modAny k n f hf).eq hs hr

theorem PicAll.install (hR : TalkRel R) (h : PicAll R s) {k : PKey} {n : NeighId} {r : Route}
    (hr : findRoute s k n = some r) (hi : r.installed = false) (hf : routeFeasible s r = true) :
    PicAll R (installRoute c s k n) := by
  have h1 := Pic.konly h (konly_changeAdd c s r (metricToKernel c (routeMetric r)))
  rcases installRoute_cases (c := c) hr hi hf with ⟨-, e⟩ | ⟨-, -, e⟩ | ⟨-, -, e⟩
  · rw [e]; exact h.core (talk_emit rfl) rfl
  · rw [e]; exact h1
  · rw [e]
    exact Pic.notify hR k n (h1.markAny k n none)

theorem PicAll.switch (hR : TalkRel R) (h : PicAll R s) {k : PKey} {m n : NeighId} {o r : Route}
    (ho : findRoute s k m = some o) (hr : findRoute s k n = some r)
    (hf : routeFeasible s r = true) : PicAll R (switchRoutes c s k m n) := by
  have h1 := Pic.konly h (konly_changeModify c s o (metricToKernel c (routeMetric o)) r.nexthop (c.ifOf r.neigh)
    (metricToKernel c (routeMetric r)))
  rcases switchRoutes_cases (c := c) ho hr hf with ⟨-, e⟩ | ⟨-, -, e⟩ | ⟨-, -, e⟩
  · rw [e]; exact h
  · rw [e]; exact h1
  · rw [e]
    refine Pic.notify hR k n (Pic.notify hR k m ?_)
    refine ((h1.modAny k m _ (keepsId_installed false)).markAny k n (some o)).mono ?_
    rintro k' n' ((hx | hx) | hx)
    · exact hx.elim
    · exact .inr hx
    · exact .inl (.inr hx)

theorem PicAll.uninstall (hR : TalkRel R) (hk : Loose R ∨ KInv c s) (h : PicAll R s) (k : PKey) (n : NeighId) :
    PicAll R (uninstallRoute c s k n) := by
  cases hr : findRoute s k n with
  | none => rw [uninstallRoute_noop (by rw [hr]; simp)]; exact h
  | some r =>
    cases hi : r.installed with
    | false => rw [uninstallRoute_noop (by rw [hr]; simp [hi])]; exact h
    | true =>
      obtain ⟨hm, hkey, hn⟩ := findRoute_mem hr
      rw [uninstallRoute_eq hr hi]
      have hko := konly_changeFlush c (modRoute s k n (fun r => { r with installed := false })) r (metricToKernel c (routeMetric r))
      simp only
      split
      · exact h.modNotify hR k n _ (keepsId_installed false) hko.out hko.routes
      · next hne =>
        rcases hk with hl | hk
        · refine Pic.konly ?_ hko
          exact h.mod k n _ (keepsId_installed false) fun a r' hr' => hl.off a _ hr'
        · have := hk.ok r hm hi
          exact absurd (kernelFlush_ok (s := modRoute s k n (fun r => { r with installed := false })) hk.kres (routeTable c r)
            (c.ifOf r.neigh) (metricToKernel c (routeMetric r)) this.1 this.2).1 hne

theorem lineOf_setMetric (refm cost add : Nat) (t : Int) (r : Route) :
    lineOf (setMetric c t refm cost add r) = lineOf (setRc refm cost add r) := by
  unfold setMetric
  simp only
  split <;> rfl

/-- The metric is changed and announced: the exceptions at this route go away, unless the kernel refuses. -/
theorem Pic.metric (hR : TalkRel R) {k : PKey} {n : NeighId} (hx : (PicAll R s) ∨ KInv c s)
    (h : Pic R (fun k' n' => k' = k ∧ n' = n) s) (refm cost add : Nat) :
    PicAll R (changeRouteMetric c s k n refm cost add) := by
  cases hr : findRoute s k n with
  | none =>
    rw [changeRouteMetric_noop _ _ _ hr]
    refine ⟨h.wf, h.dom, fun k' n' _ a r ha hf => h.val k' n' (fun e => ?_) a r ha hf⟩
    rw [e.1, e.2, hr] at hf; cases hf
  | some r =>
    obtain ⟨hm, hkey, hn⟩ := findRoute_mem hr
    have hko := konly_changeModify c s r (metricToKernel c (routeMetric r)) r.nexthop (c.ifOf r.neigh)
      (metricToKernel c (min (refm + cost + add) INFINITY))
    rcases changeRouteMetric_cases (c := c) refm cost add hr with ⟨hi, hne, e⟩ | ⟨s1, hs, e⟩
    · rw [e]
      rcases hx with hx | hk
      · exact Pic.konly hx hko
      · have := hk.ok r hm hi
        have ht := kernelModify_accepts (c := c) hk.kres (routeTable c r) (c.ifOf r.neigh) (metricToKernel c (routeMetric r))
          (c.ifOf r.neigh) (metricToKernel c (min (refm + cost + add) INFINITY)) this.1 this.2 this.1
        have hne : (kernelModify c s (routeTable c r) r.key r.nexthop (c.ifOf r.neigh) (metricToKernel c (routeMetric r)) r.nexthop
          (c.ifOf r.neigh) (metricToKernel c (min (refm + cost + add) INFINITY))).1 = false := hne
        rw [ht] at hne; cases hne
    · rw [e]
      have h2 : Pic R (fun k' n' => k' = k ∧ n' = n) s1 := by
        rcases hs with ⟨-, -, e1⟩ | ⟨-, e1⟩
        · rw [e1] at hko; exact h.konly hko
        · rw [e1]; exact h
      have h3 : Pic R (fun k' n' => k' = k ∧ n' = n) (smoothRoute c s1 k n).2 :=
        h2.core (frame_smooth c s1 k n).talk (frame_smooth c s1 k n).routes
      refine Pic.notify hR k n ((h3.modAny k n _ (keepsId_setMetric _ _ _ _ _)).mono ?_)
      rintro k' n' (hx | hx) <;> exact .inr hx

theorem PicAll.metric (hR : TalkRel R) (h : PicAll R s) (k : PKey) (n : NeighId) (refm cost add : Nat) :
    PicAll R (changeRouteMetric c s k n refm cost add) :=
  Pic.metric hR (.inl h) (Pic.mono h fun _ _ => False.elim) refm cost add

theorem PicAll.apply (hR : TalkRel R) (hk : Loose R ∨ KInv c s) (h : PicAll R s) (k : PKey) (n : NeighId) (id : Bytes) (q : UInt16)
    (refm add hold : Nat) (u : Bool) : PicAll R (applyUpdate c s k n id q refm add hold u) := by
  have h1 : PicAll R (if u = true then uninstallRoute c s k n else s) := by
    split
    · exact h.uninstall hR hk k n
    · exact h
  have hk1 : Loose R ∨ KInv c (if u = true then uninstallRoute c s k n else s) := by
    refine hk.imp_right fun hk => ?_
    split
    · exact hk.uninstall k n
    · exact hk
  have h2 : Pic R (fun k' n' => k' = k ∧ n' = n) (modRoute (retainSource (if u = true then uninstallRoute c s k n else s) ⟨id, k⟩) k n
      (updRoute s.now.sec id q refm)) := by
    refine ((Pic.eq (s' := retainSource (if u = true then uninstallRoute c s k n else s) ⟨id, k⟩) h1 rfl rfl).modAny k n _
      (keepsId_updRoute s.now.sec id q refm)).mono ?_
    rintro k' n' (hx | hx)
    · exact hx.elim
    · exact hx
  have hx : PicAll R (modRoute (retainSource (if u = true then uninstallRoute c s k n else s) ⟨id, k⟩) k n
      (updRoute s.now.sec id q refm)) ∨ KInv c (modRoute (retainSource (if u = true then uninstallRoute c s k n else s) ⟨id, k⟩) k n
      (updRoute s.now.sec id q refm)) := by
    rcases hk1 with hl | hk1
    · exact .inl ((Pic.eq (s' := retainSource (if u = true then uninstallRoute c s k n else s) ⟨id, k⟩) h1 rfl rfl).mod k n _
        (keepsId_updRoute s.now.sec id q refm) fun a r hr => hl.id a _ _ hr)
    · exact .inr (hk1.modify k n _ rfl hk1.kres fun r => ⟨rfl, rfl, fun h => h⟩)
  have h3 := Pic.metric (c := c) hR hx h2 refm (s.ncost n) add
  exact h3.mod k n (fun r => { r with holdTime := hold }) (keepsId_of _ (fun _ => ⟨rfl, rfl⟩)) fun a r hr => hr

theorem PicAll.insert (hR : TalkRel R) (h : PicAll R s) (k : PKey) (n : NeighId) {r : Route} (hrk : r.key = k) (hrn : r.neigh = n)
    (hf : findRoute s k n = none) (ho : s'.out = s.out) (hr : s'.routes = flatInsert s.routes r) :
    PicAll R (notifyRoute s' .add k n) := by
  subst hrk hrn
  have hfind : ∀ k' n', findRoute s' k' n' = if k' = r.key ∧ n' = r.neigh then some r else findRoute s k' n' := by
    intro k' n'
    show flatFind s'.routes k' n' = _
    rw [hr]
    exact flatFind_insert hf k' n'
  have hs : findRoute s' r.key r.neigh = some r := by rw [hfind, if_pos ⟨rfl, rfl⟩]
  unfold notifyRoute
  rw [hs]
  have hout : (emit s' (.notifyRoute .add r)).out = .notifyRoute .add r :: s.out := by rw [← ho]; rfl
  have hp : ∀ k' n', (picture (emit s' (.notifyRoute .add r)).out).routes k' n' =
      if k' = r.key ∧ n' = r.neigh then some (lineOf r) else (picture s.out).routes k' n' := by
    intro k' n'
    rw [hout]
    show (if k' = r.key ∧ n' = r.neigh then (if NKind.add = .flush then none else some (lineOf r))
      else (picture s.out).routes k' n') = _
    rw [if_neg (show ¬ NKind.add = .flush by decide)]
  have hd := h.dom r.key r.neigh
  rw [hf] at hd
  have hd0 : (picture s.out).routes r.key r.neigh = none := by simpa using hd
  refine ⟨?_, fun k' n' => ?_, fun k' n' _ a r' ha hfr => ?_⟩
  · rw [hout]
    refine ⟨?_, h.wf⟩
    show (if NKind.add = .add then (picture s.out).routes r.key r.neigh = none
      else ((picture s.out).routes r.key r.neigh).isSome = true)
    rw [if_pos rfl]; exact hd0
  · rw [hp]
    show _ = (findRoute s' k' n').isSome
    rw [hfind]
    split
    · rfl
    · exact h.dom k' n'
  · have hfr : findRoute s' k' n' = some r' := hfr
    rw [hp] at ha
    rw [hfind] at hfr
    split at ha
    · next e =>
      rw [if_pos e] at hfr
      rw [← Option.some.inj hfr, ← Option.some.inj ha]
      exact hR.refl _
    · next e =>
      rw [if_neg e] at hfr
      exact h.val k' n' (fun h => h) a r' ha hfr

theorem PicAll.unlink (h : PicAll R s) {k : PKey} {n : NeighId} {r : Route} (hr : findRoute s k n = some r) :
    PicAll R (unlinkRoute (notifyRoute s .flush k n) k n) := by
  obtain ⟨-, hk, hn⟩ := findRoute_mem hr
  subst hk hn
  unfold notifyRoute
  rw [hr]
  have hp : ∀ k' n', (picture (Out.notifyRoute .flush r :: s.out)).routes k' n' =
      if k' = r.key ∧ n' = r.neigh then none else (picture s.out).routes k' n' := by
    intro k' n'
    show (if k' = r.key ∧ n' = r.neigh then (if NKind.flush = .flush then none else some (lineOf r))
      else (picture s.out).routes k' n') = _
    rw [if_pos (show NKind.flush = .flush from rfl)]
  have hfind : ∀ k' n', findRoute (unlinkRoute (emit s (.notifyRoute .flush r)) r.key r.neigh) k' n' =
      if k' = r.key ∧ n' = r.neigh then none else findRoute s k' n' := fun k' n' => flatFind_remove ..
  refine ⟨⟨?_, h.wf⟩, fun k' n' => ?_, fun k' n' _ a r' ha hfr => ?_⟩
  · show (if NKind.flush = .add then (picture s.out).routes r.key r.neigh = none
      else ((picture s.out).routes r.key r.neigh).isSome = true)
    rw [if_neg (by decide), h.dom, hr]; rfl
  · rw [hfind]
    show ((picture (Out.notifyRoute .flush r :: s.out)).routes k' n').isSome = _
    rw [hp]
    split
    · rfl
    · exact h.dom k' n'
  · have ha : (picture (Out.notifyRoute .flush r :: s.out)).routes k' n' = some a := ha
    rw [hp] at ha
    rw [hfind] at hfr
    split at ha
    · cases ha
    · next e =>
      rw [if_neg e] at hfr
      exact h.val k' n' (fun h => h) a r' ha hfr

/-! ### Redistributed routes -/

/-- The picture of the redistributed routes agrees with the table. -/
def XPic (s : St) : Prop := ∀ k, (picture s.out).xroutes k = (findXroute s k).map (·.metric)

theorem Pic.xline (h : PicAll R s) {x : Xroute} {kind : NKind} (ho : s'.out = .notifyXroute kind x :: s.out) (hr : s'.routes = s.routes)
    (hw : if kind = .add then (picture s.out).xroutes x.key = none else ((picture s.out).xroutes x.key).isSome) : PicAll R s' := by
  have hf : ∀ k n, findRoute s' k n = findRoute s k n := by intro k n; unfold findRoute; rw [hr]
  refine ⟨?_, fun k n => ?_, fun k n hx a r ha hfr => ?_⟩
  · rw [ho]; exact ⟨hw, h.wf⟩
  · rw [ho, hf]; exact h.dom k n
  · rw [ho] at ha; rw [hf] at hfr
    exact h.val k n hx a r ha hfr

theorem xInsert_find {x : Xroute} {l : List Xroute} (h : l.find? (·.key == x.key) = none) (k : PKey) :
    (xInsert x l).find? (·.key == k) = if k = x.key then some x else l.find? (·.key == k) := by
  induction l with
  | nil =>
    by_cases e : k = x.key
    · simp [xInsert, e]
    · have : (x.key == k) = false := by simpa using fun h => e h.symm
      simp [xInsert, e, this]
  | cons y l ih =>
    rw [List.find?_cons] at h
    cases hy : y.key == x.key with
    | true => rw [hy] at h; cases h
    | false =>
      rw [hy] at h
      have ih := ih h
      unfold xInsert
      by_cases e : k = x.key
      · subst e
        rw [if_pos rfl] at ih ⊢
        split
        · rw [List.find?_cons, hy]; exact ih
        · rw [List.find?_cons]; simp
      · have hxk : (x.key == k) = false := by simpa using fun h => e h.symm
        rw [if_neg e] at ih ⊢
        split
        · rw [List.find?_cons, List.find?_cons, ih]
        · rw [List.find?_cons, hxk]

theorem QM.xpic (h : QM c s s') (hx : XPic s) : XPic s' := by
  intro k
  rw [h.talk.1, hx k]
  unfold findXroute
  rw [h.same.xroutes]

theorem find_filter_ne {l : List Xroute} (x : Xroute) (k : PKey) :
    (l.filter (fun y => !(y.key == x.key))).find? (·.key == k) = if k = x.key then none else l.find? (·.key == k) := by
  induction l with
  | nil => simp
  | cons y l ih =>
    rw [List.filter_cons]
    cases hy : y.key == x.key with
    | true =>
      have e := beq_iff_eq.1 hy
      simp only [Bool.not_true, Bool.false_eq_true, if_false]
      rw [ih, List.find?_cons]
      by_cases ek : k = x.key
      · rw [if_pos ek, if_pos ek]
      · rw [if_neg ek, if_neg ek]
        have : (y.key == k) = false := by rw [e]; simpa using fun h => ek h.symm
        rw [this]
    | false =>
      simp only [Bool.not_false, if_true]
      rw [List.find?_cons, List.find?_cons, ih]
      by_cases ek : k = x.key
      · rw [if_pos ek, if_pos ek, ek, hy]
      · rw [if_neg ek, if_neg ek]

theorem find_mapKey {l : List Xroute} {x x' : Xroute} (hk : x'.key = x.key) (hx : x ∈ l) (k : PKey) :
    (l.map (fun y => if y.key == x.key then x' else y)).find? (·.key == k) =
      if k = x.key then some x' else l.find? (·.key == k) := by
  by_cases ek : k = x.key
  · rw [if_pos ek, ek]
    induction l with
    | nil => cases hx
    | cons y l ih =>
      rw [List.map_cons, List.find?_cons]
      cases hy : y.key == x.key with
      | true => simp [hk]
      | false =>
        simp only [Bool.false_eq_true, if_false]
        rw [hy]
        rcases List.mem_cons.1 hx with rfl | hx
        · simp at hy
        · exact ih hx
  · rw [if_neg ek]
    clear hx
    induction l with
    | nil => rfl
    | cons y l ih =>
      rw [List.map_cons, List.find?_cons, List.find?_cons, ih]
      cases hy : y.key == x.key with
      | true =>
        have e := beq_iff_eq.1 hy
        have h1 : (x'.key == k) = false := by rw [hk]; simpa using fun h => ek h.symm
        have h2 : (y.key == k) = false := by rw [e]; simpa using fun h => ek h.symm
        simp only [if_true]
        rw [h1, h2]
      | false => simp only [Bool.false_eq_true, if_false]

/-- Nothing was said about redistributed routes, and they did not change. -/
def XQuiet (s s' : St) : Prop := (picture s'.out).xroutes = (picture s.out).xroutes ∧ s'.xroutes = s.xroutes

theorem XQuiet.refl (s : St) : XQuiet s s := ⟨rfl, rfl⟩
theorem XQuiet.trans {a b d : St} (h : XQuiet a b) (g : XQuiet b d) : XQuiet a d := ⟨g.1.trans h.1, g.2.trans h.2⟩
theorem XQuiet.eq (h : s'.out = s.out) (g : s'.xroutes = s.xroutes) : XQuiet s s' := ⟨by rw [h], g⟩
theorem XQuiet.talk (h : SameTalk s'.out s.out) (g : s'.xroutes = s.xroutes) : XQuiet s s' := ⟨by rw [h.1], g⟩
theorem KOnly.xq (h : KOnly s s') : XQuiet s s' := .eq h.out h.xroutes

theorem xq_notify (s : St) (kd : NKind) (k : PKey) (n : NeighId) : XQuiet s (notifyRoute s kd k n) := by
  unfold notifyRoute
  split <;> exact ⟨rfl, rfl⟩

theorem xq_mod (s : St) (k : PKey) (n : NeighId) (f : Route → Route) : XQuiet s (modRoute s k n f) := ⟨rfl, rfl⟩

theorem xq_mark (s : St) (k : PKey) (n : NeighId) (old : Option Route) : XQuiet s (markInstalled s k n old) := by
  refine .talk ?_ rfl
  show SameTalk (selectionLog s k n old ++ s.out) s.out
  refine picture_append_other fun o ho => ?_
  unfold selectionLog at ho
  split at ho
  · cases ho
  · rw [List.mem_singleton.1 ho]; rfl

theorem xq_install {k : PKey} {n : NeighId} {r : Route}
    (hr : findRoute s k n = some r) (hi : r.installed = false) (hf : routeFeasible s r = true) :
    XQuiet s (installRoute c s k n) := by
  have h1 := (konly_changeAdd c s r (metricToKernel c (routeMetric r))).xq
  rcases installRoute_cases (c := c) hr hi hf with ⟨-, e⟩ | ⟨-, -, e⟩ | ⟨-, -, e⟩
  · rw [e]; exact .talk (talk_emit rfl) rfl
  · rw [e]; exact h1
  · rw [e]; exact h1.trans ((xq_mark ..).trans (xq_notify ..))

theorem xq_switch {k : PKey} {m n : NeighId} {o r : Route} (ho : findRoute s k m = some o) (hr : findRoute s k n = some r)
    (hf : routeFeasible s r = true) : XQuiet s (switchRoutes c s k m n) := by
  have h1 := (konly_changeModify c s o (metricToKernel c (routeMetric o)) r.nexthop (c.ifOf r.neigh)
    (metricToKernel c (routeMetric r))).xq
  rcases switchRoutes_cases (c := c) ho hr hf with ⟨-, e⟩ | ⟨-, -, e⟩ | ⟨-, -, e⟩
  · rw [e]; exact .refl s
  · rw [e]; exact h1
  · rw [e]; exact h1.trans ((xq_mod ..).trans ((xq_mark ..).trans ((xq_notify ..).trans (xq_notify ..))))

theorem xq_uninstall (c : Cfg) (s : St) (k : PKey) (n : NeighId) : XQuiet s (uninstallRoute c s k n) := by
  cases hr : findRoute s k n with
  | none => rw [uninstallRoute_noop (by rw [hr]; simp)]; exact .refl s
  | some r =>
    cases hi : r.installed with
    | false => rw [uninstallRoute_noop (by rw [hr]; simp [hi])]; exact .refl s
    | true =>
      rw [uninstallRoute_eq hr hi]
      have h1 : XQuiet s (changeFlush c (modRoute s k n (fun r => { r with installed := false })) r (metricToKernel c (routeMetric r))).2 :=
        (xq_mod s k n _).trans (konly_changeFlush ..).xq
      simp only
      split
      · exact h1.trans (xq_notify ..)
      · exact h1

theorem xq_metric (c : Cfg) (s : St) (k : PKey) (n : NeighId) (refm cost add : Nat) :
    XQuiet s (changeRouteMetric c s k n refm cost add) := by
  cases hr : findRoute s k n with
  | none => rw [changeRouteMetric_noop _ _ _ hr]; exact .refl s
  | some r =>
    have hko := konly_changeModify c s r (metricToKernel c (routeMetric r)) r.nexthop (c.ifOf r.neigh)
      (metricToKernel c (min (refm + cost + add) INFINITY))
    rcases changeRouteMetric_cases (c := c) refm cost add hr with ⟨-, -, e⟩ | ⟨s1, hs, e⟩
    · rw [e]; exact hko.xq
    · rw [e]
      have h2 : XQuiet s s1 := by
        rcases hs with ⟨-, -, e1⟩ | ⟨-, e1⟩
        · rw [e1] at hko; exact hko.xq
        · rw [e1]; exact .refl s
      exact h2.trans ((XQuiet.talk (frame_smooth c s1 k n).talk (frame_smooth c s1 k n).xroutes).trans
        ((xq_mod ..).trans (xq_notify ..)))

theorem xq_apply (c : Cfg) (s : St) (k : PKey) (n : NeighId) (id : Bytes) (q : UInt16) (refm add hold : Nat) (u : Bool) :
    XQuiet s (applyUpdate c s k n id q refm add hold u) := by
  have h1 : XQuiet s (if u = true then uninstallRoute c s k n else s) := by
    split
    · exact xq_uninstall ..
    · exact .refl s
  have h2 : XQuiet s (modRoute (retainSource (if u = true then uninstallRoute c s k n else s) ⟨id, k⟩) k n
    (updRoute s.now.sec id q refm)) := h1.trans ⟨rfl, rfl⟩
  exact h2.trans ((xq_metric c _ k n refm (s.ncost n) add).trans ⟨rfl, rfl⟩)

theorem XQuiet.xpic (h : XQuiet s s') (hx : XPic s) : XPic s' := by
  intro k
  rw [h.1, hx k]
  unfold findXroute
  rw [h.2]

/-- Both pictures. -/
structure TalkInv (R : RouteLine → RouteLine → Prop) (s : St) : Prop where
  pic : PicAll R s
  x : XPic s

theorem TalkInv.quiet (h : TalkInv R s) (hp : PicAll R s') (hq : XQuiet s s') : TalkInv R s' := ⟨hp, hq.xpic h.x⟩

theorem M.talk {A : Allow} {ex ex' : List SKey} (hR : TalkRel R) (hk : Loose R ∨ KInv c s) (h : M c A s ex s' ex') (hi : Inv c s ex)
    (ht : TalkInv R s) : TalkInv R s' := by
  have hp := ht.pic
  cases h with
  | q h => exact ⟨hp.core h.talk h.same.routes, h.xpic ht.x⟩
  | install h1 h2 h3 h4 => exact ht.quiet (hp.install hR h1 h2 h3) (xq_install h1 h2 h3)
  | @switch _ k n r o ho hr h3 hf h4 h5 h6 =>
    obtain ⟨hm, hok, hoi⟩ := findInstalled_mem ho
    have hfo : findRoute s k o.neigh = some o := by rw [← hok]; exact findRoute_of_mem hi.lst hm
    exact ht.quiet (hp.switch hR hfo hr hf) (xq_switch hfo hr hf)
  | uninstall k n => exact ht.quiet (hp.uninstall hR hk k n) (xq_uninstall ..)
  | recost h1 h2 => exact ht.quiet (hp.metric hR ..) (xq_metric ..)
  | retract k n => exact ht.quiet (hp.metric hR ..) (xq_metric ..)
  | @expire _ k n r q h1 h2 h3 =>
    have := hp.mod k n (fun r => { r with seqno := q }) (keepsId_of _ (fun _ => ⟨rfl, rfl⟩)) fun a r hr => hr
    exact ht.quiet (PicAll.metric hR this ..) ((xq_mod ..).trans (xq_metric ..))
  | apply id q refm add hold u h1 h2 h3 h4 h5 h6 => exact ht.quiet (hp.apply hR hk ..) (xq_apply ..)
  | insert k n id q refm add hold nh h1 h2 h3 h4 h5 h6 h7 =>
    refine ht.quiet (hp.insert hR k n (r := newRoute s k n id q refm add hold nh) rfl rfl h1 rfl rfl) ?_
    exact XQuiet.trans (b := { retainSource s ⟨id, k⟩ with routes := flatInsert s.routes (newRoute s k n id q refm add hold nh) })
      ⟨rfl, rfl⟩ (xq_notify ..)
  | @unlink _ k n r h1 h2 h3 => exact ht.quiet (hp.unlink h1) ((xq_notify s .flush k n).trans ⟨rfl, rfl⟩)
  | release k => exact ht.quiet (hp.eq rfl rfl) ⟨rfl, rfl⟩
  | ensure k q h =>
    unfold ensureSource
    split
    · exact ht
    · exact ht.quiet (hp.eq rfl rfl) ⟨rfl, rfl⟩
  | gc h => exact ht.quiet (hp.eq rfl rfl) ⟨rfl, rfl⟩
  | xadd kr h1 h2 h3 h4 =>
    unfold addXroute
    rw [h1]
    refine ⟨Pic.xline hp rfl rfl ?_, fun k => ?_⟩
    · rw [if_pos rfl, ht.x]; show (findXroute s kr.key).map _ = none; rw [h1]; rfl
    · have e : findXroute (emit { s with xroutes := xInsert ⟨kr.key, kr.metric, kr.ifindex, kr.proto⟩ s.xroutes }
          (.notifyXroute .add ⟨kr.key, kr.metric, kr.ifindex, kr.proto⟩)) k = _ :=
        xInsert_find (x := ⟨kr.key, kr.metric, kr.ifindex, kr.proto⟩) h1 k
      show (if k = kr.key then (if NKind.add = .flush then none else some kr.metric) else (picture s.out).xroutes k) =
        (findXroute _ k).map _
      rw [e, if_neg (show ¬ NKind.add = .flush by decide), ht.x k]
      split
      · rfl
      · rfl
  | xdel x h1 h2 =>
    refine ⟨Pic.xline (x := x) (kind := .flush) hp rfl rfl ?_, fun k => ?_⟩
    · rw [if_neg (by decide), ht.x, (findXroute_iff hi.xr).2 ⟨h1, rfl⟩]; rfl
    · show (if k = x.key then (if NKind.flush = .flush then none else some x.metric) else (picture s.out).xroutes k) =
        (List.find? (·.key == k) (s.xroutes.filter (fun y => !(y.key == x.key)))).map _
      rw [find_filter_ne, if_pos (show NKind.flush = .flush from rfl), ht.x k]
      split
      · rfl
      · rfl
  | xmod x m p h1 h2 h3 h4 =>
    refine ⟨Pic.xline (x := { x with metric := m, proto := p }) (kind := .change) hp rfl rfl ?_, fun k => ?_⟩
    · rw [if_neg (by decide), ht.x]
      show ((findXroute s x.key).map _).isSome = true
      rw [(findXroute_iff hi.xr).2 ⟨h1, rfl⟩]; rfl
    · show (if k = x.key then (if NKind.change = .flush then none else some m) else (picture s.out).xroutes k) =
        (List.find? (·.key == k) (s.xroutes.map (fun y => if y.key == x.key then { x with metric := m, proto := p } else y))).map _
      rw [find_mapKey (x := x) (x' := { x with metric := m, proto := p }) rfl h1, if_neg (show ¬ NKind.change = .flush by decide), ht.x k]
      split
      · rfl
      · rfl
  | bump h => exact ht.quiet (hp.eq rfl rfl) ⟨rfl, rfl⟩
  | tick t h => exact ht.quiet (hp.eq rfl rfl) ⟨rfl, rfl⟩
  | cost n v h => exact ht.quiet (hp.eq rfl rfl) ⟨rfl, rfl⟩

theorem Ms.talk {A : Allow} {ex ex' : List SKey} (hR : TalkRel R) (hk : Loose R ∨ KInv c s) (h : Ms c A s ex s' ex') (hi : Inv c s ex)
    (ht : TalkInv R s) : TalkInv R s' ∧ (Loose R ∨ KInv c s') := by
  induction h with
  | refl => exact ⟨ht, hk⟩
  | step h m ih =>
    obtain ⟨h1, h2⟩ := ih
    exact ⟨m.talk hR h2 (h.inv hi) h1, h2.imp_right (m.kinv (h.inv hi).lst)⟩

theorem TalkInv.init (hR : TalkRel R) (now : Timeval) (q : UInt16) (ifs : List Iface) (nc : NeighId → Nat) (rnd : Nat → Nat)
    (kres : Nat → KRes) : TalkInv R (St.init now q ifs nc rnd kres) :=
  ⟨⟨trivial, fun _ _ => rfl, fun _ _ _ _ _ h => by cases h⟩, fun _ => rfl⟩

theorem talk_run (hR : TalkRel R) (now : Timeval) (q : UInt16) (ifs : List Iface) (nc : NeighId → Nat) (rnd : Nat → Nat)
    (kres : Nat → KRes) (hk : Loose R ∨ ∀ i, kres i = .ok) (evs : List Ev) :
    TalkInv R (run c (St.init now q ifs nc rnd kres) evs) := by
  have h0 := TalkInv.init hR now q ifs nc rnd kres
  have hi := Inv.init c now q ifs nc rnd kres
  have hk0 : Loose R ∨ KInv c (St.init now q ifs nc rnd kres) := hk.imp_right fun h => ⟨h, by simp [St.init]⟩
  generalize St.init now q ifs nc rnd kres = s at h0 hi hk0
  unfold run
  induction evs generalizing s with
  | nil => exact h0
  | cons ev evs ih =>
    obtain ⟨h1, h2⟩ := (run_ms c hi ev).talk hR hk0 hi h0
    exact ih _ h1 (hi.step ev) h2

/-! ### A client that connects later -/

/-- What the clients are sent only grows. -/
theorem M.grows {A : Allow} {ex ex' : List SKey} (h : M c A s ex s' ex') (hl : LInv c s.routes) :
    ∃ new, s'.out.filter isLine = new ++ s.out.filter isLine := by
  rcases h.notes hl with ⟨h, -⟩ | ⟨new, e, -⟩
  · refine ⟨[], ?_⟩
    have hs : ∀ i id k q m, (reallySend c s i id k q m).out.filter isLine = s.out.filter isLine := by
      intro i id k q m
      rcases reallySend_eq c s i id k q m with h | ⟨m', h, -⟩
      · rw [h]
      · rw [h]; rfl
    cases h with
    | frame h =>
      have := congrArg (List.filter isLine) h.out
      rw [List.filter_filter, List.filter_filter] at this
      have e : (fun o : Out => isLine o && !o.minor) = isLine := by
        funext o; cases o <;> rfl
      rw [e] at this
      exact this
    | own => exact hs ..
    | retraction => exact hs ..
    | route => exact hs ..
  · exact ⟨new.filter isLine, by rw [e, List.filter_append]⟩

theorem Ms.grows {A : Allow} {ex ex' : List SKey} (h : Ms c A s ex s' ex') (hi : Inv c s ex) :
    ∃ new, s'.out.filter isLine = new ++ s.out.filter isLine := by
  induction h with
  | refl => exact ⟨[], rfl⟩
  | step h m ih =>
    obtain ⟨n1, e1⟩ := ih
    obtain ⟨n2, e2⟩ := m.grows (h.inv hi).lst
    exact ⟨n2 ++ n1, by rw [e2, e1, List.append_assoc]⟩

theorem run_grows (hi : Inv c s []) (evs : List Ev) : ∃ new, (run c s evs).out.filter isLine = new ++ s.out.filter isLine := by
  unfold run
  induction evs generalizing s with
  | nil => exact ⟨[], rfl⟩
  | cons ev evs ih =>
    obtain ⟨n1, e1⟩ := (run_ms c hi ev).grows hi
    obtain ⟨n2, e2⟩ := ih (hi.step ev)
    refine ⟨n2 ++ n1, ?_⟩
    show (List.foldl (Babel.step c) (Babel.step c s ev) evs).out.filter isLine = _
    rw [e2, e1, List.append_assoc]

/-- The same lines after two pasts that left the same picture. -/
theorem picture_same {a b : List Out} (h : picture a = picture b) (new : List Out) : picture (new ++ a) = picture (new ++ b) := by
  induction new with
  | nil => exact h
  | cons o new ih => show (picture (new ++ a)).read o = (picture (new ++ b)).read o; rw [ih]

theorem picture_ext {p q : Picture} (h1 : ∀ k n, p.routes k n = q.routes k n) (h2 : ∀ k, p.xroutes k = q.xroutes k) : p = q := by
  cases p; cases q
  congr
  · funext k n; exact h1 k n
  · funext k; exact h2 k

theorem picture_xadds (l : List Xroute) (rest : List Out) (k : PKey) :
    (picture (l.map (Out.notifyXroute .add) ++ rest)).xroutes k = ((l.find? (·.key == k)).map (·.metric)).or ((picture rest).xroutes k) ∧
    (picture (l.map (Out.notifyXroute .add) ++ rest)).routes = (picture rest).routes := by
  induction l with
  | nil => exact ⟨by simp, rfl⟩
  | cons x l ih =>
    refine ⟨?_, ih.2⟩
    show (if k = x.key then (if NKind.add = .flush then none else some x.metric) else
      (picture (l.map (Out.notifyXroute .add) ++ rest)).xroutes k) = _
    rw [if_neg (show ¬ NKind.add = .flush by decide), List.find?_cons, ih.1]
    by_cases e : k = x.key
    · rw [if_pos e, e]; simp
    · have : (x.key == k) = false := by simpa using fun h => e h.symm
      rw [if_neg e, this]

theorem picture_adds (l : List Route) (rest : List Out) (k : PKey) (n : NeighId) :
    (picture (l.map (Out.notifyRoute .add) ++ rest)).routes k n = ((flatFind l k n).map lineOf).or ((picture rest).routes k n) ∧
    (picture (l.map (Out.notifyRoute .add) ++ rest)).xroutes = (picture rest).xroutes := by
  induction l with
  | nil => exact ⟨by simp [flatFind], rfl⟩
  | cons r l ih =>
    refine ⟨?_, ih.2⟩
    show (if k = r.key ∧ n = r.neigh then (if NKind.add = .flush then none else some (lineOf r)) else
      (picture (l.map (Out.notifyRoute .add) ++ rest)).routes k n) = _
    rw [if_neg (show ¬ NKind.add = .flush by decide), flatFind_cons, ih.1]
    by_cases e : k = r.key ∧ n = r.neigh
    · rw [if_pos e, if_pos ⟨e.1.symm, e.2.symm⟩]; simp
    · rw [if_neg e, if_neg fun h => e ⟨h.1.symm, h.2.symm⟩]

theorem flatFind_reverse {l : List Route} (h : OnePerNeigh l) (k : PKey) (n : NeighId) : flatFind l.reverse k n = flatFind l k n := by
  cases e : flatFind l.reverse k n with
  | none =>
    rw [flatFind_none] at e
    exact (flatFind_none.2 fun r hr => e r (List.mem_reverse.2 hr)).symm
  | some r =>
    obtain ⟨h1, h2, h3⟩ := flatFind_mem e
    rw [← h2, ← h3]
    exact (flatFind_of_mem h (List.mem_reverse.1 h1)).symm

theorem xfind_reverse (h : XInv s.xroutes) (k : PKey) : s.xroutes.reverse.find? (·.key == k) = findXroute s k := by
  cases e : s.xroutes.reverse.find? (·.key == k) with
  | none =>
    rw [List.find?_eq_none] at e
    exact (List.find?_eq_none.2 fun x hx => e x (List.mem_reverse.2 hx)).symm
  | some x =>
    have h1 := List.mem_of_find?_eq_some e
    have h2 := List.find?_some e
    exact ((findXroute_iff h).2 ⟨List.mem_reverse.1 h1, by simpa using h2⟩).symm

/-- The greeting shows the tables as they are. -/
theorem greeting_picture (hi : Inv c s []) :
    (∀ k n, (picture (greeting s)).routes k n = (findRoute s k n).map lineOf) ∧
    (∀ k, (picture (greeting s)).xroutes k = (findXroute s k).map (·.metric)) := by
  have hx : ∀ k, (picture (s.xroutes.reverse.map (Out.notifyXroute .add))).xroutes k = (findXroute s k).map (·.metric) ∧
      (picture (s.xroutes.reverse.map (Out.notifyXroute .add))).routes = Picture.empty.routes := by
    intro k
    have := picture_xadds s.xroutes.reverse [] k
    rw [List.append_nil, xfind_reverse hi.xr] at this
    refine ⟨this.1.trans ?_, this.2⟩
    show Option.or _ none = _
    simp
  refine ⟨fun k n => ?_, fun k => ?_⟩
  · have := (picture_adds s.routes.reverse (s.xroutes.reverse.map (Out.notifyXroute .add)) k n).1
    unfold greeting
    rw [this, (hx k).2, flatFind_reverse hi.lst.one]
    show Option.or _ none = _
    simp [findRoute]
  · have := (picture_adds s.routes.reverse (s.xroutes.reverse.map (Out.notifyXroute .add)) k 0).2
    unfold greeting
    rw [this, (hx k).1]

end

end Babel
