import Verif.Lemmas.Outs
/-
Every selection is recorded.
-/
set_option linter.unusedSimpArgs false
set_option linter.unusedVariables false
set_option linter.unusedSectionVars false
namespace Babel
open Spec

/-- The route to `k` through `n` is selected. -/
def Sel (l : List Route) (k : PKey) (n : NeighId) : Prop :=
  ∃ r ∈ l, r.key = k ∧ r.neigh = n ∧ r.installed = true

theorem Sel.core {l l' : List Route} (e : l'.map Route.core = l.map Route.core) {k n} (h : Sel l' k n) :
    Sel l k n := by
  obtain ⟨r, h1, h2, h3, h4⟩ := h
  obtain ⟨r', h5, h6⟩ := mem_core e h1
  refine ⟨r', h5, ?_⟩
  have := congrArg Route.key h6
  have h7 := congrArg Route.neigh h6
  have h8 := congrArg Route.installed h6
  simp only [Route.core] at this h7 h8
  simp_all

theorem Sel.modify {l : List Route} {k k' n n'} {f : Route → Route} (hf : KeepsId f)
    (hi : ∀ r, (f r).installed = true → r.installed = true) (h : Sel (flatModify l k' n' f) k n) :
    Sel l k n := by
  obtain ⟨r, h1, h2, h3, h4⟩ := h
  unfold flatModify at h1
  obtain ⟨a, ha, e⟩ := List.mem_map.1 h1
  split at e
  · subst e
    exact ⟨a, ha, by rw [← (hf a).1]; exact h2, by rw [← (hf a).2]; exact h3, hi _ h4⟩
  · subst e; exact ⟨a, ha, h2, h3, h4⟩

theorem Sel.mark {l : List Route} {k k' n n'}
    (h : Sel (flatMove (flatModify l k' n' (fun r => { r with installed := true })) k' n') k n) :
    Sel l k n ∨ (k = k' ∧ n = n') := by
  obtain ⟨r, h1, h2, h3, h4⟩ := h
  have h1 := mem_flatMove h1
  unfold flatModify at h1
  obtain ⟨a, ha, e⟩ := List.mem_map.1 h1
  split at e
  · next hc =>
    subst e
    simp only [Bool.and_eq_true, beq_iff_eq] at hc
    right
    exact ⟨by rw [← h2]; exact hc.1, by rw [← h3]; exact hc.2⟩
  · subst e; exact .inl ⟨a, ha, h2, h3, h4⟩

theorem Sel.remove {l : List Route} {k k' n n'} (h : Sel (flatRemove l k' n') k n) : Sel l k n := by
  obtain ⟨r, h1, h2⟩ := h
  exact ⟨r, (List.mem_filter.1 h1).1, h2⟩

theorem Sel.insert {l : List Route} {x : Route} {k n} (hx : x.installed = false)
    (h : Sel (flatInsert l x) k n) : Sel l k n := by
  obtain ⟨r, h1, h2, h3, h4⟩ := h
  unfold flatInsert at h1
  rcases List.mem_append.1 h1 with h | h
  · exact ⟨r, h, h2, h3, h4⟩
  · simp only [List.mem_singleton] at h
    subst h; rw [hx] at h4; simp at h4

theorem setMetric_installed (c : Cfg) (t : Int) (a b d : Nat) (r : Route) :
    (setMetric c t a b d r).installed = r.installed := by
  unfold setMetric; simp only; split <;> rfl

theorem Sel.metric {c : Cfg} {s : St} {k n k' n'} {a b d : Nat}
    (h : Sel (changeRouteMetric c s k' n' a b d).routes k n) : Sel s.routes k n := by
  cases hr : findRoute s k' n' with
  | none => rw [changeRouteMetric_noop _ _ _ hr] at h; exact h
  | some r =>
    rcases changeRouteMetric_cases (c := c) a b d hr with ⟨_, _, e⟩ | ⟨s1, h1, e⟩ <;> rw [e] at h
    · rw [(konly_changeModify ..).routes] at h; exact h
    · rw [notifyRoute_routes] at h
      have h := Sel.modify (keepsId_setMetric c s.now.sec a b d) (fun r hr => by rwa [setMetric_installed] at hr) h
      have h := Sel.core (frame_smooth c s1 k' n').routes h
      rcases h1 with ⟨_, _, e1⟩ | ⟨_, e1⟩
      · have := (konly_changeModify c s r (metricToKernel c (routeMetric r)) r.nexthop
          (c.ifOf r.neigh) (metricToKernel c (min (a + b + d) INFINITY))).routes
        rw [e1] at this; rw [this] at h; exact h
      · rw [e1] at h; exact h

theorem Sel.uninstall {c : Cfg} {s : St} {k n k' n'}
    (h : Sel (uninstallRoute c s k' n').routes k n) : Sel s.routes k n := by
  rcases uninstallRoute_routes c s k' n' with ⟨e, _⟩ | e <;> rw [e] at h
  · exact h
  · exact Sel.modify (keepsId_installed false) (fun r hr => by simp at hr) h

theorem Sel.apply {c : Cfg} {s : St} {k n k' n'} {id : Bytes} {q : UInt16} {a b d : Nat} {u : Bool}
    (h : Sel (applyUpdate c s k' n' id q a b d u).routes k n) : Sel s.routes k n := by
  unfold applyUpdate at h
  simp only at h
  have h := Sel.modify (keepsId_hold _) (fun r hr => hr) h
  have h := Sel.metric h
  have h := Sel.modify (keepsId_updRoute _ _ _ _) (fun r hr => hr) h
  have h : Sel (if u = true then uninstallRoute c s k' n' else s).routes k n := h
  split at h
  · exact Sel.uninstall h
  · exact h

/-- A selection of the route to `k` through `n` at the current time was recorded. -/
def Logged (s : St) (k : PKey) (n : NeighId) : Prop :=
  ∃ r fd old, Out.selected r fd s.now.sec old ∈ s.out ∧ r.key = k ∧ r.neigh = n

theorem logged_notify {s : St} {k : PKey} {n : NeighId} (h : Logged s k n) (kd : NKind) (k' n') :
    Logged (notifyRoute s kd k' n') k n := by
  obtain ⟨r, fd, old, h1, h2⟩ := h
  refine ⟨r, fd, old, ?_, h2⟩
  rw [notifyRoute_now]
  obtain ⟨new, e, _⟩ := notes_notify s kd k' n'
  rw [e]; exact List.mem_append.2 (.inr h1)

theorem logged_mark {old : Option Route} {s : St} {k : PKey} {n : NeighId} {r : Route} (h : findRoute s k n = some r) :
    Logged (markInstalled s k n old) k n := by
  refine ⟨r, findSource s r.skey, old, ?_, (findRoute_mem h).2⟩
  show _ ∈ selectionLog s k n old ++ s.out
  unfold selectionLog
  rw [h]
  exact List.mem_append.2 (.inl (by simp; rfl))

theorem M.sel {c : Cfg} {A : Allow} {s s' : St} {ex ex' : List SKey}
    (h : M c A s ex s' ex') (hl : LInv c s.routes) {k : PKey} {n : NeighId}
    (hs : Sel s'.routes k n) : Sel s.routes k n ∨ Logged s' k n := by
  cases h with
  | q h => exact .inl (hs.core h.same.routes)
  | @install s k' n' r h1 h2 h3 h4 =>
    rcases installRoute_cases (c := c) h1 h2 h3 with ⟨_, e⟩ | ⟨_, _, e⟩ | ⟨_, _, e⟩ <;> rw [e] at hs ⊢
    · exact .inl hs
    · rw [(konly_changeAdd ..).routes] at hs; exact .inl hs
    · rw [notifyRoute_routes] at hs
      rcases Sel.mark hs with h | ⟨e1, e2⟩
      · rw [(konly_changeAdd ..).routes] at h; exact .inl h
      · subst e1 e2
        right
        apply logged_notify
        refine logged_mark (r := r) ?_
        unfold findRoute at h1 ⊢
        rw [(konly_changeAdd ..).routes]; exact h1
  | @switch s k' n' r o ho hr h3 hf h4 h5 h6 =>
    obtain ⟨hm, hok, hoi⟩ := findInstalled_mem ho
    have hfo : findRoute s k' o.neigh = some o := by rw [← hok]; exact findRoute_of_mem hl hm
    rcases switchRoutes_cases (c := c) hfo hr hf with ⟨_, e⟩ | ⟨_, _, e⟩ | ⟨_, _, e⟩ <;> rw [e] at hs ⊢
    · exact .inl hs
    · rw [(konly_changeModify ..).routes] at hs; exact .inl hs
    · rw [notifyRoute_routes, notifyRoute_routes] at hs
      rcases Sel.mark hs with h | ⟨e1, e2⟩
      · have h := Sel.modify (keepsId_installed false) (fun r hr => by simp at hr) h
        rw [(konly_changeModify ..).routes] at h; exact .inl h
      · subst e1 e2
        right
        apply logged_notify
        apply logged_notify
        have hne : n ≠ o.neigh := by
          intro e; rw [e] at hr; rw [hfo] at hr; cases hr; simp_all
        refine logged_mark (r := r) ?_
        have e2 := findRoute_modRoute (changeModify c s o (metricToKernel c (routeMetric o)) r.nexthop
          (c.ifOf r.neigh) (metricToKernel c (routeMetric r))).2 k k o.neigh n
          (fun r => { r with installed := false }) (fun _ => ⟨rfl, rfl⟩)
        rw [e2, if_neg (by simp [hne])]
        unfold findRoute at hr ⊢
        rw [(konly_changeModify ..).routes]; exact hr
  | uninstall k n => exact .inl (Sel.uninstall hs)
  | recost h1 h2 => exact .inl (Sel.metric hs)
  | retract k n => exact .inl (Sel.metric hs)
  | @expire s k n r q h1 h2 h3 =>
    exact .inl (Sel.modify (f := fun r => { r with seqno := q }) (fun _ => ⟨rfl, rfl⟩) (fun _ e => e)
      (Sel.metric hs))
  | apply id q refm add hold u h1 h2 h3 h4 h5 h6 => exact .inl (Sel.apply hs)
  | insert k n id q refm add hold nh h1 h2 h3 h4 h5 h6 h7 =>
    rw [notifyRoute_routes] at hs
    exact .inl (Sel.insert (by rfl) hs)
  | unlink h1 h2 hA' =>
    left
    have h : Sel (flatRemove (notifyRoute s .flush _ _).routes _ _) k n := hs
    rw [notifyRoute_routes] at h
    exact Sel.remove h
  | release k => exact .inl hs
  | ensure k' q =>
    have := (ensure_routes s k' q).1
    rw [this] at hs; exact .inl hs
  | gc hA' => exact .inl hs
  | xadd kr h1 h2 h3 hA' => unfold addXroute at hs; rw [h1] at hs; exact .inl hs
  | xdel x hx hA' => exact .inl hs
  | xmod x m p hx hm _ hA' => exact .inl hs
  | bump _ => exact .inl hs
  | tick t h => exact .inl hs
  | cost n v h => exact .inl hs

theorem QM.now_eq {c : Cfg} {s s' : St} (h : QM c s s') : s'.now = s.now := h.same.now

theorem M.now {c : Cfg} {A : Allow} (hA : ¬ A.env) {s s' : St} {ex ex' : List SKey}
    (h : M c A s ex s' ex') (hl : LInv c s.routes) : s'.now = s.now := by
  cases h with
  | q h => exact h.now_eq
  | install h1 h2 h3 h4 => exact (keep_install c _ _ _ h1 h2 h3).now
  | @switch s k n r o ho hr h3 hf h4 h5 h6 =>
    obtain ⟨hm, hok, hoi⟩ := findInstalled_mem ho
    have hfo : findRoute s k o.neigh = some o := by rw [← hok]; exact findRoute_of_mem hl hm
    exact (keep_switch c s k o.neigh n hfo hr hf).now
  | uninstall k n => exact (keep_uninstall c s k n).now
  | recost h1 h2 => exact (keep_metric ..).now
  | retract k n => exact (keep_metric ..).now
  | expire q h1 h2 h3 => exact (keep_metric ..).now
  | apply id q refm add hold u h1 h2 h3 h4 h5 h6 => exact (applyUpdate_keep ..).2
  | insert k n id q refm add hold nh h1 h2 h3 h4 h5 h6 h7 => rw [notifyRoute_now]; rfl
  | unlink h1 h2 hA' =>
    show (notifyRoute s .flush _ _).now = _
    rw [notifyRoute_now]
  | release k => rfl
  | ensure k' q => exact (ensure_routes s k' q).2.1
  | gc hA' => rfl
  | xadd kr h1 h2 h3 hA' => unfold addXroute; rw [h1]; rfl
  | xdel x hx hA' => rfl
  | xmod x m p hx hm _ hA' => rfl
  | bump _ => rfl
  | tick t h => exact absurd h hA
  | cost n v h => exact absurd h hA

theorem Ms.now {c : Cfg} {A : Allow} (hA : ¬ A.env) {s s' : St} {ex ex' : List SKey}
    (h : Ms c A s ex s' ex') (hl : Inv c s ex) : s'.now = s.now := by
  induction h with
  | refl => rfl
  | step h m ih => rw [m.now hA (h.inv hl).lst, ih]

theorem Ms.sel {c : Cfg} {A : Allow} (hA : ¬ A.env) {s s' : St} {ex ex' : List SKey}
    (h : Ms c A s ex s' ex') (hl : Inv c s ex) {k : PKey} {n : NeighId}
    (hs : Sel s'.routes k n) : Sel s.routes k n ∨ Logged s' k n := by
  induction h with
  | refl => exact .inl hs
  | step h m ih =>
    have hi := (h.inv hl).lst
    rcases m.sel hi hs with h1 | h1
    · rcases ih h1 with h2 | ⟨r, fd, old, h2, h3⟩
      · exact .inl h2
      · refine .inr ⟨r, fd, old, ?_, h3⟩
        rw [m.now hA hi]
        exact m.outMono hi rfl h2
    · exact .inr h1

end Babel
