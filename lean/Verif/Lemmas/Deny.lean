import Verif.Lemmas.Reach
/-
The install filter: what is put in the kernel's table, and which routes are selected.
-/
set_option linter.unusedSimpArgs false
set_option linter.unusedVariables false
set_option linter.unusedSectionVars false
namespace Babel
open Spec

/-! ### The kernel's table -/

theorem kernelAdd_mem {c : Cfg} {s : St} {t : Nat} {k : PKey} {g : Bytes} {i : IfId} {m : Nat}
    {e : KEntry} (h : e ∈ (kernelAdd c s t k g i m).2.fib) : e ∈ s.fib ∨ e.key = k := by
  unfold kernelAdd at h
  split at h
  · exact .inl h
  · split at h
    · exact .inl h
    · simp only at h
      split at h
      · rcases List.mem_cons.1 h with h | h
        · right; rw [h]; rfl
        · exact .inl h
      · exact .inl h

theorem kernelFlush_mem {c : Cfg} {s : St} {t : Nat} {k : PKey} {g : Bytes} {i : IfId} {m : Nat}
    {e : KEntry} (h : e ∈ (kernelFlush c s t k g i m).2.fib) : e ∈ s.fib := by
  unfold kernelFlush at h
  split at h
  · exact h
  · split at h
    · exact h
    · simp only at h
      split at h
      · exact List.mem_of_mem_erase h
      · exact h

theorem kernelModify_mem {c : Cfg} {s : St} {t : Nat} {k : PKey} {g : Bytes} {i : IfId} {m : Nat}
    {g' : Bytes} {i' : IfId} {m' : Nat} {e : KEntry}
    (h : e ∈ (kernelModify c s t k g i m g' i' m').2.fib) : e ∈ s.fib ∨ e.key = k := by
  unfold kernelModify at h
  split at h
  · exact .inl h
  · split at h
    · exact .inl h
    · rcases kernelAdd_mem h with h | h
      · exact .inl (kernelFlush_mem h)
      · exact .inr h

theorem changeAdd_admits {c : Cfg} {s : St} {r : Route} {m : Nat}
    (h : (changeAdd c s r m).1 ≠ .fail) : (c.installFilter r.id r.key (c.ifOf r.neigh)).1 < INFINITY := by
  unfold changeAdd at h
  split at h
  · simp at h
  · omega

theorem changeAdd_mem {c : Cfg} {s : St} {r : Route} {m : Nat} {e : KEntry}
    (h : e ∈ (changeAdd c s r m).2.fib) : e ∈ s.fib ∨
      (e.key = r.key ∧ (c.installFilter r.id r.key (c.ifOf r.neigh)).1 < INFINITY) := by
  unfold changeAdd at h
  split at h
  · exact .inl h
  · rcases kernelAdd_mem h with h | h
    · exact .inl h
    · exact .inr ⟨h, by omega⟩

/-! ### The invariant -/

/-- The install filter admits the destination from some router and through some interface. -/
def Adm (c : Cfg) (k : PKey) : Prop := ∃ id i, (c.installFilter id k i).1 < INFINITY

/-- Every destination in use is admitted by the install filter. -/
structure Den (c : Cfg) (s : St) : Prop where
  fib : ∀ e ∈ s.fib, Adm c e.key
  sel : ∀ k n, Sel s.routes k n → Adm c k

theorem Den.of {c : Cfg} {s s' : St} (h : Den c s) (hf : s'.fib = s.fib)
    (hr : ∀ k n, Sel s'.routes k n → Sel s.routes k n) : Den c s' :=
  ⟨fun e he => h.fib e (by rw [← hf]; exact he), fun k n hs => h.sel k n (hr k n hs)⟩

theorem uninstall_fib {c : Cfg} {s : St} {k : PKey} {n : NeighId} {e : KEntry}
    (h : e ∈ (uninstallRoute c s k n).fib) : e ∈ s.fib := by
  cases hr : findRoute s k n with
  | none => rw [uninstallRoute_noop (by simp [hr])] at h; exact h
  | some r =>
    cases hi : r.installed with
    | false => rw [uninstallRoute_noop (by rw [hr]; simp [hi])] at h; exact h
    | true =>
      rw [uninstallRoute_eq hr hi] at h
      simp only at h
      split at h
      · rw [notifyRoute_fib] at h
        exact kernelFlush_mem (s := modRoute s k n (fun r => { r with installed := false })) h
      · exact kernelFlush_mem (s := modRoute s k n (fun r => { r with installed := false })) h

theorem metric_fib {c : Cfg} {s : St} {k : PKey} {n : NeighId} {a b d : Nat} {e : KEntry}
    (h : e ∈ (changeRouteMetric c s k n a b d).fib) : e ∈ s.fib ∨ (e.key = k ∧ Sel s.routes k n) := by
  cases hr : findRoute s k n with
  | none => rw [changeRouteMetric_noop _ _ _ hr] at h; exact .inl h
  | some r =>
    obtain ⟨hm, hk, hn⟩ := findRoute_mem hr
    rcases changeRouteMetric_cases (c := c) a b d hr with ⟨hi, _, e1⟩ | ⟨s1, h1, e1⟩ <;> rw [e1] at h
    · rcases kernelModify_mem h with h | h
      · exact .inl h
      · exact .inr ⟨h.trans hk, r, hm, hk, hn, hi⟩
    · rw [notifyRoute_fib] at h
      have h : e ∈ (smoothRoute c s1 k n).2.fib := h
      rw [(frame_smooth c s1 k n).fib] at h
      rcases h1 with ⟨hi, _, e2⟩ | ⟨_, e2⟩
      · have h3 : s1 = (changeModify c s r (metricToKernel c (routeMetric r)) r.nexthop (c.ifOf r.neigh)
            (metricToKernel c (min (a + b + d) INFINITY))).2 := by rw [e2]
        rw [h3] at h
        rcases kernelModify_mem h with h | h
        · exact .inl h
        · exact .inr ⟨h.trans hk, r, hm, hk, hn, hi⟩
      · rw [e2] at h; exact .inl h

theorem Den.metric {c : Cfg} {s : St} (h : Den c s) (k : PKey) (n : NeighId) (a b d : Nat) :
    Den c (changeRouteMetric c s k n a b d) := by
  refine ⟨fun e he => ?_, fun k' n' hs => h.sel k' n' (Sel.metric hs)⟩
  rcases metric_fib he with h1 | ⟨h1, h2⟩
  · exact h.fib e h1
  · rw [h1]; exact h.sel k n h2

theorem Den.uninstall {c : Cfg} {s : St} (h : Den c s) (k : PKey) (n : NeighId) :
    Den c (uninstallRoute c s k n) :=
  ⟨fun e he => h.fib e (uninstall_fib he), fun k' n' hs => h.sel k' n' (Sel.uninstall hs)⟩

theorem M.den {c : Cfg} {A : Allow} {s s' : St} {ex ex' : List SKey}
    (h : M c A s ex s' ex') (hl : LInv c s.routes) (hd : Den c s) : Den c s' := by
  cases h with
  | q h => exact hd.of h.same.fib (fun k n hs => hs.core h.same.routes)
  | @install s k n r h1 h2 h3 h4 =>
    obtain ⟨hm, hk, hn⟩ := findRoute_mem h1
    have hf : ∀ e ∈ (changeAdd c s r (metricToKernel c (routeMetric r))).2.fib, Adm c e.key := by
      intro e he
      rcases changeAdd_mem he with h | ⟨h, ha⟩
      · exact hd.fib e h
      · rw [h]; exact ⟨_, _, ha⟩
    rcases installRoute_cases (c := c) h1 h2 h3 with ⟨_, e⟩ | ⟨_, _, e⟩ | ⟨_, hne, e⟩ <;> rw [e]
    · exact hd.of rfl (fun _ _ hs => hs)
    · exact ⟨hf, fun k' n' hs => hd.sel k' n' (by rw [(konly_changeAdd ..).routes] at hs; exact hs)⟩
    · refine ⟨fun e he => ?_, fun k' n' hs => ?_⟩
      · rw [notifyRoute_fib] at he; exact hf e he
      · rw [notifyRoute_routes] at hs
        rcases Sel.mark hs with h | ⟨e1, e2⟩
        · rw [(konly_changeAdd ..).routes] at h; exact hd.sel k' n' h
        · rw [e1, ← hk]; exact ⟨_, _, changeAdd_admits hne⟩
  | @switch s k n r o ho hr h3 hf h4 h5 h6 =>
    obtain ⟨hm, hok, hoi⟩ := findInstalled_mem ho
    have hfo : findRoute s k o.neigh = some o := by rw [← hok]; exact findRoute_of_mem hl hm
    have ha : Adm c k := hd.sel k o.neigh ⟨o, hm, hok, rfl, hoi⟩
    have hfib : ∀ e ∈ (changeModify c s o (metricToKernel c (routeMetric o)) r.nexthop (c.ifOf r.neigh)
        (metricToKernel c (routeMetric r))).2.fib, Adm c e.key := by
      intro e he
      rcases kernelModify_mem he with h | h
      · exact hd.fib e h
      · rw [h, hok]; exact ha
    rcases switchRoutes_cases (c := c) hfo hr hf with ⟨_, e⟩ | ⟨_, _, e⟩ | ⟨_, _, e⟩ <;> rw [e]
    · exact hd
    · exact ⟨hfib, fun k' n' hs => hd.sel k' n' (by rw [(konly_changeModify ..).routes] at hs; exact hs)⟩
    · refine ⟨fun e he => ?_, fun k' n' hs => ?_⟩
      · rw [notifyRoute_fib, notifyRoute_fib] at he; exact hfib e he
      · rw [notifyRoute_routes, notifyRoute_routes] at hs
        rcases Sel.mark hs with h | ⟨e1, e2⟩
        · have h := Sel.modify (keepsId_installed false) (fun r hr => by simp at hr) h
          rw [(konly_changeModify ..).routes] at h; exact hd.sel k' n' h
        · rw [e1]; exact ha
  | uninstall k n => exact hd.uninstall k n
  | recost h1 h2 => exact hd.metric ..
  | retract k n => exact hd.metric ..
  | @expire s k n r q h1 h2 h3 =>
    have : Den c (modRoute s k n (fun r => { r with seqno := q })) :=
      hd.of rfl (fun k' n' hs => Sel.modify (f := fun r => { r with seqno := q })
        (fun _ => ⟨rfl, rfl⟩) (fun _ e => e) hs)
    exact this.metric ..
  | @apply s r id q refm add hold u h1 h2 h3 h4 h5 h6 =>
    unfold applyUpdate
    simp only
    have h0 : Den c (if u = true then uninstallRoute c s r.key r.neigh else s) := by
      split
      · exact hd.uninstall ..
      · exact hd
    have h1 : Den c (modRoute (retainSource (if u = true then uninstallRoute c s r.key r.neigh else s)
        ⟨id, r.key⟩) r.key r.neigh (updRoute s.now.sec id q refm)) :=
      h0.of rfl (fun k' n' hs => Sel.modify (keepsId_updRoute _ _ _ _) (fun r hr => hr) hs)
    exact (h1.metric r.key r.neigh refm (s.ncost r.neigh) add).of rfl
      (fun k' n' hs => Sel.modify (keepsId_hold _) (fun r hr => hr) hs)
  | insert k n id q refm add hold nh h1 h2 h3 h4 h5 h6 h7 =>
    refine hd.of (by rw [notifyRoute_fib]; rfl) (fun k' n' hs => ?_)
    rw [notifyRoute_routes] at hs
    exact Sel.insert (by rfl) hs
  | @unlink s k n r h1 h2 hA' =>
    refine hd.of (notifyRoute_fib s .flush k n) (fun k' n' hs => ?_)
    have h : Sel (flatRemove (notifyRoute s .flush k n).routes k n) k' n' := hs
    rw [notifyRoute_routes] at h
    exact Sel.remove h
  | release k => exact hd.of rfl (fun _ _ hs => hs)
  | ensure k q =>
    have h1 : (ensureSource s k q).routes = s.routes := (ensure_routes ..).1
    have h2 : (ensureSource s k q).fib = s.fib := by unfold ensureSource; split <;> rfl
    exact hd.of h2 (fun _ _ hs => by rw [h1] at hs; exact hs)
  | gc hA' => exact hd.of rfl (fun _ _ hs => hs)
  | xadd kr h1 h2 h3 hA' => unfold addXroute; rw [h1]; exact hd.of rfl (fun _ _ hs => hs)
  | xdel x hx hA' => exact hd.of rfl (fun _ _ hs => hs)
  | xmod x m p hx hm _ hA' => exact hd.of rfl (fun _ _ hs => hs)
  | bump _ => exact hd.of rfl (fun _ _ hs => hs)
  | tick t _ => exact hd.of rfl (fun _ _ hs => hs)
  | cost n v _ => exact hd.of rfl (fun _ _ hs => hs)

theorem Ms.den {c : Cfg} {A : Allow} {s s' : St} {ex ex' : List SKey}
    (h : Ms c A s ex s' ex') (hl : Inv c s ex) (hd : Den c s) : Den c s' := by
  induction h with
  | refl => exact hd
  | step h m ih => exact m.den (h.inv hl).lst ih

theorem Spec.Reachable.den {c : Cfg} {s : St} (h : Reachable c s) : Den c s := by
  induction h with
  | init now q ifs nc rand kres =>
    exact ⟨fun e he => absurd he (by simp [St.init]), by rintro k n ⟨r, hr, _⟩; simp [St.init] at hr⟩
  | step ev hr ih => exact (run_ms c hr.inv ev).den hr.inv ih
  | take _ ih => exact ⟨ih.fib, ih.sel⟩

/-! ### Routes selected when there was none -/

/-- No selection was recorded. -/
structure Plain (s s' : St) : Prop where
  get : ∀ r fd t old, Out.selected r fd t old ∈ s'.out → Out.selected r fd t old ∈ s.out

theorem Plain.eq {s s' : St} (h : s'.out = s.out) : Plain s s' :=
  ⟨fun r fd t old ho => by rwa [h] at ho⟩
theorem Plain.trans {a b d : St} (h : Plain a b) (g : Plain b d) : Plain a d :=
  ⟨fun r fd t old ho => h.get r fd t old (g.get r fd t old ho)⟩
theorem Plain.after {a b d : St} (g : Plain b d) (h : b.out = a.out) : Plain a d := (Plain.eq h).trans g
theorem plain_emit (s : St) (o : Out) (h : ∀ r fd t old, o ≠ .selected r fd t old) : Plain s (emit s o) := by
  constructor
  intro r fd t old ho
  rcases List.mem_cons.1 ho with ho | ho
  · exact absurd ho.symm (h r fd t old)
  · exact ho
theorem plain_notify (s : St) (kd : NKind) (k : PKey) (n : NeighId) : Plain s (notifyRoute s kd k n) := by
  unfold notifyRoute
  split
  · exact plain_emit s _ (by simp)
  · exact .eq rfl

theorem plain_uninstall (c : Cfg) (s : St) (k : PKey) (n : NeighId) : Plain s (uninstallRoute c s k n) := by
  cases h : findRoute s k n with
  | none => rw [uninstallRoute_noop (by simp [h])]; exact .eq rfl
  | some r =>
    cases hi : r.installed with
    | false => rw [uninstallRoute_noop (by rw [h]; simp [hi])]; exact .eq rfl
    | true =>
      rw [uninstallRoute_eq h hi]
      simp only
      have hk : Plain s (changeFlush c (modRoute s k n (fun r => { r with installed := false })) r
          (metricToKernel c (routeMetric r))).2 :=
        .eq (konly_changeFlush ..).out
      split
      · exact hk.trans (plain_notify ..)
      · exact hk

theorem plain_metric (c : Cfg) (s : St) (k : PKey) (n : NeighId) (refm cost add : Nat) :
    Plain s (changeRouteMetric c s k n refm cost add) := by
  cases h : findRoute s k n with
  | none => rw [changeRouteMetric_noop _ _ _ h]; exact .eq rfl
  | some r =>
    rcases changeRouteMetric_cases (c := c) refm cost add h with ⟨_, _, e⟩ | ⟨s1, h1, e⟩ <;> rw [e]
    · exact .eq (konly_changeModify ..).out
    · have hs1 : Plain s s1 := by
        rcases h1 with ⟨_, _, e1⟩ | ⟨_, e1⟩
        · have := (konly_changeModify c s r (metricToKernel c (routeMetric r)) r.nexthop
            (c.ifOf r.neigh) (metricToKernel c (min (refm + cost + add) INFINITY))).out
          rw [e1] at this; exact .eq this
        · rw [e1]; exact .eq rfl
      have hs2 : Plain s1 (smoothRoute c s1 k n).2 := by
        unfold smoothRoute; split <;> exact .eq rfl
      exact hs1.trans (hs2.trans ((plain_notify ..).after rfl))

theorem plain_apply (c : Cfg) (s : St) (k : PKey) (n : NeighId) (id : Bytes) (q : UInt16)
    (refm add hold : Nat) (u : Bool) : Plain s (applyUpdate c s k n id q refm add hold u) := by
  unfold applyUpdate
  simp only
  have h1 : Plain s (if u = true then uninstallRoute c s k n else s) := by
    split
    · exact plain_uninstall ..
    · exact .eq rfl
  refine h1.trans ((Plain.trans (b := modRoute (retainSource (if u = true then uninstallRoute c s k n
    else s) ⟨id, k⟩) k n (updRoute s.now.sec id q refm)) (.eq rfl) ?_))
  exact (plain_metric ..).trans (.eq rfl)

/-- A route selected when no other route was is admitted by the install filter. -/
theorem M.admits {c : Cfg} {A : Allow} {s s' : St} {ex ex' : List SKey}
    (h : M c A s ex s' ex') (hl : LInv c s.routes) {r : Route} {fd : Option Source} {t : Int}
    (ho : Out.selected r fd t none ∈ s'.out) : Out.selected r fd t none ∈ s.out ∨
      (c.installFilter r.id r.key (c.ifOf r.neigh)).1 < INFINITY := by
  have pl : Plain s s' → Out.selected r fd t none ∈ s.out ∨
      (c.installFilter r.id r.key (c.ifOf r.neigh)).1 < INFINITY := fun h => .inl (h.get _ _ _ _ ho)
  cases h with
  | q h =>
    rcases h.news ho rfl with h7 | ⟨i, x, _, _, _, h7⟩ | ⟨i, x, _, _, _, h7⟩ | ⟨i, x, _, _, _, _, h7, _⟩
    · exact .inl h7
    all_goals cases h7
  | @install s k n r' h1 h2 h3 h4 =>
    rcases installRoute_cases (c := c) h1 h2 h3 with ⟨_, e⟩ | ⟨_, _, e⟩ | ⟨_, hne, e⟩ <;> rw [e] at ho pl
    · exact pl (plain_emit s _ (by simp))
    · exact pl (.eq (konly_changeAdd ..).out)
    · have ho := (plain_notify _ _ _ _).get _ _ _ _ ho
      have ho : _ ∈ selectionLog _ k n none ++ _ := ho
      rcases List.mem_append.1 ho with ho | ho
      · unfold selectionLog at ho
        split at ho
        · simp at ho
        · next r2 e2 =>
          simp only [List.mem_singleton] at ho
          cases ho
          have : r = r' := by
            unfold findRoute at h1 e2
            rw [(konly_changeAdd ..).routes, h1] at e2
            exact (Option.some.inj e2).symm
          rw [this]; exact .inr (changeAdd_admits hne)
      · rw [(konly_changeAdd ..).out] at ho; exact .inl ho
  | @switch s k n r' o hio hr h3 hf h4 h5 h6 =>
    obtain ⟨hm, hok, hoi⟩ := findInstalled_mem hio
    have hfo : findRoute s k o.neigh = some o := by rw [← hok]; exact findRoute_of_mem hl hm
    rcases switchRoutes_cases (c := c) hfo hr hf with ⟨_, e⟩ | ⟨_, _, e⟩ | ⟨_, _, e⟩ <;> rw [e] at ho pl
    · exact .inl ho
    · exact pl (.eq (konly_changeModify ..).out)
    · have ho := (plain_notify _ _ _ _).get _ _ _ _ ((plain_notify _ _ _ _).get _ _ _ _ ho)
      have ho : _ ∈ selectionLog _ k n (some o) ++ _ := ho
      rcases List.mem_append.1 ho with ho | ho
      · unfold selectionLog at ho
        split at ho
        · simp at ho
        · simp only [List.mem_singleton] at ho
          cases ho
      · have ho : _ ∈ (changeModify c s o (metricToKernel c (routeMetric o)) r'.nexthop (c.ifOf r'.neigh)
          (metricToKernel c (routeMetric r'))).2.out := ho
        rw [(konly_changeModify ..).out] at ho; exact .inl ho
  | uninstall k n => exact pl (plain_uninstall ..)
  | recost h1 h2 => exact pl (plain_metric ..)
  | retract k n => exact pl (plain_metric ..)
  | expire q h1 h2 h3 => exact pl ((plain_metric ..).after rfl)
  | apply id q refm add hold u h1 h2 h3 h4 h5 h6 => exact pl (plain_apply ..)
  | insert k n id q refm add hold nh h1 h2 h3 h4 h5 h6 h7 =>
    exact pl ((plain_notify ..).after rfl)
  | unlink h1 h2 hA' => exact pl ((plain_notify ..).trans (.eq rfl))
  | release k => exact pl (.eq rfl)
  | ensure k' q =>
    refine pl (.eq ?_)
    unfold ensureSource
    split <;> rfl
  | gc hA' => exact pl (.eq rfl)
  | xadd kr h1 h2 h3 hA' =>
    apply pl
    unfold addXroute; rw [h1]
    exact Plain.after (plain_emit _ _ (fun _ _ _ _ e => by cases e)) rfl
  | xdel x hx hA' => exact pl ((plain_emit s (.notifyXroute .flush x) (by simp)).trans (.eq rfl))
  | xmod x m p hx hm _ hA' => exact pl (Plain.after (plain_emit _ _ (fun _ _ _ _ e => by cases e)) rfl)
  | bump _ => exact pl (.eq rfl)
  | tick t h => exact pl (.eq rfl)
  | cost n v h => exact pl (.eq rfl)

theorem Ms.admits {c : Cfg} {A : Allow} {s s' : St} {ex ex' : List SKey}
    (h : Ms c A s ex s' ex') (hl : Inv c s ex) {r : Route} {fd : Option Source} {t : Int}
    (ho : Out.selected r fd t none ∈ s'.out) : Out.selected r fd t none ∈ s.out ∨
      (c.installFilter r.id r.key (c.ifOf r.neigh)).1 < INFINITY := by
  induction h with
  | refl => exact .inl ho
  | step h m ih =>
    rcases m.admits (h.inv hl).lst ho with h1 | h1
    · exact ih h1
    · exact .inr h1

end Babel
