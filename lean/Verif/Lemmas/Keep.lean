import Verif.Lemmas.Sel
/-
What events that do not concern a table leave alone.
-/
set_option linter.unusedSimpArgs false
set_option linter.unusedVariables false
set_option linter.unusedSectionVars false
namespace Babel
open Spec

/-- The part of a route that is only changed by updates. -/
def Route.ident (r : Route) : PKey × NeighId × Bytes × Bytes × Int × Nat :=
  (r.key, r.neigh, r.nexthop, r.id, r.time, r.holdTime)

theorem ident_core {l l' : List Route} (e : l'.map Route.core = l.map Route.core) :
    l'.map Route.ident = l.map Route.ident := by
  have : Route.ident = Route.ident ∘ Route.core := rfl
  rw [this, ← List.map_map, e, List.map_map]

theorem ident_modify (l : List Route) (k : PKey) (n : NeighId) (f : Route → Route)
    (hf : ∀ r, (f r).ident = r.ident) : (flatModify l k n f).map Route.ident = l.map Route.ident := by
  simp only [flatModify, List.map_map]
  apply List.map_congr_left
  intro r _
  simp only [Function.comp]
  split
  · exact hf r
  · rfl

theorem filter_perm_cons {l : List Route} {k : PKey} {n : NeighId} {r : Route} (hu : OnePerNeigh l)
    (h : flatFind l k n = some r) : (r :: flatRemove l k n).Perm l := by
  induction l with
  | nil => simp [flatFind] at h
  | cons a l ih =>
    rw [flatFind_cons] at h
    unfold flatRemove
    rw [List.filter_cons]
    have hu' := List.pairwise_cons.1 hu
    split at h
    · next hc =>
      obtain rfl := Option.some.inj h
      have : (!(a.key == k && a.neigh == n)) = false := by simpa using hc
      rw [this]
      simp only [Bool.false_eq_true, if_false]
      have e : l.filter (fun r => !(r.key == k && r.neigh == n)) = l := by
        rw [List.filter_eq_self]
        intro b hb
        have := hu'.1 b hb
        simp only [Bool.not_eq_true', Bool.and_eq_false_iff, beq_eq_false_iff_ne]
        grind
      rw [e]
    · next hc =>
      have : (!(a.key == k && a.neigh == n)) = true := by grind
      rw [this]
      simp only [if_true]
      exact (List.Perm.swap _ _ _).trans ((ih hu'.2 h).cons a)

theorem move_perm {l : List Route} (hu : OnePerNeigh l) (k : PKey) (n : NeighId) :
    (flatMove l k n).Perm l := by
  unfold flatMove
  cases h : flatFind l k n with
  | some r => exact filter_perm_cons hu h
  | none => exact .refl _

theorem ident_setMetric (c : Cfg) (t : Int) (a b d : Nat) (r : Route) :
    (setMetric c t a b d r).ident = r.ident := by
  unfold setMetric; simp only; split <;> rfl

theorem ident_metric (c : Cfg) (s : St) (k : PKey) (n : NeighId) (a b d : Nat) :
    (changeRouteMetric c s k n a b d).routes.map Route.ident = s.routes.map Route.ident := by
  cases hr : findRoute s k n with
  | none => rw [changeRouteMetric_noop _ _ _ hr]
  | some r =>
    rcases changeRouteMetric_cases (c := c) a b d hr with ⟨_, _, e⟩ | ⟨s1, h1, e⟩ <;> rw [e]
    · rw [(konly_changeModify ..).routes]
    · rw [notifyRoute_routes]
      show (flatModify _ _ _ _).map _ = _
      rw [ident_modify _ _ _ _ (ident_setMetric c s.now.sec a b d),
        ident_core (frame_smooth c s1 k n).routes]
      rcases h1 with ⟨_, _, e1⟩ | ⟨_, e1⟩
      · have := (konly_changeModify c s r (metricToKernel c (routeMetric r)) r.nexthop
          (c.ifOf r.neigh) (metricToKernel c (min (a + b + d) INFINITY))).routes
        rw [e1] at this; rw [this]
      · rw [e1]

theorem ident_uninstall (c : Cfg) (s : St) (k : PKey) (n : NeighId) :
    (uninstallRoute c s k n).routes.map Route.ident = s.routes.map Route.ident := by
  rcases uninstallRoute_routes c s k n with ⟨e, _⟩ | e <;> rw [e]
  exact ident_modify _ _ _ _ (fun _ => rfl)

theorem ident_mark (l : List Route) (hu : OnePerNeigh l) (k : PKey) (n : NeighId) :
    ((flatMove (flatModify l k n (fun r => { r with installed := true })) k n).map Route.ident).Perm
      (l.map Route.ident) := by
  refine ((move_perm (onePerNeigh_modify hu k n (keepsId_installed true)) k n).map _).trans ?_
  rw [ident_modify l k n (fun r => { r with installed := true }) (fun _ => rfl)]

theorem M.ids {c : Cfg} {A : Allow} (hu : ∀ n id k q m, ¬ A.upd n id k q m) (hd : ¬ A.drop)
    {s s' : St} {ex ex' : List SKey} (h : M c A s ex s' ex') (hl : LInv c s.routes) :
    (s'.routes.map Route.ident).Perm (s.routes.map Route.ident) := by
  cases h with
  | q h => rw [ident_core h.same.routes]
  | @install s k n r h1 h2 h3 h4 =>
    rcases install_routes (c := c) h1 h2 h3 with e | ⟨hn, e⟩ <;> rw [e]
    exact ident_mark _ hl.one _ _
  | @switch s k n r o ho hr h3 hf h4 h5 h6 =>
    obtain ⟨hm, hok, hoi⟩ := findInstalled_mem ho
    have hfo : findRoute s k o.neigh = some o := by rw [← hok]; exact findRoute_of_mem hl hm
    rcases switch_routes (c := c) hfo hr hf with e | ⟨-, e⟩ <;> rw [e]
    refine (ident_mark _ (onePerNeigh_modify hl.one _ _ (keepsId_installed false)) _ _).trans ?_
    rw [ident_modify _ _ _ (fun r => { r with installed := false }) (fun _ => rfl)]
  | uninstall k n => rw [ident_uninstall]
  | recost h1 h2 => rw [ident_metric]
  | retract k n => unfold retractRoute; rw [ident_metric]
  | @expire s k n r q h1 h2 h3 =>
    unfold retractRoute
    rw [ident_metric]
    show ((flatModify _ _ _ _).map _).Perm _
    rw [ident_modify _ _ _ (fun r => { r with seqno := q }) (fun _ => rfl)]
  | apply id q refm add hold u h1 h2 h3 h4 h5 h6 => exact absurd h2 (hu _ _ _ _ _)
  | insert k n id q refm add hold nh h1 h2 h3 h4 h5 h6 h7 => exact absurd h2 (hu _ _ _ _ _)
  | unlink h1 h2 hA' => exact absurd hA' hd
  | release k => exact .refl _
  | ensure k' q => rw [(ensure_routes s k' q).1]
  | gc hA' => exact .refl _
  | xadd kr h1 h2 h3 hA' => unfold addXroute; rw [h1]; exact .refl _
  | xdel x hx hA' => exact .refl _
  | xmod x m p hx hm _ hA' => exact .refl _
  | bump _ => exact .refl _
  | tick t h => exact .refl _
  | cost n v h => exact .refl _

theorem Ms.ids {c : Cfg} {A : Allow} (hu : ∀ n id k q m, ¬ A.upd n id k q m) (hd : ¬ A.drop)
    {s s' : St} {ex ex' : List SKey} (h : Ms c A s ex s' ex') (hl : Inv c s ex) :
    (s'.routes.map Route.ident).Perm (s.routes.map Route.ident) := by
  induction h with
  | refl => exact .refl _
  | step h m ih => exact (m.ids hu hd (h.inv hl).lst).trans ih

/-- The other tables. -/
theorem M.others {c : Cfg} {A : Allow} {s s' : St} {ex ex' : List SKey} (h : M c A s ex s' ex')
    (hl : LInv c s.routes) :
    (¬ A.bump → s'.myseqno = s.myseqno) ∧ (¬ A.xr → s'.xroutes = s.xroutes) ∧
    (¬ A.env → s'.ncost = s.ncost) ∧
    (¬ A.gc → ∀ k, (findSource s k).isSome → (findSource s' k).isSome) := by
  have mono : ∀ {t t' : St}, t'.sources = t.sources → ∀ k, (findSource t k).isSome → (findSource t' k).isSome := by
    intro t t' e k h; unfold findSource at h ⊢; rw [e]; exact h
  have keep : ∀ {t t' : St}, Keep t t' → (¬ A.bump → t'.myseqno = t.myseqno) ∧
      (¬ A.xr → t'.xroutes = t.xroutes) ∧ (¬ A.env → t'.ncost = t.ncost) ∧
      (¬ A.gc → ∀ k, (findSource t k).isSome → (findSource t' k).isSome) := by
    intro t t' h
    exact ⟨fun _ => h.myseqno, fun _ => h.xroutes, fun _ => h.ncost, fun _ => mono h.sources⟩
  have hmod : ∀ (t : St) (k' : SKey) (f : Source → Source), (∀ x, (f x).skey = x.skey) →
      ∀ k, (findSource t k).isSome → (findSource (modSource t k' f) k).isSome := by
    intro t k' f hf k h
    rw [findSource_mod _ _ _ _ hf]
    simpa using h
  cases h with
  | q h =>
    exact ⟨fun _ => h.same.myseqno, fun _ => h.same.xroutes, fun _ => h.same.ncost,
      fun _ k hk => by
        have := h.same.findSource k
        rw [this]; exact hk⟩
  | install h1 h2 h3 h4 => exact keep (keep_install c _ _ _ h1 h2 h3)
  | @switch s k n r o ho hr h3 hf h4 h5 h6 =>
    obtain ⟨hm, hok, hoi⟩ := findInstalled_mem ho
    have hfo : findRoute s k o.neigh = some o := by rw [← hok]; exact findRoute_of_mem hl hm
    exact keep (keep_switch c s k o.neigh n hfo hr hf)
  | uninstall k n => exact keep (keep_uninstall c s k n)
  | recost h1 h2 => exact keep (keep_metric ..)
  | retract k n => exact keep (keep_metric ..)
  | @expire s k n r q h1 h2 h3 =>
    exact keep ((keep_modRoute s k n (fun r => { r with seqno := q })).trans
      (keep_metric c _ k n INFINITY INFINITY 0))
  | @apply s r id q refm add hold u h1 h2 h3 h4 h5 h6 =>
    have hk := applyUpdate_others c s r.key r.neigh id q refm add hold u
    refine ⟨fun _ => hk.1, fun _ => hk.2.1, fun _ => hk.2.2, fun _ k hk' => ?_⟩
    exact mono (applyUpdate_keep c s r.key r.neigh id q refm add hold u).1 k
      (hmod s ⟨id, r.key⟩ (fun x => { x with routeCount := x.routeCount + 1 }) (fun _ => rfl) k hk')
  | insert k n id q refm add hold nh h1 h2 h3 h4 h5 h6 h7 =>
    have hk := keep_notify { retainSource s ⟨id, k⟩ with
      routes := flatInsert s.routes (newRoute s k n id q refm add hold nh) } .add k n
    refine ⟨fun _ => hk.myseqno, fun _ => hk.xroutes, fun _ => hk.ncost, fun _ k' hk' => ?_⟩
    exact mono hk.sources k'
      (hmod s ⟨id, k⟩ (fun x => { x with routeCount := x.routeCount + 1 }) (fun _ => rfl) k' hk')
  | @unlink s k n r h1 h2 hA' =>
    have hk := keep_notify s .flush k n
    exact ⟨fun _ => hk.myseqno, fun _ => hk.xroutes, fun _ => hk.ncost, fun _ => mono hk.sources⟩
  | release k =>
    exact ⟨fun _ => rfl, fun _ => rfl, fun _ => rfl, fun _ =>
      hmod s k (fun x => { x with routeCount := x.routeCount - 1 }) (fun _ => rfl)⟩
  | ensure k' q =>
    have h := ensure_routes s k' q
    refine ⟨fun _ => by unfold ensureSource; split <;> rfl, fun _ => by unfold ensureSource; split <;> rfl,
      fun _ => by unfold ensureSource; split <;> rfl, fun _ k hk => ?_⟩
    unfold ensureSource
    split
    · exact hk
    · unfold findSource at hk ⊢
      show ((s.sources ++ _).find? _).isSome = true
      rw [List.find?_append]
      cases hx : s.sources.find? (fun x => x.skey == k) with
      | none => rw [hx] at hk; simp at hk
      | some x => rfl
  | gc hA' => exact ⟨fun _ => rfl, fun _ => rfl, fun _ => rfl, fun h => absurd hA' h⟩
  | xadd kr h1 h2 h3 hA' =>
    unfold addXroute; rw [h1]
    exact ⟨fun _ => rfl, fun h => absurd hA' h, fun _ => rfl, fun _ => mono rfl⟩
  | xdel x hx hA' => exact ⟨fun _ => rfl, fun h => absurd hA' h, fun _ => rfl, fun _ => mono rfl⟩
  | xmod x m p hx hm _ hA' => exact ⟨fun _ => rfl, fun h => absurd hA' h, fun _ => rfl, fun _ => mono rfl⟩
  | bump hA' => exact ⟨fun h => absurd hA' h, fun _ => rfl, fun _ => rfl, fun _ => mono rfl⟩
  | tick t h => exact ⟨fun _ => rfl, fun _ => rfl, fun _ => rfl, fun _ => mono rfl⟩
  | cost n v h => exact ⟨fun _ => rfl, fun _ => rfl, fun h' => absurd h h', fun _ => mono rfl⟩

theorem Ms.others {c : Cfg} {A : Allow} {s s' : St} {ex ex' : List SKey} (h : Ms c A s ex s' ex')
    (hl : Inv c s ex) :
    (¬ A.bump → s'.myseqno = s.myseqno) ∧ (¬ A.xr → s'.xroutes = s.xroutes) ∧
    (¬ A.env → s'.ncost = s.ncost) ∧
    (¬ A.gc → ∀ k, (findSource s k).isSome → (findSource s' k).isSome) := by
  induction h with
  | refl => exact ⟨fun _ => rfl, fun _ => rfl, fun _ => rfl, fun _ _ h => h⟩
  | step h m ih =>
    have ho := m.others (h.inv hl).lst
    exact ⟨fun h => (ho.1 h).trans (ih.1 h), fun h => (ho.2.1 h).trans (ih.2.1 h),
      fun h => (ho.2.2.1 h).trans (ih.2.2.1 h), fun h k hk => ho.2.2.2 h k (ih.2.2.2 h k hk)⟩

end Babel
