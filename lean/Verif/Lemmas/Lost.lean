import Verif.Lemmas.Only
import Verif.Spec.Lost
/-
What the neighbours have been told about a destination that cannot be reached any more.
-/
set_option linter.unusedSimpArgs false
set_option linter.unusedVariables false
set_option linter.unusedSectionVars false
namespace Babel
open Spec

/-- The part of the environment that is needed: the destination is not redistributed and can be announced. -/
structure Env (c : Cfg) (i : IfId) (k : PKey) (s : St) : Prop where
  linv : LInv c s.routes
  own : exported s k = none
  ann : Announceable c s i k

/-- The parameters of interface `i` are the same. -/
def IfSame (i : IfId) (s s' : St) : Prop :=
  ∀ x, getIf s' i = some x → ∃ y, getIf s i = some y ∧ x.params = y.params

theorem IfSame.refl (i : IfId) (s : St) : IfSame i s s := fun x h => ⟨x, h, rfl⟩
theorem IfSame.trans {i : IfId} {a b d : St} (h : IfSame i a b) (g : IfSame i b d) : IfSame i a d := by
  intro x hx
  obtain ⟨y, hy, e⟩ := g x hx
  obtain ⟨z, hz, e'⟩ := h y hy
  exact ⟨z, hz, e.trans e'⟩

/-- `k` is not lost between `s` and `s'`, as far as the view `v` of the originator can tell. -/
def Cls (v : Bytes → Bytes) (k : PKey) (s s' : St) : Prop :=
  ∀ a, origin s k = some a → ∃ b, origin s' k = some b ∧ v b = v a

theorem Cls.refl (v : Bytes → Bytes) (k : PKey) (s : St) : Cls v k s s := fun a h => ⟨a, h, rfl⟩
theorem Cls.trans {v : Bytes → Bytes} {k : PKey} {a b d : St} (h : Cls v k a b) (g : Cls v k b d) : Cls v k a d := by
  intro x hx
  obtain ⟨y, hy, e⟩ := h x hx
  obtain ⟨z, hz, e'⟩ := g y hy
  exact ⟨z, hz, e'.trans e⟩

/-- The neighbours on `i` do not believe in a route that was lost, or will be told. -/
def GoodAt (v : Bytes → Bytes) (e : Prop) (i : IfId) (k : PKey) (s : St) : Prop :=
  ∀ ifp, getIf s i = some ifp → ifp.up = true → k ∈ ifp.queue ∨
    (((lastUpdate i k s.out).isSome ∨ e) ∧
      ∀ a, advertised i k s.out = some a → ∃ b, origin s k = some b ∧ v b = v a)

/-- Steps that tell the neighbours when `k` is lost. -/
def J (c : Cfg) (v : Bytes → Bytes) (e : Prop) (i : IfId) (k : PKey) (s s' : St) : Prop :=
  Env c i k s → Env c i k s' ∧ IfSame i s s' ∧ (GoodAt v e i k s ∨ ¬ Cls v k s s' → GoodAt v e i k s')

variable {c : Cfg} {v : Bytes → Bytes} {e : Prop} {i : IfId} {k : PKey}

theorem J.refl (s : St) : J c v e i k s s :=
  fun h => ⟨h, .refl i s, fun h => h.elim id (fun h => absurd (Cls.refl v k s) h)⟩

theorem J.trans {a b d : St} (h : J c v e i k a b) (g : J c v e i k b d) : J c v e i k a d := by
  intro he
  obtain ⟨h1, h2, h3⟩ := h he
  obtain ⟨g1, g2, g3⟩ := g h1
  refine ⟨g1, h2.trans g2, fun hg => ?_⟩
  rcases hg with hg | hg
  · exact g3 (.inl (h3 (.inl hg)))
  · by_cases hc : Cls v k a b
    · exact g3 (.inr fun hc' => hg (hc.trans hc'))
    · exact g3 (.inl (h3 (.inr hc)))

theorem J.foldl {α : Type} (f : St → α → St) (h : ∀ s a, J c v e i k s (f s a)) (l : List α) (s : St) :
    J c v e i k s (l.foldl f s) := by
  induction l generalizing s with
  | nil => exact .refl s
  | cons a l ih => exact (h s a).trans (ih _)

/-! ### What an announcement says -/

theorem Env.says {s : St} (h : Env c i k s) {ifp : Iface} (hg : getIf s i = some ifp) :
    ∃ o, announcement c s ifp k = some o ∧ ∀ a, originOf o = some a → origin s k = some a := by
  have hb := h.ann.free ifp hg
  have hown : ownRoute c s k = none := by unfold ownRoute; rw [h.own]; rfl
  unfold announcement news origin
  rw [hown]
  cases hs : selectedRoute s k with
  | none =>
    simp only
    rw [hb]
    refine ⟨_, rfl, fun a ha => ?_⟩
    exfalso
    unfold originOf at ha
    simp only at ha
    rw [if_neg (by omega)] at ha
    cases ha
  | some r =>
    have hm : r ∈ s.routes ∧ r.key = k := by
      unfold selectedRoute at hs
      have h1 := List.mem_of_find?_eq_some hs
      have h2 := List.find?_some hs
      simp at h2
      exact ⟨h1, h2.1⟩
    have hsh : splitHorizon c ifp r = false := by
      unfold splitHorizon
      cases hx : ifp.splitHorizon with
      | false => rfl
      | true =>
        have := h.ann.horizon ifp hg hx r hm.1 hm.2
        rw [(getIf_mem hg).1]
        simpa using this
    simp only
    rw [hsh]
    simp only [Bool.false_eq_true, if_false]
    rw [hb]
    refine ⟨_, rfl, fun a ha => ?_⟩
    unfold originOf at ha
    simp only at ha
    split at ha
    · next hlt => rw [if_pos (by omega)]; exact ha
    · cases ha

theorem Quiet.ifSame {s s' : St} (h : Quiet c s s') (i : IfId) : IfSame i s s' := by
  intro x hx
  cases hi : getIf s i with
  | none =>
    exfalso
    have h1 : i ∈ allIfs s' := List.mem_map.2 ⟨x, (getIf_mem hx).2, (getIf_mem hx).1⟩
    rw [h.ids] at h1
    obtain ⟨y, hy, e⟩ := List.mem_map.1 h1
    unfold getIf at hi
    rw [List.find?_eq_none] at hi
    exact hi y hy (by simp [e])
  | some ifp =>
    obtain ⟨y, hy, py, -⟩ := h.told i ifp hi
    rw [hx] at hy
    cases hy
    exact ⟨ifp, rfl, py⟩

theorem barred_params {a b : Iface} (h : a.params = b.params) (id : Bytes) (k : PKey) : Barred c a id k = Barred c b id k := by
  have h1 : a.ifindex = b.ifindex := (congrArg Iface.ifindex h : _)
  have h3 : a.rfc6126 = b.rfc6126 := (congrArg Iface.rfc6126 h : _)
  have h4 : a.hasV4 = b.hasV4 := (congrArg Iface.hasV4 h : _)
  have h5 : a.v4viav6 = b.v4viav6 := (congrArg Iface.v4viav6 h : _)
  unfold Barred
  rw [h1, h3, h4, h5]

theorem params_sh {a b : Iface} (h : a.params = b.params) : a.splitHorizon = b.splitHorizon := (congrArg Iface.splitHorizon h : _)

/-- The routes of `s'` come from `s`. -/
def From (s s' : St) : Prop := ∀ x ∈ s'.routes, ∃ y ∈ s.routes, y.key = x.key ∧ y.neigh = x.neigh

theorem From.refl (s : St) : From s s := fun x h => ⟨x, h, rfl, rfl⟩
theorem From.trans {a b d : St} (h : From a b) (g : From b d) : From a d := by
  intro x hx
  obtain ⟨y, hy, e1, e2⟩ := g x hx
  obtain ⟨z, hz, e3, e4⟩ := h y hy
  exact ⟨z, hz, e3.trans e1, e4.trans e2⟩

theorem From.core {s s' : St} (h : s'.routes.map Route.core = s.routes.map Route.core) : From s s' := by
  intro x hx
  obtain ⟨y, hy, e⟩ := mem_core h hx
  exact ⟨y, hy, (core_key e).symm, (core_neigh e).symm⟩

theorem Env.keep {s s' : St} (h : Env c i k s) (hl : LInv c s'.routes) (hx : exported s' k = exported s k)
    (hf : From s s') (hi : IfSame i s s') : Env c i k s' := by
  refine ⟨hl, hx.trans h.own, ⟨?_, ?_⟩⟩
  · intro x hg id
    obtain ⟨y, hy, e⟩ := hi x hg
    rw [barred_params e]
    exact h.ann.free y hy id
  · intro x hg hs r hr hk
    obtain ⟨y, hy, e⟩ := hi x hg
    obtain ⟨r', hr', e1, e2⟩ := hf r hr
    rw [← e2]
    exact h.ann.horizon y hy ((params_sh e).symm.trans hs) r' hr' (e1.trans hk)

theorem origin_of_core {s s' : St} (h : (selectedRoute s' k).map Route.core = (selectedRoute s k).map Route.core) :
    origin s' k = origin s k := by
  unfold origin
  cases hs : selectedRoute s k with
  | none =>
    rw [hs] at h
    rw [show selectedRoute s' k = none by simpa using h]
  | some r =>
    rw [hs] at h
    obtain ⟨r', hr', hc⟩ := map_core_some h
    rw [hr']
    simp only [core_metric hc, core_id hc]

theorem Quiet.origin {s s' : St} (h : Quiet c s s') (k : PKey) : Spec.origin s' k = Spec.origin s k :=
  origin_of_core (selectedRoute_core h.ann.routes k)

theorem Quiet.env {s s' : St} (h : Quiet c s s') (he : Env c i k s) : Env c i k s' :=
  he.keep (h.linv he.linv) (by unfold exported; rw [h.ann.xroutes]) (.core h.ann.routes) (h.ifSame i)

theorem Quiet.good {s s' : St} (h : Quiet c s s') (he : Env c i k s) (hg : GoodAt v e i k s) : GoodAt v e i k s' := by
  intro x hx hup
  obtain ⟨y, hy, py⟩ := h.ifSame i x hx
  obtain ⟨x', hx', -, h1⟩ := h.told i y hy
  rw [hx] at hx'
  cases hx'
  obtain ⟨h1a, h1b⟩ := h1 k
  obtain ⟨o, ho, hs⟩ := he.says hy
  have hyu : y.up = true := (params_up py).symm.trans hup
  rw [h.origin k]
  have fin : lastUpdate i k s'.out = some o → ((lastUpdate i k s'.out).isSome ∨ e) ∧
      ∀ a, advertised i k s'.out = some a → ∃ b, Spec.origin s k = some b ∧ v b = v a := by
    intro hl
    refine ⟨.inl (by rw [hl]; rfl), fun a ha => ?_⟩
    unfold advertised at ha
    rw [hl] at ha
    exact ⟨a, hs a ha, rfl⟩
  rcases hg y hy hyu with h2 | ⟨h2, h3⟩
  · rcases h1a h2 hyu with h4 | h4
    · exact .inl h4
    · exact .inr (fin (h4 o ho))
  · right
    rcases h1b with h4 | ⟨o', h4, h5⟩
    · unfold advertised at h3 ⊢
      rw [h4]
      exact ⟨h2, h3⟩
    · rw [ho] at h4
      cases h4
      exact fin h5

/-- Queue operations. -/
theorem J.quiet {s s' : St} (h : LInv c s.routes → Quiet c s s') : J c v e i k s s' := by
  intro he
  have hq := h he.linv
  refine ⟨hq.env he, hq.ifSame i, fun hg => ?_⟩
  rcases hg with hg | hg
  · exact hq.good he hg
  · exfalso
    apply hg
    intro a ha
    exact ⟨a, (hq.origin k).trans ha, rfl⟩

theorem good_of_upToDate {s : St} (he : Env c i k s) (hu : UpToDate c s i k) : GoodAt v e i k s := by
  intro x hx hup
  obtain ⟨o, ho, hs⟩ := he.says hx
  rcases hu x hx hup with h | h
  · exact .inl h
  · right
    refine ⟨.inl (by rw [h o ho]; rfl), fun a ha => ?_⟩
    unfold advertised at ha
    rw [h o ho] at ha
    exact ⟨a, hs a ha, rfl⟩

/-! ### Steps on the tables -/

/-- A step that changes the table of routes but neither the queues nor the redistributed routes. -/
structure Tbl (c : Cfg) (s s' : St) : Prop where
  hard : Hard s s'
  xr : s'.xroutes = s.xroutes
  linv : LInv c s.routes → LInv c s'.routes
  from_ : From s s'

theorem Tbl.refl (s : St) : Tbl c s s := ⟨.refl s, rfl, id, .refl s⟩
theorem Tbl.trans {a b d : St} (h : Tbl c a b) (g : Tbl c b d) : Tbl c a d :=
  ⟨h.hard.trans g.hard, g.xr.trans h.xr, fun hl => g.linv (h.linv hl), h.from_.trans g.from_⟩

theorem Tbl.frame {s s' : St} (h : Hard s s') (f : Frame s s') : Tbl c s s' :=
  ⟨h, f.xroutes, fun hl => hl.core f.routes, .core f.routes⟩

theorem Tbl.same {s s' : St} (h : Hard s s') (hx : s'.xroutes = s.xroutes) (hr : s'.routes = s.routes) : Tbl c s s' :=
  ⟨h, hx, fun hl => by rw [hr]; exact hl, .core (by rw [hr])⟩

theorem Hard.ifSame {s s' : St} (h : Hard s s') (i : IfId) : IfSame i s s' := by
  intro x hx
  unfold getIf at hx
  rw [h.ifaces] at hx
  exact ⟨x, hx, rfl⟩

theorem Tbl.env {s s' : St} (h : Tbl c s s') (he : Env c i k s) : Env c i k s' :=
  he.keep (h.linv he.linv) (by unfold exported; rw [h.xr]) h.from_ (h.hard.ifSame i)

theorem Hard.lastUpdate {s s' : St} (h : Hard s s') (i : IfId) (k : PKey) :
    Spec.lastUpdate i k s'.out = Spec.lastUpdate i k s.out := by
  obtain ⟨new, e, hn⟩ := h.out
  unfold Spec.lastUpdate
  rw [e, List.find?_append, List.find?_eq_none.2]
  · rfl
  · intro o ho
    have := hn o ho
    cases o <;> first | (exfalso; simp [Out.silent] at this; done) | simp [aboutKey]

theorem Tbl.good {s s' : St} (h : Tbl c s s') (hc : Cls v k s s') (hg : GoodAt v e i k s) : GoodAt v e i k s' := by
  intro x hx hup
  unfold getIf at hx
  rw [h.hard.ifaces] at hx
  unfold advertised
  rw [h.hard.lastUpdate]
  rcases hg x hx hup with h1 | ⟨h1, h2⟩
  · exact .inl h1
  · right
    refine ⟨h1, fun a ha => ?_⟩
    obtain ⟨b, hb, e1⟩ := h2 a ha
    obtain ⟨b', hb', e2⟩ := hc b hb
    exact ⟨b', hb', e2.trans e1⟩

/-- A step on the tables that does not lose `k`. -/
theorem J.tbl {s s' : St} (h : Tbl c s s') (hc : LInv c s.routes → Cls v k s s') : J c v e i k s s' := by
  intro he
  refine ⟨h.env he, h.hard.ifSame i, fun hg => ?_⟩
  rcases hg with hg | hg
  · exact h.good (hc he.linv) hg
  · exact absurd (hc he.linv) hg

/-- A step on the tables, followed by an update. -/
theorem J.send {s s1 : St} (h : Tbl c s s1) {k' : PKey} (hc : k' ≠ k → LInv c s.routes → Cls v k s s1) (u : Bool) :
    J c v e i k s (sendUpdate c s1 u k') := by
  by_cases hk : k' = k
  · subst hk
    intro he
    have he1 := h.env he
    obtain ⟨h1, h2⟩ := quiet_sendUpdate he1.linv u k'
    exact ⟨h1.env he1, (h.hard.ifSame i).trans (h1.ifSame i), fun _ => good_of_upToDate (h1.env he1) (h2 i)⟩
  · exact (J.tbl h (hc hk)).trans (.quiet fun hl => (quiet_sendUpdate hl u k').1)

theorem J.resend {s s1 : St} (h : Tbl c s s1) {k' : PKey} (hc : k' ≠ k → LInv c s.routes → Cls v k s s1) :
    J c v e i k s (sendUpdateResend c s1 k') :=
  (J.send h hc true).trans (.quiet fun hl => quiet_record ..)

/-- Other destinations. -/
theorem Only.cls {k' : PKey} {s s' : St} (h : Only k' s s') (hk : k' ≠ k) : Cls v k s s' := by
  intro a ha
  exact ⟨a, (origin_of_core (selectedRoute_slots (h.slots k (Ne.symm hk)))).trans ha, rfl⟩

theorem Frame.cls {s s' : St} (h : Frame s s') : Cls v k s s' := by
  intro a ha
  exact ⟨a, (origin_of_core (selectedRoute_core h.routes k)).trans ha, rfl⟩

theorem origin_eq {s : St} (hl : LInv c s.routes) (k : PKey) :
    origin s k = (findInstalled s k).bind (fun r => if routeMetric r < INFINITY then some r.id else none) := by
  rw [selected_eq hl]
  unfold origin
  cases selectedRoute s k <;> rfl

/-- The route to `k'` through `n` changes: `u` tells whether it is deselected, `g` how its originator changes. -/
structure Mod1 (k' : PKey) (n : NeighId) (u : Bool) (g : Bytes → Bytes) (s s' : St) : Prop where
  fwd : ∀ y ∈ s.routes, ∃ x ∈ s'.routes, x.key = y.key ∧ x.neigh = y.neigh ∧
    if y.key = k' ∧ y.neigh = n then x.installed = (y.installed && !u) ∧ x.id = g y.id else x.core = y.core
  bwd : ∀ x ∈ s'.routes, ∃ y ∈ s.routes, x.key = y.key ∧ x.neigh = y.neigh ∧
    if y.key = k' ∧ y.neigh = n then x.installed = (y.installed && !u) ∧ x.id = g y.id else x.core = y.core

theorem Mod1.trans {k' : PKey} {n : NeighId} {u u' : Bool} {g g' : Bytes → Bytes} {a b d : St}
    (h : Mod1 k' n u g a b) (h' : Mod1 k' n u' g' b d) : Mod1 k' n (u || u') (g' ∘ g) a d := by
  constructor
  · intro y hy
    obtain ⟨x, hx, e1, e2, e3⟩ := h.fwd y hy
    obtain ⟨z, hz, f1, f2, f3⟩ := h'.fwd x hx
    refine ⟨z, hz, f1.trans e1, f2.trans e2, ?_⟩
    rw [e1, e2] at f3
    split
    · next hc =>
      rw [if_pos hc] at e3 f3
      refine ⟨?_, ?_⟩
      · rw [f3.1, e3.1]; cases y.installed <;> cases u <;> cases u' <;> rfl
      · rw [f3.2, e3.2]; rfl
    · next hc => rw [if_neg hc] at e3 f3; exact f3.trans e3
  · intro z hz
    obtain ⟨x, hx, f1, f2, f3⟩ := h'.bwd z hz
    obtain ⟨y, hy, e1, e2, e3⟩ := h.bwd x hx
    refine ⟨y, hy, f1.trans e1, f2.trans e2, ?_⟩
    rw [e1, e2] at f3
    split
    · next hc =>
      rw [if_pos hc] at e3 f3
      refine ⟨?_, ?_⟩
      · rw [f3.1, e3.1]; cases y.installed <;> cases u <;> cases u' <;> rfl
      · rw [f3.2, e3.2]; rfl
    · next hc => rw [if_neg hc] at e3 f3; exact f3.trans e3

theorem Mod1.from_ {k' : PKey} {n : NeighId} {u : Bool} {g : Bytes → Bytes} {s s' : St} (h : Mod1 k' n u g s s') :
    From s s' := by
  intro x hx
  obtain ⟨y, hy, e1, e2, -⟩ := h.bwd x hx
  exact ⟨y, hy, e1.symm, e2.symm⟩

theorem Mod1.core {k' : PKey} {n : NeighId} {s s' : St} (h : s'.routes.map Route.core = s.routes.map Route.core) :
    Mod1 k' n false id s s' := by
  have key : ∀ x y : Route, x.core = y.core → x.key = y.key ∧ x.neigh = y.neigh ∧
      if y.key = k' ∧ y.neigh = n then x.installed = (y.installed && !false) ∧ x.id = id y.id else x.core = y.core := by
    intro x y e
    refine ⟨core_key e, core_neigh e, ?_⟩
    split
    · exact ⟨by rw [core_installed e]; simp, core_id e⟩
    · exact e
  constructor
  · intro y hy
    obtain ⟨x, hx, e⟩ := mem_core h.symm hy
    exact ⟨x, hx, key x y e.symm⟩
  · intro x hx
    obtain ⟨y, hy, e⟩ := mem_core h hx
    exact ⟨y, hy, key x y e⟩

theorem Mod1.same {k' : PKey} {n : NeighId} {s s' : St} (h : s'.routes = s.routes) : Mod1 k' n false id s s' :=
  .core (by rw [h])

theorem Mod1.modify {k' : PKey} {n : NeighId} {u : Bool} {g : Bytes → Bytes} {f : Route → Route} {s s' : St} (hf : KeepsId f)
    (hi : ∀ y, (f y).installed = (y.installed && !u)) (hg : ∀ y, (f y).id = g y.id)
    (h : s'.routes.map Route.core = (flatModify s.routes k' n f).map Route.core) : Mod1 k' n u g s s' := by
  have key : ∀ y x : Route, x.core = ((if y.key == k' && y.neigh == n then f y else y) : Route).core →
      x.key = y.key ∧ x.neigh = y.neigh ∧
      if y.key = k' ∧ y.neigh = n then x.installed = (y.installed && !u) ∧ x.id = g y.id else x.core = y.core := by
    intro y x e
    by_cases hc : y.key = k' ∧ y.neigh = n
    · rw [if_pos (by simpa using hc)] at e
      rw [if_pos hc]
      exact ⟨(core_key e).trans (hf y).1, (core_neigh e).trans (hf y).2, (core_installed e).trans (hi y), (core_id e).trans (hg y)⟩
    · rw [if_neg (by simpa using hc)] at e
      rw [if_neg hc]
      exact ⟨core_key e, core_neigh e, e⟩
  constructor
  · intro y hy
    have hm : (if y.key == k' && y.neigh == n then f y else y) ∈ flatModify s.routes k' n f := by
      unfold flatModify
      exact List.mem_map.2 ⟨y, hy, rfl⟩
    obtain ⟨x, hx, e⟩ := mem_core h.symm hm
    exact ⟨x, hx, key y x e.symm⟩
  · intro x hx
    obtain ⟨z, hz, e⟩ := mem_core h hx
    unfold flatModify at hz
    obtain ⟨y, hy, rfl⟩ := List.mem_map.1 hz
    exact ⟨y, hy, key y x e⟩

theorem mod1_modRoute (s : St) (k' : PKey) (n : NeighId) {f : Route → Route} {g : Bytes → Bytes} (hf : KeepsId f)
    (hi : ∀ y, (f y).installed = y.installed) (hg : ∀ y, (f y).id = g y.id) : Mod1 k' n false g s (modRoute s k' n f) :=
  .modify hf (fun y => by rw [hi]; simp) hg rfl

theorem mod1_metric (s : St) (k' : PKey) (n : NeighId) (a b d : Nat) :
    Mod1 k' n false id s (changeRouteMetric c s k' n a b d) := by
  cases hr : findRoute s k' n with
  | none => rw [changeRouteMetric_noop _ _ _ hr]; exact .same rfl
  | some r =>
    rcases changeRouteMetric_routes (c := c) a b d hr with ⟨-, e⟩ | e
    · exact .same e
    · exact .modify (keepsId_setRc a b d) (fun y => by simp [setRc]) (fun y => rfl) e

theorem mod1_uninstall {s : St} (hl : LInv c s.routes) (k' : PKey) (n : NeighId) : Mod1 k' n true id s (uninstallRoute c s k' n) := by
  rcases uninstallRoute_routes c s k' n with ⟨e, hi⟩ | e
  · have key : ∀ y ∈ s.routes, if y.key = k' ∧ y.neigh = n then y.installed = (y.installed && !true) ∧ y.id = id y.id
        else y.core = y.core := by
      intro y hy
      split
      · next hc =>
        have := hi y (by rw [← hc.1, ← hc.2]; exact findRoute_of_mem hl hy)
        exact ⟨by simp [this], rfl⟩
      · rfl
    constructor
    · intro y hy
      exact ⟨y, by rw [e]; exact hy, rfl, rfl, key y hy⟩
    · intro y hy
      rw [e] at hy
      exact ⟨y, hy, rfl, rfl, key y hy⟩
  · exact .modify (keepsId_installed false) (fun y => by simp) (fun y => rfl) (by rw [e])

theorem mod1_apply {s : St} (hl : LInv c s.routes) {k' : PKey} {n : NeighId} (id' : Bytes) (q : UInt16) (a b d : Nat) (u : Bool) :
    Mod1 k' n u (fun _ => id') s (applyUpdate c s k' n id' q a b d u) := by
  unfold applyUpdate
  simp only
  have h1 : Mod1 k' n u id s (if u then uninstallRoute c s k' n else s) := by
    cases u with
    | true => exact mod1_uninstall hl ..
    | false => exact .same rfl
  have h2 : Mod1 k' n false id (if u then uninstallRoute c s k' n else s) (retainSource (if u then uninstallRoute c s k' n else s) ⟨id', k'⟩) := .same rfl
  have h3 := mod1_modRoute (retainSource (if u then uninstallRoute c s k' n else s) ⟨id', k'⟩) k' n (f := fun r => { r with
    id := id', seqno := q, time := if a < INFINITY then s.now.sec else r.time }) (g := fun _ => id') (fun _ => ⟨rfl, rfl⟩)
    (fun _ => rfl) (fun _ => rfl)
  have h4 := mod1_metric (c := c) (modRoute (retainSource (if u then uninstallRoute c s k' n else s) ⟨id', k'⟩) k' n (fun r => { r with
    id := id', seqno := q, time := if a < INFINITY then s.now.sec else r.time })) k' n a (s.ncost n) b
  have h5 := mod1_modRoute (changeRouteMetric c (modRoute (retainSource (if u then uninstallRoute c s k' n else s) ⟨id', k'⟩) k' n (fun r => { r with
    id := id', seqno := q, time := if a < INFINITY then s.now.sec else r.time })) k' n a (s.ncost n) b) k' n (f := fun r => { r with holdTime := d })
    (g := id) (fun _ => ⟨rfl, rfl⟩) (fun _ => rfl) (fun _ => rfl)
  have := (((h1.trans h2).trans h3).trans h4).trans h5
  simpa using this

/-- The selected route keeps being selected. -/
theorem Mod1.installed {k' : PKey} {n : NeighId} {g : Bytes → Bytes} {s s' : St} (h : Mod1 k' n false g s s')
    (hl : LInv c s.routes) (hl' : LInv c s'.routes) {o : Route} (ho : findInstalled s k' = some o) :
    ∃ x, findInstalled s' k' = some x ∧ x.neigh = o.neigh ∧ (o.neigh = n → x.id = g o.id) ∧ (o.neigh ≠ n → x.core = o.core) := by
  obtain ⟨hm, hk, hi⟩ := findInstalled_mem ho
  obtain ⟨x, hx, e1, e2, e3⟩ := h.fwd o hm
  have hxi : x.installed = true := by
    split at e3
    · rw [e3.1, hi]; rfl
    · rw [core_installed e3, hi]
  refine ⟨x, (findInstalled_iff hl').2 ⟨hx, e1.trans hk, hxi⟩, e2, ?_, ?_⟩
  · intro hn; rw [if_pos ⟨hk, hn⟩] at e3; exact e3.2
  · intro hn; rw [if_neg (by simp [hn])] at e3; exact e3

/-- The selected route is deselected. -/
theorem Mod1.removed {k' : PKey} {n : NeighId} {g : Bytes → Bytes} {s s' : St} (h : Mod1 k' n true g s s')
    (hl : LInv c s.routes) {o : Route} (ho : findInstalled s k' = some o) (hn : o.neigh = n) :
    findInstalled s' k' = none := by
  obtain ⟨hm, hk, hi⟩ := findInstalled_mem ho
  cases hx : findInstalled s' k' with
  | none => rfl
  | some x =>
    exfalso
    obtain ⟨hxm, hxk, hxi⟩ := findInstalled_mem hx
    obtain ⟨y, hy, e1, e2, e3⟩ := h.bwd x hxm
    split at e3
    · rw [e3.1] at hxi; simp at hxi
    · next hc =>
      have : y = o := hl.unique_installed hy hm (e1.symm.trans (hxk.trans hk.symm)) (by rw [← core_installed e3]; exact hxi) hi
      rw [this] at hc
      exact hc ⟨hk, hn⟩

end Babel
