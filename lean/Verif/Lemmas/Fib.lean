import Verif.Lemmas.Inv2
/-
The kernel table mirrors the selected routes.
-/
set_option linter.unusedSimpArgs false
set_option linter.unusedVariables false
set_option linter.unusedSectionVars false
namespace Babel
open Spec

/-- The selected route of a list of routes. -/
def selOf (l : List Route) (k : PKey) : Option Route := l.find? (fun r => r.key == k && r.installed)

/-- What a selected route puts in the kernel: nothing for an unreachable default route. -/
def kentry (c : Cfg) (r : Route) : Option KEntry :=
  let m := metricToKernel c (routeMetric r)
  if skippedDefault r.key m then none
  else some (kernelEntry (routeTable c r) r.key r.nexthop (c.ifOf r.neigh) m)

def wantOf (c : Cfg) (l : List Route) (k : PKey) : Option KEntry := (selOf l k).bind (kentry c)

/-- The table of a route depends on its destination only. -/
def TableByKey (c : Cfg) : Prop := ∀ a b : Route, a.key = b.key → routeTable c a = routeTable c b

structure FibInv (c : Cfg) (s : St) : Prop where
  kres : ∀ i, s.kres i = .ok
  gate : ∀ r ∈ s.routes, familyOk r.key r.nexthop = true
  ok : ∀ r ∈ s.routes, r.installed = true → srcUnsupported c r.key = false
  fib : ∀ k, s.fib.filter (fun e => e.key == k) = (wantOf c s.routes k).toList

theorem selOf_iff {c : Cfg} {l : List Route} (h : LInv c l) {k : PKey} {r : Route} :
    selOf l k = some r ↔ r ∈ l ∧ r.key = k ∧ r.installed = true := by
  constructor
  · intro e
    have h1 := List.mem_of_find?_eq_some e
    have h2 := List.find?_some e
    simp at h2
    exact ⟨h1, h2⟩
  · rintro ⟨h1, h2, h3⟩
    cases e : selOf l k with
    | none =>
      unfold selOf at e
      rw [List.find?_eq_none] at e
      exact absurd (by simp [h2, h3]) (e r h1)
    | some x =>
      have h4 := List.mem_of_find?_eq_some e
      have h5 := List.find?_some e
      simp at h5
      rw [h.unique_installed h4 h1 (by rw [h5.1, h2]) h5.2 h3]

theorem selOf_none {l : List Route} {k : PKey} : selOf l k = none ↔ NoneInstalled l k := by
  unfold selOf NoneInstalled
  rw [List.find?_eq_none]
  simp

theorem selOf_findInstalled {c : Cfg} {s : St} (h : LInv c s.routes) (k : PKey) :
    selOf s.routes k = findInstalled s k := by
  apply Option.ext
  intro r
  rw [selOf_iff h, findInstalled_iff h]

/-- A modification that keeps what matters. -/
theorem selOf_modify (l : List Route) (k k' : PKey) (n : NeighId) (f : Route → Route)
    (hk : ∀ r, (f r).key = r.key) (hi : ∀ r, (f r).installed = r.installed) :
    selOf (flatModify l k n f) k' =
      (selOf l k').map (fun x => if x.key == k && x.neigh == n then f x else x) := by
  unfold selOf flatModify
  rw [List.find?_map]
  congr 1
  congr 1
  funext x
  simp only [Function.comp]
  split <;> simp [hk, hi]

theorem selOf_ne (l : List Route) (k k' : PKey) (n : NeighId) (f : Route → Route)
    (hk : ∀ r, (f r).key = r.key) (h : k' ≠ k) : selOf (flatModify l k n f) k' = selOf l k' := by
  unfold selOf flatModify
  induction l with
  | nil => rfl
  | cons a l ih =>
    rw [List.map_cons, List.find?_cons, List.find?_cons, ih]
    by_cases ha : a.key = k ∧ a.neigh = n
    · have h1 : (a.key == k && a.neigh == n) = true := by simpa using ha
      rw [h1, if_pos rfl, hk, ha.1]
      have : (k == k') = false := by simpa using Ne.symm h
      simp [this]
    · have h1 : (a.key == k && a.neigh == n) = false := by
        rw [Bool.eq_false_iff]; simpa using ha
      rw [h1]
      rfl

theorem selOf_remove (l : List Route) (k k' : PKey) (n : NeighId)
    (h : ∀ r ∈ l, r.key = k → r.neigh = n → r.installed = false) :
    selOf (flatRemove l k n) k' = selOf l k' := by
  unfold selOf flatRemove
  induction l with
  | nil => rfl
  | cons a l ih =>
    have ih := ih (fun r hr => h r (List.mem_cons_of_mem _ hr))
    rw [List.filter_cons]
    by_cases ha : a.key = k ∧ a.neigh = n
    · have h1 : (!(a.key == k && a.neigh == n)) = false := by simpa using ha
      rw [h1, List.find?_cons, h a (by simp) ha.1 ha.2]
      simpa using ih
    · have h1 : (!(a.key == k && a.neigh == n)) = true := by grind
      rw [h1, if_pos rfl, List.find?_cons, List.find?_cons, ih]

theorem selOf_insert (l : List Route) (r : Route) (k : PKey) (h : r.installed = false) :
    selOf (flatInsert l r) k = selOf l k := by
  unfold selOf flatInsert
  rw [List.find?_append, List.find?_cons, h]
  simp

theorem selOf_remove_ne (l : List Route) (k k' : PKey) (n : NeighId) (h : k' ≠ k) :
    selOf (flatRemove l k n) k' = selOf l k' := by
  unfold selOf flatRemove
  rw [List.find?_filter]
  congr 1
  funext r
  grind

theorem selOf_mark {l : List Route} {k : PKey} {n : NeighId} {r : Route}
    (h : flatFind l k n = some r) (k' : PKey) :
    selOf (flatMove (flatModify l k n (fun r => { r with installed := true })) k n) k' =
      if k' = k then some { r with installed := true } else selOf l k' := by
  have hm : flatFind (flatModify l k n (fun r => { r with installed := true })) k n =
      some { r with installed := true } := by
    rw [flatFind_modify _ _ _ _ _ _ (keepsId_installed true)]; simp [h]
  unfold flatMove
  rw [hm]
  show selOf ({ r with installed := true } :: flatRemove _ k n) k' = _
  have hk := (flatFind_mem h).2.1
  by_cases e : k' = k
  · subst e
    rw [if_pos rfl]
    unfold selOf
    rw [List.find?_cons]
    simp [hk]
  · rw [if_neg e, flatRemove_modify _ _ _ _ (keepsId_installed true)]
    unfold selOf
    rw [List.find?_cons]
    have : (r.key == k') = false := by rw [hk]; simpa using Ne.symm e
    simp only [this, Bool.false_and]
    exact selOf_remove_ne l k k' n e

theorem selOf_core {l l' : List Route} (e : l'.map Route.core = l.map Route.core) (k : PKey) :
    (selOf l' k).map Route.core = (selOf l k).map Route.core := by
  have hm : ∀ l : List Route, (selOf l k).map Route.core = selOf (l.map Route.core) k := by
    intro l
    unfold selOf
    rw [List.find?_map]
    rfl
  rw [hm, e, ← hm]

theorem kentry_core (c : Cfg) (r : Route) : kentry c r.core = kentry c r := rfl

theorem wantOf_core {c : Cfg} {l l' : List Route} (e : l'.map Route.core = l.map Route.core)
    (k : PKey) : wantOf c l' k = wantOf c l k := by
  have h := selOf_core e k
  unfold wantOf
  cases h1 : selOf l' k <;> cases h2 : selOf l k <;> rw [h1, h2] at h <;> simp at h ⊢
  rw [← kentry_core, h, kentry_core]

theorem FibInv.core {c : Cfg} {s s' : St} (h : FibInv c s) (e : s'.routes.map Route.core = s.routes.map Route.core)
    (hf : s'.fib = s.fib) (hk : s'.kres = s.kres) : FibInv c s' := by
  refine ⟨by rw [hk]; exact h.kres, fun r hr => ?_, fun r hr hi => ?_, fun k => ?_⟩
  · obtain ⟨r0, h0, e0⟩ := mem_core e hr
    have := h.gate r0 h0
    rw [core_eq e0]; exact this
  · obtain ⟨r0, h0, e0⟩ := mem_core e hr
    have := h.ok r0 h0 (by rw [core_eq e0] at hi; exact hi)
    rw [core_eq e0]; exact this
  · rw [hf, wantOf_core e]; exact h.fib k

/-! ### The kernel's table -/

/-- The effect of deleting an optional entry. -/
def kdel (fib : List KEntry) (o : Option KEntry) : List KEntry :=
  match o with
  | none => fib
  | some e => fib.erase e

def kreq (t : Nat) (k : PKey) (g : Bytes) (i : IfId) (m : Nat) : Option KEntry :=
  if skippedDefault k m then none else some (kernelEntry t k g i m)

theorem kernelAdd_ok {c : Cfg} {s : St} (hk : ∀ i, s.kres i = .ok) (t : Nat) {k : PKey} {g : Bytes}
    (i : IfId) (m : Nat) (hf : familyOk k g = true) (hs : srcUnsupported c k = false) :
    (kernelAdd c s t k g i m).1 = .ok ∧
    (kernelAdd c s t k g i m).2.fib = (kreq t k g i m).toList ++ s.fib ∧
    ∀ j, (kernelAdd c s t k g i m).2.kres j = .ok := by
  unfold kernelAdd kreq
  simp only [hf, hs, Bool.not_true, Bool.or_self, Bool.false_eq_true, if_false]
  cases hd : skippedDefault k m with
  | true => exact ⟨rfl, rfl, hk⟩
  | false =>
    simp only [Bool.false_eq_true, if_false, popK, hk, if_true]
    exact ⟨trivial, rfl, fun j => trivial⟩

theorem kernelAdd_fail {c : Cfg} {s : St} (hk : ∀ i, s.kres i = .ok) (t : Nat) {k : PKey} {g : Bytes}
    (i : IfId) (m : Nat) :
    ((kernelAdd c s t k g i m).1 = .fail ∧ (kernelAdd c s t k g i m).2 = s) ∨
    (familyOk k g = true ∧ srcUnsupported c k = false) := by
  cases hf : familyOk k g with
  | false => left; unfold kernelAdd; simp [hf]
  | true =>
    cases hs : srcUnsupported c k with
    | true => left; unfold kernelAdd; simp [hf, hs]
    | false => right; exact ⟨rfl, rfl⟩

theorem kernelFlush_ok {c : Cfg} {s : St} (hk : ∀ i, s.kres i = .ok) (t : Nat) {k : PKey} {g : Bytes}
    (i : IfId) (m : Nat) (hf : familyOk k g = true) (hs : srcUnsupported c k = false) :
    (kernelFlush c s t k g i m).1 = .ok ∧
    (kernelFlush c s t k g i m).2.fib = kdel s.fib (kreq t k g i m) ∧
    ∀ j, (kernelFlush c s t k g i m).2.kres j = .ok := by
  unfold kernelFlush kreq
  simp only [hf, hs, Bool.not_true, Bool.or_self, Bool.false_eq_true, if_false]
  cases hd : skippedDefault k m with
  | true => exact ⟨rfl, rfl, hk⟩
  | false =>
    simp only [Bool.false_eq_true, if_false, popK, hk, if_true]
    exact ⟨trivial, rfl, fun j => trivial⟩

theorem kreq_key {t : Nat} {k : PKey} {g : Bytes} {i : IfId} {m : Nat} {e : KEntry}
    (h : kreq t k g i m = some e) : e.key = k := by
  unfold kreq at h
  split at h
  · simp at h
  · simp at h; rw [← h]; rfl

theorem filter_kdel_ne {fib : List KEntry} {o : Option KEntry} {k k' : PKey}
    (ho : ∀ e, o = some e → e.key = k) (h : k' ≠ k) :
    (kdel fib o).filter (fun e => e.key == k') = fib.filter (fun e => e.key == k') := by
  cases o with
  | none => rfl
  | some e =>
    have he := ho e rfl
    show (fib.erase e).filter _ = _
    induction fib with
    | nil => rfl
    | cons a l ih =>
      rw [List.erase_cons]
      split
      · next hb =>
        simp at hb
        rw [List.filter_cons, hb, he]
        have : (k == k') = false := by simpa using Ne.symm h
        simp [this]
      · rw [List.filter_cons, List.filter_cons, ih]

theorem filter_kdel {fib : List KEntry} {o : Option KEntry} {k : PKey}
    (h : fib.filter (fun e => e.key == k) = o.toList) :
    (kdel fib o).filter (fun e => e.key == k) = [] := by
  cases o with
  | none => exact h
  | some e =>
    have he : e.key = k := by
      have : e ∈ fib.filter (fun e => e.key == k) := by rw [h]; simp
      simpa using (List.mem_filter.1 this).2
    show (fib.erase e).filter _ = _
    simp only [Option.toList] at h
    induction fib with
    | nil => simp at h
    | cons a l ih =>
      rw [List.erase_cons]
      rw [List.filter_cons] at h
      split
      · next hb =>
        simp at hb
        subst hb
        simp [he] at h
        simpa using h
      · next hb =>
        simp at hb
        split at h
        · simp at h; exact absurd h.1 hb
        · next hk =>
          rw [List.filter_cons]
          simp only [hk, Bool.false_eq_true, if_false]
          exact ih h

theorem filter_kadd {fib : List KEntry} {o : Option KEntry} {k k' : PKey}
    (ho : ∀ e, o = some e → e.key = k) :
    (o.toList ++ fib).filter (fun e => e.key == k') =
      (if k' = k then o.toList else []) ++ fib.filter (fun e => e.key == k') := by
  rw [List.filter_append]
  congr 1
  cases o with
  | none => simp
  | some e =>
    have he := ho e rfl
    simp only [Option.toList, List.filter_cons, he, List.filter_nil]
    by_cases hk : k' = k
    · simp [hk]
    · have : (k == k') = false := by simpa using Ne.symm hk
      simp [hk, this]

theorem kentry_kreq (c : Cfg) (r : Route) : kentry c r =
    kreq (routeTable c r) r.key r.nexthop (c.ifOf r.neigh) (metricToKernel c (routeMetric r)) := rfl

/-- `kernel_route(ROUTE_MODIFY)` when the kernel does what it is told. -/
theorem kernelModify_ok {c : Cfg} {s : St} (hk : ∀ i, s.kres i = .ok) (t : Nat) {k : PKey} {g : Bytes}
    (i : IfId) (m : Nat) (g' : Bytes) (i' : IfId) (m' : Nat)
    (hf : familyOk k g = true) (hs : srcUnsupported c k = false)
    (hw : s.fib.filter (fun e => e.key == k) = (kreq t k g i m).toList) :
    (∀ k', k' ≠ k → (kernelModify c s t k g i m g' i' m').2.fib.filter (fun e => e.key == k') =
      s.fib.filter (fun e => e.key == k')) ∧
    (∀ j, (kernelModify c s t k g i m g' i' m').2.kres j = .ok) ∧
    (familyOk k g' = true → (kernelModify c s t k g i m g' i' m').1 = true ∧
      (kernelModify c s t k g i m g' i' m').2.fib.filter (fun e => e.key == k) =
        (kreq t k g' i' m').toList) := by
  unfold kernelModify
  simp only [hf, Bool.not_true, Bool.false_eq_true, if_false]
  by_cases he : m' = m ∧ g' = g ∧ i' = i
  · rw [if_pos he]
    exact ⟨fun _ _ => rfl, hk, fun _ => ⟨rfl, by rw [he.1, he.2.1, he.2.2]; exact hw⟩⟩
  · rw [if_neg he]
    obtain ⟨-, f2, f3⟩ := kernelFlush_ok (c := c) hk t i m hf hs
    simp only
    rcases kernelAdd_fail (c := c) f3 t (k := k) (g := g') i' m' with ⟨a1, a2⟩ | ⟨hf', -⟩
    · refine ⟨fun k' hne => ?_, by rw [a2]; exact f3, fun hf' => ?_⟩
      · rw [a2, f2, filter_kdel_ne (fun e => kreq_key) hne]
      · have := (kernelAdd_ok (c := c) f3 t i' m' hf' hs).1
        rw [a1] at this; simp at this
    · obtain ⟨b1, b2, b3⟩ := kernelAdd_ok (c := c) f3 t i' m' hf' hs
      refine ⟨fun k' hne => ?_, b3, fun _ => ⟨by rw [b1]; rfl, ?_⟩⟩
      · rw [b2, filter_kadd (fun e => kreq_key), if_neg hne, f2, filter_kdel_ne (fun e => kreq_key) hne]
        rfl
      · rw [b2, filter_kadd (fun e => kreq_key), if_pos rfl, f2, filter_kdel hw]
        simp

/-! ### Transitions -/

theorem core_modify {l l' : List Route} (e : l.map Route.core = l'.map Route.core) {k : PKey}
    {n : NeighId} {f g : Route → Route} (hf : ∀ r, (f r).core = g r.core)
    (hg : ∀ r, g r.core = (g r).core) :
    (flatModify l k n f).map Route.core = (flatModify l' k n g).map Route.core := by
  induction l generalizing l' with
  | nil =>
    cases l' with
    | nil => rfl
    | cons => simp at e
  | cons a l ih =>
    cases l' with
    | nil => simp at e
    | cons b l' =>
      simp only [List.map_cons, List.cons.injEq] at e
      have := ih e.2
      simp only [flatModify, List.map_cons, List.cons.injEq] at this ⊢
      refine ⟨?_, this⟩
      have hk : a.key = b.key := by have := congrArg Route.key e.1; exact this
      have hn : a.neigh = b.neigh := by have := congrArg Route.neigh e.1; exact this
      rw [hk, hn]
      split
      · rw [hf, e.1, hg]
      · exact e.1

theorem wantOf_ne {c : Cfg} {l l' : List Route} {k : PKey} (h : selOf l' k = selOf l k) :
    wantOf c l' k = wantOf c l k := by unfold wantOf; rw [h]

theorem wantOf_some {c : Cfg} {l : List Route} {k : PKey} {r : Route} (h : selOf l k = some r) :
    wantOf c l k = kentry c r := by unfold wantOf; rw [h]; rfl

theorem wantOf_none {c : Cfg} {l : List Route} {k : PKey} (h : selOf l k = none) :
    wantOf c l k = none := by unfold wantOf; rw [h]; rfl

/-- A change of the routes that the kernel need not know. -/
theorem FibInv.modify {c : Cfg} {s s' : St} (h : FibInv c s) (k : PKey) (n : NeighId)
    (f : Route → Route) (hr : s'.routes = flatModify s.routes k n f)
    (hfib : s'.fib = s.fib) (hk : s'.kres = s.kres)
    (hf : ∀ r, (f r).key = r.key ∧ (f r).nexthop = r.nexthop ∧ (f r).installed = r.installed ∧
      kentry c (f r) = kentry c r) : FibInv c s' := by
  refine ⟨by rw [hk]; exact h.kres, fun r hm => ?_, fun r hm hi => ?_, fun k' => ?_⟩
  · rw [hr] at hm
    rcases mem_flatModify hm with ⟨x, hx, -, -, e⟩ | ⟨hx, -⟩
    · rw [e, (hf x).1, (hf x).2.1]; exact h.gate x hx
    · exact h.gate r hx
  · rw [hr] at hm
    rcases mem_flatModify hm with ⟨x, hx, -, -, e⟩ | ⟨hx, -⟩
    · rw [e] at hi ⊢
      rw [(hf x).1]; exact h.ok x hx (by rw [← (hf x).2.2.1]; exact hi)
    · exact h.ok r hx hi
  · rw [hfib, h.fib, hr]
    unfold wantOf
    rw [selOf_modify _ _ _ _ _ (fun r => (hf r).1) (fun r => (hf r).2.2.1)]
    cases selOf s.routes k' with
    | none => rfl
    | some x =>
      simp only [Option.map_some, Option.bind_some]
      split
      · rw [(hf x).2.2.2]
      · rfl

theorem FibInv.out {c : Cfg} {s s' : St} (h : FibInv c s) (hr : s'.routes = s.routes)
    (hfib : s'.fib = s.fib) (hk : s'.kres = s.kres) : FibInv c s' :=
  ⟨by rw [hk]; exact h.kres, by rw [hr]; exact h.gate, by rw [hr]; exact h.ok,
    by rw [hfib, hr]; exact h.fib⟩

theorem FibInv.notify {c : Cfg} {s : St} (h : FibInv c s) (kd : NKind) (k : PKey) (n : NeighId) :
    FibInv c (notifyRoute s kd k n) :=
  h.out (notifyRoute_routes ..) (notifyRoute_fib ..) (notifyRoute_kres ..)

theorem kentry_of (c : Cfg) {a b : Route} (h1 : a.key = b.key) (h2 : a.nexthop = b.nexthop)
    (h3 : a.neigh = b.neigh) (h4 : routeMetric a = routeMetric b)
    (h5 : routeTable c a = routeTable c b) : kentry c a = kentry c b := by
  unfold kentry; rw [h1, h2, h3, h4, h5]

theorem FibInv.install {c : Cfg} {s : St} (h : FibInv c s) (hl : LInv c s.routes) {k : PKey}
    {n : NeighId} {r : Route} (hr : findRoute s k n = some r) (hi : r.installed = false)
    (hf : routeFeasible s r = true) : FibInv c (installRoute c s k n) := by
  obtain ⟨hm, hkey, hn⟩ := findRoute_mem hr
  have hg := h.gate r hm
  rcases installRoute_cases (c := c) hr hi hf with ⟨-, e⟩ | ⟨-, h1, e⟩ | ⟨hno, h1, e⟩
  · rw [e]; exact h.out rfl rfl rfl
  · rw [e]
    have hro := (konly_changeAdd c s r (metricToKernel c (routeMetric r))).routes
    unfold changeAdd at h1 hro ⊢
    split
    · exact h
    · next hd =>
      rw [if_neg hd] at h1 hro
      rcases kernelAdd_fail (c := c) h.kres (routeTable c r) (k := r.key) (g := r.nexthop)
        (c.ifOf r.neigh) (metricToKernel c (routeMetric r)) with ⟨-, e2⟩ | ⟨f1, f2⟩
      · rw [e2]; exact h
      · rw [(kernelAdd_ok h.kres _ _ _ f1 f2).1] at h1; simp at h1
  · rw [e]
    have hd : ¬ (c.installFilter r.id r.key (c.ifOf r.neigh)).1 ≥ INFINITY := by
      intro hd; unfold changeAdd at h1; rw [if_pos hd] at h1; simp at h1
    have hsrc : srcUnsupported c r.key = false := by
      unfold changeAdd at h1
      rw [if_neg hd] at h1
      rcases kernelAdd_fail (c := c) h.kres (routeTable c r) (k := r.key) (g := r.nexthop)
        (c.ifOf r.neigh) (metricToKernel c (routeMetric r)) with ⟨e2, -⟩ | ⟨f1, f2⟩
      · exact absurd e2 h1
      · exact f2
    obtain ⟨a1, a2, a3⟩ := kernelAdd_ok (c := c) h.kres (routeTable c r) (c.ifOf r.neigh)
      (metricToKernel c (routeMetric r)) hg hsrc
    have ech : changeAdd c s r (metricToKernel c (routeMetric r)) =
        kernelAdd c s (routeTable c r) r.key r.nexthop (c.ifOf r.neigh)
          (metricToKernel c (routeMetric r)) := by
      unfold changeAdd; rw [if_neg hd]
    have hro := (konly_changeAdd c s r (metricToKernel c (routeMetric r))).routes
    apply FibInv.notify
    rw [ech] at hro ⊢
    have hrt : (markInstalled (kernelAdd c s (routeTable c r) r.key r.nexthop (c.ifOf r.neigh)
          (metricToKernel c (routeMetric r))).2 k n none).routes =
        flatMove (flatModify s.routes k n (fun r => { r with installed := true })) k n := by
      show flatMove (flatModify (kernelAdd c s _ _ _ _ _).2.routes k n _) k n = _
      rw [hro]
    refine ⟨a3, fun x hx => ?_, fun x hx hxi => ?_, fun k' => ?_⟩
    · rw [hrt] at hx
      rcases mem_flatModify (mem_flatMove hx) with ⟨y, hy, -, -, e⟩ | ⟨hy, -⟩
      · rw [e]; exact h.gate y hy
      · exact h.gate x hy
    · rw [hrt] at hx
      rcases mem_flatModify (mem_flatMove hx) with ⟨y, hy, h4, -, e⟩ | ⟨hy, -⟩
      · rw [e]; show srcUnsupported c y.key = false; rw [h4, ← hkey]; exact hsrc
      · exact h.ok x hy hxi
    · show (kernelAdd c s _ _ _ _ _).2.fib.filter _ = _
      rw [a2, filter_kadd (fun e => kreq_key), hrt, h.fib]
      by_cases hk : k' = k
      · rw [hk, wantOf_some (r := { r with installed := true })
          ((selOf_mark hr k).trans (if_pos rfl)), if_pos hkey.symm,
          wantOf_none (by rw [selOf_findInstalled hl]; exact hno)]
        exact List.append_nil _
      · rw [if_neg (by rw [hkey]; exact hk), wantOf_ne ((selOf_mark hr k').trans (if_neg hk))]
        rfl

theorem FibInv.uninstall {c : Cfg} {s : St} (h : FibInv c s) (hl : LInv c s.routes) (k : PKey)
    (n : NeighId) : FibInv c (uninstallRoute c s k n) := by
  cases hr : findRoute s k n with
  | none => rw [uninstallRoute_noop (by rw [hr]; simp)]; exact h
  | some r =>
    cases hi : r.installed with
    | false => rw [uninstallRoute_noop (by rw [hr]; simp [hi])]; exact h
    | true =>
      obtain ⟨hm, hkey, hn⟩ := findRoute_mem hr
      rw [uninstallRoute_eq hr hi]
      have hkres : ∀ i, (modRoute s k n (fun r => { r with installed := false })).kres i = .ok := h.kres
      obtain ⟨f1, f2, f3⟩ := kernelFlush_ok (c := c) hkres (routeTable c r) (c.ifOf r.neigh)
        (metricToKernel c (routeMetric r)) (h.gate r hm) (h.ok r hm hi)
      have hro := (konly_changeFlush c (modRoute s k n (fun r => { r with installed := false })) r
        (metricToKernel c (routeMetric r))).routes
      simp only
      unfold changeFlush at hro ⊢
      rw [if_pos f1]
      apply FibInv.notify
      have hrt : (kernelFlush c (modRoute s k n (fun r => { r with installed := false }))
          (routeTable c r) r.key r.nexthop (c.ifOf r.neigh) (metricToKernel c (routeMetric r))).2.routes =
          flatModify s.routes k n (fun r => { r with installed := false }) := hro
      refine ⟨f3, fun x hx => ?_, fun x hx hxi => ?_, fun k' => ?_⟩
      · rw [hrt] at hx
        rcases mem_flatModify hx with ⟨y, hy, -, -, e⟩ | ⟨hy, -⟩
        · rw [e]; exact h.gate y hy
        · exact h.gate x hy
      · rw [hrt] at hx
        rcases mem_flatModify hx with ⟨y, hy, h4, -, e⟩ | ⟨hy, -⟩
        · rw [e] at hxi; simp at hxi
        · exact h.ok x hy hxi
      · rw [f2, hrt]
        show (kdel s.fib _).filter _ = _
        have hsel : selOf s.routes k = some r := (selOf_iff hl).2 ⟨hm, hkey, hi⟩
        by_cases hk : k' = k
        · subst hk
          have hno : selOf (flatModify s.routes k' n (fun r => { r with installed := false })) k' = none := by
            rw [selOf_none, ← hn]; exact hl.noneInstalled_after hm hkey hi
          rw [wantOf_none hno]
          refine filter_kdel ?_
          rw [h.fib, wantOf_some hsel]; rfl
        · have hw := wantOf_ne (c := c) (selOf_ne s.routes k k' n (fun r => { r with installed := false })
            (fun _ => rfl) hk)
          rw [hw, ← h.fib]
          exact filter_kdel_ne (k := k) (fun e he => (kreq_key he).trans hkey) hk

theorem FibInv.switch {c : Cfg} {s : St} (h : FibInv c s) (ht : TableByKey c) (hl : LInv c s.routes)
    {k : PKey} {m n : NeighId} {o r : Route} (ho : findRoute s k m = some o)
    (hoi : o.installed = true)
    (hr : findRoute s k n = some r)
    (hf : routeFeasible s r = true) : FibInv c (switchRoutes c s k m n) := by
  obtain ⟨om, okey, on⟩ := findRoute_mem ho
  obtain ⟨hm, hkey, hn⟩ := findRoute_mem hr
  have hsel : selOf s.routes k = some o := (selOf_iff hl).2 ⟨om, okey, hoi⟩
  have hw : s.fib.filter (fun e => e.key == o.key) =
      (kreq (routeTable c o) o.key o.nexthop (c.ifOf o.neigh) (metricToKernel c (routeMetric o))).toList := by
    rw [h.fib, okey, wantOf_some hsel, ← okey]; rfl
  have hsrc := h.ok o om hoi
  have hmod := kernelModify_ok (c := c) h.kres (routeTable c o) (c.ifOf o.neigh)
    (metricToKernel c (routeMetric o)) r.nexthop (c.ifOf r.neigh) (metricToKernel c (routeMetric r))
    (h.gate o om) hsrc hw
  obtain ⟨g1, g2, g3⟩ := hmod
  obtain ⟨g3, g4⟩ := g3 (by rw [okey, ← hkey]; exact h.gate r hm)
  rcases switchRoutes_cases (c := c) ho hr hf with ⟨e, -⟩ | ⟨-, e, -⟩ | ⟨-, -, e⟩
  · rw [hoi] at e; simp at e
  · unfold changeModify at e; rw [g3] at e; simp at e
  · rw [e]
    apply FibInv.notify
    apply FibInv.notify
    have hro := (konly_changeModify c s o (metricToKernel c (routeMetric o)) r.nexthop (c.ifOf r.neigh)
        (metricToKernel c (routeMetric r))).routes
    unfold changeModify at hro ⊢
    generalize hs2 : (kernelModify c s (routeTable c o) o.key o.nexthop (c.ifOf o.neigh)
      (metricToKernel c (routeMetric o)) r.nexthop (c.ifOf r.neigh) (metricToKernel c (routeMetric r))).2
      = s2 at *
    have hrt : (markInstalled (modRoute s2 k m (fun r => { r with installed := false })) k n (some o)).routes =
        flatMove (flatModify (flatModify s.routes k m (fun r => { r with installed := false })) k n
          (fun r => { r with installed := true })) k n := by
      show flatMove (flatModify (flatModify s2.routes k m _) k n _) k n = _
      rw [hro]
    have hr' : ∃ r', flatFind (flatModify s.routes k m (fun r => { r with installed := false })) k n =
        some r' ∧ kentry c { r' with installed := true } = kentry c r := by
      rw [flatFind_modify _ _ _ _ _ _ (keepsId_installed false)]
      by_cases hnm : n = m
      · subst hnm
        have hr0 : flatFind s.routes k n = some r := hr
        rw [hr0]
        exact ⟨{ r with installed := false }, by simp, rfl⟩
      · exact ⟨r, by simp [hnm]; exact hr, rfl⟩
    obtain ⟨r', hr', hke⟩ := hr'
    have hmem : ∀ x ∈ (markInstalled (modRoute s2 k m (fun r => { r with installed := false })) k n (some o)).routes,
        ∃ y ∈ s.routes, x.key = y.key ∧ x.nexthop = y.nexthop ∧
          (x.installed = true → x.key = k ∨ y.installed = true) := by
      intro x hx
      rw [hrt] at hx
      rcases mem_flatModify (mem_flatMove hx) with ⟨y, hy, h4, -, e⟩ | ⟨hy, -⟩
      · rcases mem_flatModify hy with ⟨z, hz, -, -, e2⟩ | ⟨hz, -⟩
        · exact ⟨z, hz, by rw [e, e2], by rw [e, e2], fun _ => .inl (by rw [e]; exact h4)⟩
        · exact ⟨y, hz, by rw [e], by rw [e], fun _ => .inl (by rw [e]; exact h4)⟩
      · rcases mem_flatModify hy with ⟨z, hz, -, -, e2⟩ | ⟨hz, -⟩
        · exact ⟨z, hz, by rw [e2], by rw [e2], fun hi => by rw [e2] at hi; simp at hi⟩
        · exact ⟨x, hz, rfl, rfl, fun hi => .inr hi⟩
    refine ⟨g2, fun x hx => ?_, fun x hx hxi => ?_, fun k' => ?_⟩
    · obtain ⟨y, hy, e1, e2, -⟩ := hmem x hx
      rw [e1, e2]; exact h.gate y hy
    · obtain ⟨y, hy, e1, e2, e3⟩ := hmem x hx
      rcases e3 hxi with e3 | e3
      · rw [e3, ← okey]; exact hsrc
      · rw [e1]; exact h.ok y hy e3
    · show s2.fib.filter _ = _
      rw [hrt]
      by_cases hk : k' = k
      · rw [hk, wantOf_some ((selOf_mark hr' k).trans (if_pos rfl)), hke, ← okey, g4]
        rw [kentry_kreq, ht o r (by rw [okey, hkey]), okey, ← hkey]
      · have hw := wantOf_ne (c := c) (selOf_ne s.routes k k' m (fun r => { r with installed := false })
          (fun _ => rfl) hk)
        rw [wantOf_ne ((selOf_mark hr' k').trans (if_neg hk)), hw, ← h.fib]
        exact g1 k' (by rw [okey]; exact hk)

theorem FibInv.metric {c : Cfg} {s : St} (h : FibInv c s) (hl : LInv c s.routes) (k : PKey)
    (n : NeighId) (refm cost add : Nat) : FibInv c (changeRouteMetric c s k n refm cost add) := by
  cases hr : findRoute s k n with
  | none => rw [changeRouteMetric_noop _ _ _ hr]; exact h
  | some r =>
    obtain ⟨hm, hkey, hn⟩ := findRoute_mem hr
    have hw : r.installed = true → s.fib.filter (fun e => e.key == r.key) =
        (kreq (routeTable c r) r.key r.nexthop (c.ifOf r.neigh) (metricToKernel c (routeMetric r))).toList := by
      intro hi
      have hsel : selOf s.routes k = some r := (selOf_iff hl).2 ⟨hm, hkey, hi⟩
      rw [h.fib, hkey, wantOf_some hsel, ← hkey]; rfl
    have hmod := fun hi => kernelModify_ok (c := c) h.kres (routeTable c r) (c.ifOf r.neigh)
      (metricToKernel c (routeMetric r)) r.nexthop (c.ifOf r.neigh)
      (metricToKernel c (min (refm + cost + add) INFINITY)) (h.gate r hm) (h.ok r hm hi) (hw hi)
    rcases changeRouteMetric_cases (c := c) refm cost add hr with ⟨hi, e1, -⟩ | ⟨s1, h1, e⟩
    · have := ((hmod hi).2.2 (h.gate r hm)).1
      unfold changeModify at e1
      rw [this] at e1; simp at e1
    · rw [e]
      apply FibInv.notify
      -- the state after the kernel operation
      have hs1 : s1.routes = s.routes ∧ (∀ j, s1.kres j = .ok) ∧
          (∀ k', k' ≠ k → s1.fib.filter (fun e => e.key == k') = s.fib.filter (fun e => e.key == k')) ∧
          (r.installed = true → s1.fib.filter (fun e => e.key == k) =
            (kreq (routeTable c r) r.key r.nexthop (c.ifOf r.neigh)
              (metricToKernel c (min (refm + cost + add) INFINITY))).toList) ∧
          (r.installed = false → s1.fib = s.fib) := by
        rcases h1 with ⟨hi, -, h1⟩ | ⟨hi, h1⟩
        · have hro := (konly_changeModify c s r (metricToKernel c (routeMetric r)) r.nexthop (c.ifOf r.neigh)
              (metricToKernel c (min (refm + cost + add) INFINITY))).routes
          obtain ⟨g1, g2, g3⟩ := hmod hi
          unfold changeModify at h1 hro
          rw [h1] at g1 g2 g3 hro
          exact ⟨hro, g2, fun k' hk => g1 k' (by rw [hkey]; exact hk),
            fun _ => by rw [← hkey]; exact (g3 (h.gate r hm)).2, fun hf => by rw [hi] at hf; simp at hf⟩
        · subst h1
          refine ⟨rfl, h.kres, fun _ _ => rfl, fun hin => ?_, fun _ => rfl⟩
          rcases hi with hi | hi
          · rw [hi] at hin; simp at hin
          · rw [← hi, ← hkey]; exact hw hin
      obtain ⟨q1, q2, q3, q4, q5⟩ := hs1
      have hfr := frame_smooth c s1 k n
      have hroutes : (modRoute (smoothRoute c s1 k n).2 k n (setMetric c s.now.sec refm cost add)).routes.map
          Route.core = (flatModify s.routes k n (setRc refm cost add)).map Route.core := by
        refine core_modify ?_ (fun r => setMetric_core c _ _ _ _ r) (fun _ => rfl)
        rw [hfr.routes, q1]
      have key : FibInv c { s1 with routes := flatModify s.routes k n (setRc refm cost add) } := by
        refine ⟨q2, fun x hx => ?_, fun x hx hxi => ?_, fun k' => ?_⟩
        · rcases mem_flatModify hx with ⟨y, hy, -, -, e⟩ | ⟨hy, -⟩
          · rw [e]; exact h.gate y hy
          · exact h.gate x hy
        · rcases mem_flatModify hx with ⟨y, hy, -, -, e⟩ | ⟨hy, -⟩
          · rw [e] at hxi ⊢; exact h.ok y hy hxi
          · exact h.ok x hy hxi
        · show s1.fib.filter _ = (wantOf c (flatModify s.routes k n (setRc refm cost add)) k').toList
          by_cases hk : k' = k
          · subst hk
            cases hi : r.installed with
            | true =>
              have hsel : selOf s.routes k' = some r := (selOf_iff hl).2 ⟨hm, hkey, hi⟩
              rw [q4 hi]
              unfold wantOf
              rw [selOf_modify _ _ _ _ (setRc refm cost add) (fun _ => rfl) (fun _ => rfl), hsel]
              simp only [Option.map_some, Option.bind_some]
              rw [if_pos (by simp [hkey, hn])]
              rfl
            | false =>
              rw [q5 hi, h.fib]
              unfold wantOf
              rw [selOf_modify _ _ _ _ (setRc refm cost add) (fun _ => rfl) (fun _ => rfl)]
              cases hsel : selOf s.routes k' with
              | none => rfl
              | some x =>
                simp only [Option.map_some, Option.bind_some]
                obtain ⟨hx1, hx2, hx3⟩ := (selOf_iff hl).1 hsel
                rw [if_neg]
                intro hc
                simp at hc
                have := onePerNeigh_unique hl.one hx1 hm (by rw [hc.1, hkey]) (by rw [hc.2, hn])
                rw [this, hi] at hx3; simp at hx3
          · have hw := wantOf_ne (c := c) (selOf_ne s.routes k k' n (setRc refm cost add)
              (fun _ => rfl) hk)
            rw [hw, q3 k' hk, h.fib]
      exact key.core hroutes hfr.fib hfr.kres

theorem M.fib {c : Cfg} {A : Allow} {s s' : St} {ex ex' : List SKey} (ht : TableByKey c)
    (hg : ∀ k g, KeyOk k → A.gate k g → familyOk k g = true) (h : M c A s ex s' ex')
    (hl : LInv c s.routes) (hi : FibInv c s) : FibInv c s' := by
  cases h with
  | q h => exact hi.core h.same.routes h.same.fib h.same.kres
  | install h1 h2 h3 h4 => exact hi.install hl h1 h2 h3
  | @switch s k n r o ho hr h3 hf h4 h5 h6 =>
    obtain ⟨hm, hok, hoi⟩ := findInstalled_mem ho
    have hfo : findRoute s k o.neigh = some o := by rw [← hok]; exact findRoute_of_mem hl hm
    exact hi.switch ht hl hfo hoi hr hf
  | uninstall k n => exact hi.uninstall hl k n
  | recost h1 h2 => exact hi.metric hl _ _ _ _ _
  | retract k n => exact hi.metric hl _ _ _ _ _
  | @expire s k n r q h1 h2 h3 =>
    refine FibInv.metric ?_ ?_ _ _ _ _ _
    · exact hi.modify k n (fun r => { r with seqno := q }) rfl rfl rfl (fun r => ⟨rfl, rfl, rfl, rfl⟩)
    · exact hl.modify k n (fun _ => ⟨rfl, rfl⟩) (fun _ e => e) (fun _ e => e)
  | @apply s r id q refm add hold u h1 h2 h3 h4 h5 h6 =>
    unfold applyUpdate
    simp only
    have key : ∃ s2, (if u = true then uninstallRoute c s r.key r.neigh else s) = s2 ∧
        FibInv c s2 ∧ LInv c s2.routes := by
      cases u with
      | false => exact ⟨s, rfl, hi, hl⟩
      | true => exact ⟨_, rfl, hi.uninstall hl _ _, hl.uninstall _ _⟩
    obtain ⟨s2, e2, hi2, hl2⟩ := key
    rw [e2]
    have hf3 : FibInv c (modRoute (retainSource s2 ⟨id, r.key⟩) r.key r.neigh
        (updRoute s.now.sec id q refm)) :=
      hi2.modify _ _ (updRoute s.now.sec id q refm) rfl rfl rfl
        (fun x => ⟨rfl, rfl, rfl, kentry_of c rfl rfl rfl rfl (ht _ _ rfl)⟩)
    have hl3 : LInv c (modRoute (retainSource s2 ⟨id, r.key⟩) r.key r.neigh
        (updRoute s.now.sec id q refm)).routes :=
      hl2.modify _ _ (keepsId_updRoute _ _ _ _) (fun _ e => e) (fun _ _ => h3)
    exact (hf3.metric hl3 r.key r.neigh refm (s.ncost r.neigh) add).modify _ _
      (fun r => { r with holdTime := hold }) rfl rfl rfl (fun r => ⟨rfl, rfl, rfl, rfl⟩)
  | insert k n id q refm add hold nh h1 h2 h3 h4 h5 h6 h7 =>
    apply FibInv.notify
    refine ⟨hi.kres, fun x hx => ?_, fun x hx hxi => ?_, fun k' => ?_⟩
    · have hx : x ∈ flatInsert s.routes (newRoute s k n id q refm add hold nh) := hx
      unfold flatInsert at hx
      rw [List.mem_append] at hx
      rcases hx with hx | hx
      · exact hi.gate x hx
      · simp at hx; rw [hx]; exact hg _ _ h5 h7
    · have hx : x ∈ flatInsert s.routes (newRoute s k n id q refm add hold nh) := hx
      unfold flatInsert at hx
      rw [List.mem_append] at hx
      rcases hx with hx | hx
      · exact hi.ok x hx hxi
      · simp at hx; rw [hx] at hxi; simp [newRoute] at hxi
    · show s.fib.filter _ = (wantOf c (flatInsert s.routes _) k').toList
      rw [wantOf_ne (selOf_insert _ _ _ rfl)]; exact hi.fib k'
  | @unlink s k n r h1 h2 hA' =>
    have hn := hi.notify .flush k n
    have hrr : (notifyRoute s .flush k n).routes = s.routes := notifyRoute_routes ..
    refine ⟨hn.kres, fun x hx => hn.gate x (List.mem_filter.1 hx).1,
      fun x hx => hn.ok x (List.mem_filter.1 hx).1, fun k' => ?_⟩
    show (notifyRoute s .flush k n).fib.filter _ = (wantOf c (flatRemove _ k n) k').toList
    rw [wantOf_ne (selOf_remove _ _ _ _ (fun x hx hk hn => ?_))]
    · exact hn.fib k'
    · rw [hrr] at hx
      have hm := findRoute_mem h1
      rw [onePerNeigh_unique hl.one hx hm.1 (by rw [hk, hm.2.1]) (by rw [hn, hm.2.2])]
      exact h2
  | release k => exact hi.out rfl rfl rfl
  | ensure k q =>
    have h1 : (ensureSource s k q).routes = s.routes := (ensure_routes ..).1
    have h2 : (ensureSource s k q).fib = s.fib := by unfold ensureSource; split <;> rfl
    have h3 : (ensureSource s k q).kres = s.kres := by unfold ensureSource; split <;> rfl
    exact hi.out h1 h2 h3
  | gc hA' => exact hi.out rfl rfl rfl
  | xadd kr h1 h2 h3 hA' => unfold addXroute; rw [h1]; exact hi.out rfl rfl rfl
  | xdel x hx hA' => exact hi.out rfl rfl rfl
  | xmod x m p hx hm _ hA' => exact hi.out rfl rfl rfl
  | bump _ => exact hi.out rfl rfl rfl
  | tick t _ => exact hi.out rfl rfl rfl
  | cost n v _ => exact hi.out rfl rfl rfl

theorem Ms.fib {c : Cfg} {A : Allow} {s s' : St} {ex ex' : List SKey} (ht : TableByKey c)
    (hg : ∀ k g, KeyOk k → A.gate k g → familyOk k g = true) (h : Ms c A s ex s' ex')
    (hl : Inv c s ex) (hi : FibInv c s) : FibInv c s' := by
  induction h with
  | refl => exact hi
  | step h m ih => exact m.fib ht hg (h.inv hl).lst ih

end Babel
