import Verif.Lemmas.Fib
import Verif.Lemmas.Outs
import Verif.Spec.Monitor
/-
What the clients are told agrees with the tables.
-/
set_option linter.unusedSimpArgs false
set_option linter.unusedVariables false
set_option linter.unusedSectionVars false
namespace Babel
open Spec

theorem read_other {o : Out} (h : isLine o = false) (p : Picture) : p.read o = p ∧ MakesSense p o := by
  cases o <;> first | exact ⟨rfl, trivial⟩ | cases h

theorem picture_append_other {new l : List Out} (h : ∀ o ∈ new, isLine o = false) :
    picture (new ++ l) = picture l ∧ (AllMakeSense (new ++ l) ↔ AllMakeSense l) := by
  induction new with
  | nil => exact ⟨rfl, Iff.rfl⟩
  | cons o new ih =>
    obtain ⟨e, w⟩ := ih fun x hx => h x (List.mem_cons_of_mem _ hx)
    have ho := h o (List.mem_cons_self ..)
    refine ⟨?_, ?_⟩
    · show (picture (new ++ l)).read o = _
      rw [(read_other ho _).1, e]
    · show MakesSense _ o ∧ AllMakeSense (new ++ l) ↔ _
      rw [w]
      exact ⟨And.right, fun x => ⟨(read_other ho _).2, x⟩⟩

theorem picture_filter (l : List Out) (p : Out → Bool) (hp : ∀ o, p o = false → isLine o = false) :
    picture (l.filter p) = picture l ∧ (AllMakeSense (l.filter p) ↔ AllMakeSense l) := by
  induction l with
  | nil => exact ⟨rfl, Iff.rfl⟩
  | cons o l ih =>
    obtain ⟨e, w⟩ := ih
    rw [List.filter_cons]
    cases ho : p o with
    | true =>
      refine ⟨?_, ?_⟩
      · show (picture _).read o = (picture _).read o
        rw [e]
      · show MakesSense _ o ∧ AllMakeSense _ ↔ MakesSense _ o ∧ AllMakeSense _
        rw [e, w]
    | false =>
      have := picture_append_other (new := [o]) (l := l) (by simpa using hp o ho)
      exact ⟨e.trans this.1.symm, w.trans this.2.symm⟩

/-- Two outputs that say the same to a client. -/
def SameTalk (a b : List Out) : Prop := picture a = picture b ∧ (AllMakeSense a ↔ AllMakeSense b)

theorem SameTalk.refl (a : List Out) : SameTalk a a := ⟨rfl, Iff.rfl⟩
theorem SameTalk.trans {a b d : List Out} (h : SameTalk a b) (g : SameTalk b d) : SameTalk a d :=
  ⟨h.1.trans g.1, h.2.trans g.2⟩
theorem SameTalk.of_eq {a b : List Out} (h : a = b) : SameTalk a b := h ▸ .refl a

theorem Frame.talk {s s' : St} (h : Frame s s') : SameTalk s'.out s.out := by
  have hp : ∀ o : Out, (!o.minor) = false → isLine o = false := by
    intro o ho; cases o <;> first | rfl | cases ho
  have h1 := picture_filter s'.out _ hp
  have h2 := picture_filter s.out _ hp
  rw [h.out] at h1
  exact ⟨h1.1.symm.trans h2.1, h1.2.symm.trans h2.2⟩

theorem talk_emit {s : St} {o : Out} (h : isLine o = false) : SameTalk (emit s o).out s.out :=
  picture_append_other (new := [o]) (l := s.out) (by simpa using h)

theorem talk_reallySend (c : Cfg) (s : St) (i : IfId) (id : Bytes) (k : PKey) (q : UInt16) (m : Nat) :
    SameTalk (reallySend c s i id k q m).out s.out := by
  rcases reallySend_eq c s i id k q m with h | ⟨m', h, -⟩
  · rw [h]; exact .refl _
  · rw [h]; exact talk_emit rfl

theorem QM.talk {c : Cfg} {s s' : St} (h : QM c s s') : SameTalk s'.out s.out := by
  cases h with
  | frame h => exact h.talk
  | own => exact talk_reallySend ..
  | retraction => exact talk_reallySend ..
  | route => exact talk_reallySend ..

/-- A relation between what a client was told and what is true. -/
structure TalkRel (R : RouteLine → RouteLine → Prop) : Prop where
  refl : ∀ a, R a a

/-- The relation also holds after changes that were not announced. -/
structure Loose (R : RouteLine → RouteLine → Prop) : Prop where
  off : ∀ a b, R a b → R a { b with installed := false }
  id : ∀ a b i, R a b → R a { b with id := i }

/-- The picture agrees with the routes, except perhaps for the routes in `X`. -/
structure Pic (R : RouteLine → RouteLine → Prop) (X : PKey → NeighId → Prop) (s : St) : Prop where
  wf : AllMakeSense s.out
  dom : ∀ k n, ((picture s.out).routes k n).isSome = (findRoute s k n).isSome
  val : ∀ k n, ¬ X k n → ∀ a r, (picture s.out).routes k n = some a → findRoute s k n = some r → R a (lineOf r)

section
variable {R : RouteLine → RouteLine → Prop} {X : PKey → NeighId → Prop} {s s' : St}

theorem Pic.mono {Y : PKey → NeighId → Prop} (h : Pic R X s) (hxy : ∀ k n, X k n → Y k n) : Pic R Y s :=
  ⟨h.wf, h.dom, fun k n hn => h.val k n fun hx => hn (hxy k n hx)⟩

/-- The same routes up to what lines show. -/
theorem Pic.same (h : Pic R X s) (ht : SameTalk s'.out s.out)
    (hr : ∀ k n, (findRoute s' k n).map lineOf = (findRoute s k n).map lineOf) : Pic R X s' := by
  refine ⟨ht.2.2 h.wf, fun k n => ?_, fun k n hx a r ha hfr => ?_⟩
  · rw [ht.1, h.dom]
    have := congrArg Option.isSome (hr k n)
    simpa using this.symm
  · rw [ht.1] at ha
    have e := hr k n
    rw [hfr] at e
    cases hf : findRoute s k n with
    | none => rw [hf] at e; cases e
    | some r0 =>
      rw [hf] at e
      have := h.val k n hx a r0 ha hf
      rw [← Option.some.inj e] at this
      exact this

theorem Pic.core (h : Pic R X s) (ht : SameTalk s'.out s.out)
    (hr : s'.routes.map Route.core = s.routes.map Route.core) : Pic R X s' := by
  refine h.same ht fun k n => ?_
  have e : (findRoute s' k n).map Route.core = (findRoute s k n).map Route.core :=
    find_core hr (fun r => r.key == k && r.neigh == n) (fun _ => rfl)
  have hl : ∀ r : Route, lineOf r.core = lineOf r := fun _ => rfl
  have := congrArg (Option.map lineOf) e
  simpa [Function.comp_def, hl] using this

theorem Pic.eq (h : Pic R X s) (ho : s'.out = s.out) (hr : s'.routes = s.routes) : Pic R X s' :=
  h.core (.of_eq ho) (by rw [hr])

/-- Any change of one route. -/
theorem Pic.modAny (h : Pic R X s) (k : PKey) (n : NeighId) (f : Route → Route) (hf : KeepsId f) :
    Pic R (fun k' n' => X k' n' ∨ (k' = k ∧ n' = n)) (modRoute s k n f) := by
  refine ⟨h.wf, fun k' n' => ?_, fun k' n' hx a r ha hfr => ?_⟩
  · rw [findRoute_modRoute _ _ _ _ _ _ hf]
    show ((picture s.out).routes k' n').isSome = _
    rw [h.dom]
    split
    · next e => rw [e.1, e.2]; simp
    · rfl
  · rw [findRoute_modRoute _ _ _ _ _ _ hf, if_neg fun e => hx (.inr e)] at hfr
    exact h.val k' n' (fun e => hx (.inl e)) a r ha hfr

/-- A change of one route that the relation allows. -/
theorem Pic.mod (h : Pic R X s) (k : PKey) (n : NeighId) (f : Route → Route) (hf : KeepsId f)
    (hR : ∀ a r, R a (lineOf r) → R a (lineOf (f r))) : Pic R X (modRoute s k n f) := by
  have h1 := h.modAny k n f hf
  refine ⟨h1.wf, h1.dom, fun k' n' hx a r ha hfr => ?_⟩
  rw [findRoute_modRoute _ _ _ _ _ _ hf] at hfr
  split at hfr
  · next e =>
    cases hr : findRoute s k n with
    | none => rw [hr] at hfr; cases hfr
    | some r0 =>
      rw [hr] at hfr
      obtain ⟨rfl, rfl⟩ := e
      rw [← Option.some.inj hfr]
      exact hR a r0 (h.val k' n' hx a r0 ha hr)
  · exact h.val k' n' hx a r ha hfr

/-- The route is announced. -/
theorem Pic.notify (hR : TalkRel R) (k : PKey) (n : NeighId)
    (h : Pic R (fun k' n' => X k' n' ∨ (k' = k ∧ n' = n)) s) : Pic R X (notifyRoute s .change k n) := by
  unfold notifyRoute
  split
  · next r e =>
    obtain ⟨-, hk, hn⟩ := findRoute_mem e
    have hp : ∀ k' n', (picture (emit s (.notifyRoute .change r)).out).routes k' n' =
        if k' = k ∧ n' = n then some (lineOf r) else (picture s.out).routes k' n' := by
      intro k' n'
      show (if k' = r.key ∧ n' = r.neigh then (if NKind.change = .flush then none else some (lineOf r))
        else (picture s.out).routes k' n') = _
      rw [hk, hn, if_neg (show ¬ NKind.change = .flush by decide)]
    refine ⟨⟨?_, h.wf⟩, fun k' n' => ?_, fun k' n' hx a r' ha hfr => ?_⟩
    · show (if NKind.change = .add then (picture s.out).routes r.key r.neigh = none
        else ((picture s.out).routes r.key r.neigh).isSome = true)
      rw [if_neg (by decide), hk, hn, h.dom, e]; rfl
    · rw [hp]
      show _ = (findRoute s k' n').isSome
      split
      · next e' => rw [e'.1, e'.2, e]; rfl
      · exact h.dom k' n'
    · have hfr : findRoute s k' n' = some r' := hfr
      rw [hp] at ha
      split at ha
      · next e' =>
        rw [e'.1, e'.2, e] at hfr
        rw [← Option.some.inj hfr, ← Option.some.inj ha]
        exact hR.refl _
      · next e' => exact h.val k' n' (fun h' => h'.elim hx e') a r' ha hfr
  · next e =>
    refine ⟨h.wf, h.dom, fun k' n' hx a r ha hfr => ?_⟩
    refine h.val k' n' (fun h' => h'.elim hx fun e' => ?_) a r ha hfr
    rw [e'.1, e'.2, e] at hfr; cases hfr

theorem Pic.konly (h : Pic R X s) (hk : KOnly s s') : Pic R X s' := h.eq hk.out hk.routes

theorem Pic.markAny (h : Pic R X s) (k : PKey) (n : NeighId) (old : Option Route) :
    Pic R (fun k' n' => X k' n' ∨ (k' = k ∧ n' = n)) (markInstalled s k n old) := by
  refine (h.modAny k n _ (keepsId_installed true)).same ?_ fun k' n' => ?_
  · show SameTalk (selectionLog s k n old ++ s.out) s.out
    refine picture_append_other fun o ho => ?_
    unfold selectionLog at ho
    split at ho
    · cases ho
    · rw [List.mem_singleton.1 ho]; rfl
  · show (flatFind (flatMove _ k n) k' n').map lineOf = _
    rw [flatFind_move]; rfl

end

/-- The kernel does everything it is asked, and has accepted the selected routes. -/
structure KInv (c : Cfg) (s : St) : Prop where
  kres : ∀ i, s.kres i = .ok
  ok : ∀ r ∈ s.routes, r.installed = true → familyOk r.key r.nexthop = true ∧ srcUnsupported c r.key = false

section
variable {c : Cfg} {s s' : St}

theorem popK_ok (h : ∀ i, s.kres i = .ok) : ∀ i, (popK s).2.kres i = .ok := fun i => h _

theorem kernelAdd_kres (h : ∀ i, s.kres i = .ok) (t : Nat) (k : PKey) (g : Bytes) (i : IfId) (m : Nat) :
    ∀ j, (kernelAdd c s t k g i m).2.kres j = .ok := by
  rcases kernelAdd_fail (c := c) h t (k := k) (g := g) i m with ⟨-, e⟩ | ⟨h1, h2⟩
  · rw [e]; exact h
  · exact (kernelAdd_ok h t i m h1 h2).2.2

theorem kernelFlush_kres (h : ∀ i, s.kres i = .ok) (t : Nat) (k : PKey) (g : Bytes) (i : IfId) (m : Nat) :
    ∀ j, (kernelFlush c s t k g i m).2.kres j = .ok := by
  by_cases hh : familyOk k g = true ∧ srcUnsupported c k = false
  · exact (kernelFlush_ok h t i m hh.1 hh.2).2.2
  · have : (!familyOk k g || srcUnsupported c k) = true := by
      cases h1 : familyOk k g <;> cases h2 : srcUnsupported c k <;> simp_all
    unfold kernelFlush
    rw [if_pos this]; exact h

theorem kernelModify_kres (h : ∀ i, s.kres i = .ok) (t : Nat) (k : PKey) (g : Bytes) (i : IfId) (m : Nat) (g' : Bytes)
    (i' : IfId) (m' : Nat) : ∀ j, (kernelModify c s t k g i m g' i' m').2.kres j = .ok := by
  unfold kernelModify
  split
  · exact h
  · split
    · exact h
    · exact kernelAdd_kres (fun j => kernelFlush_kres h _ _ _ _ _ j) _ _ _ _ _

theorem kernelModify_accepts (h : ∀ i, s.kres i = .ok) (t : Nat) {k : PKey} {g : Bytes} (i : IfId) (m : Nat) {g' : Bytes}
    (i' : IfId) (m' : Nat) (hf : familyOk k g = true) (hs : srcUnsupported c k = false) (hf' : familyOk k g' = true) :
    (kernelModify c s t k g i m g' i' m').1 = true := by
  unfold kernelModify
  rw [if_neg (by simp [hf])]
  split
  · rfl
  · show decide (_ ≠ KRes.fail) = true
    rw [(kernelAdd_ok (fun j => kernelFlush_kres h _ _ _ _ _ j) t i' m' hf' hs).1]; rfl

theorem kernelModify_family (t : Nat) {k : PKey} {g : Bytes} (i : IfId) (m : Nat) {g' : Bytes}
    (i' : IfId) (m' : Nat) (hf : familyOk k g = true) (h : (kernelModify c s t k g i m g' i' m').1 = true) :
    familyOk k g' = true := by
  unfold kernelModify at h
  rw [if_neg (by simp [hf])] at h
  split at h
  · next e => rw [e.2.1]; exact hf
  · have h : decide ((kernelAdd c _ t k g' i' m').1 ≠ KRes.fail) = true := h
    rw [decide_eq_true_eq] at h
    cases hf' : familyOk k g' with
    | true => rfl
    | false =>
      exfalso; apply h
      unfold kernelAdd
      rw [if_pos (by simp [hf'])]

/-- Routes change, but not their addresses, and none is selected. -/
theorem KInv.routes (h : KInv c s) (hk : ∀ i, s'.kres i = .ok)
    (hr : ∀ r ∈ s'.routes, r.installed = true → ∃ r0 ∈ s.routes, r0.installed = true ∧ r0.key = r.key ∧ r0.nexthop = r.nexthop) :
    KInv c s' := by
  refine ⟨hk, fun r hm hi => ?_⟩
  obtain ⟨r0, h0, h1, h2, h3⟩ := hr r hm hi
  rw [← h2, ← h3]; exact h.ok r0 h0 h1

theorem KInv.core (h : KInv c s) (hr : s'.routes.map Route.core = s.routes.map Route.core) (hk : ∀ i, s'.kres i = .ok) :
    KInv c s' := by
  refine h.routes hk fun r hm hi => ?_
  obtain ⟨r0, h0, e0⟩ := mem_core hr hm
  have e := core_eq e0
  exact ⟨r0, h0, by rw [e] at hi; exact hi, by rw [e], by rw [e]⟩

theorem KInv.modify (h : KInv c s) (k : PKey) (n : NeighId) (f : Route → Route) (hr : s'.routes = flatModify s.routes k n f)
    (hk : ∀ i, s'.kres i = .ok)
    (hf : ∀ r, (f r).key = r.key ∧ (f r).nexthop = r.nexthop ∧ ((f r).installed = true → r.installed = true)) : KInv c s' := by
  refine h.routes hk fun r hm hi => ?_
  rw [hr] at hm
  rcases mem_flatModify hm with ⟨x, hx, -, -, rfl⟩ | ⟨hx, -⟩
  · exact ⟨x, hx, (hf x).2.2 hi, (hf x).1.symm, (hf x).2.1.symm⟩
  · exact ⟨r, hx, hi, rfl, rfl⟩

theorem KInv.notify (h : KInv c s) (kd : NKind) (k : PKey) (n : NeighId) : KInv c (notifyRoute s kd k n) :=
  h.core (by rw [notifyRoute_routes]) (by rw [notifyRoute_kres]; exact h.kres)

/-- A route is selected that the kernel can have. -/
theorem KInv.mark (h : KInv c s) {k : PKey} {n : NeighId} (old : Option Route)
    (hr : ∀ r ∈ s.routes, r.key = k → r.neigh = n → familyOk r.key r.nexthop = true ∧ srcUnsupported c r.key = false) :
    KInv c (markInstalled s k n old) := by
  refine ⟨h.kres, fun r hm hi => ?_⟩
  rcases mem_flatModify (mem_flatMove hm) with ⟨x, hx, h1, h2, rfl⟩ | ⟨hx, -⟩
  · exact hr x hx h1 h2
  · exact h.ok r hx hi

theorem KInv.install (h : KInv c s) (hl : LInv c s.routes) {k : PKey} {n : NeighId} {r : Route}
    (hr : findRoute s k n = some r) (hi : r.installed = false) (hf : routeFeasible s r = true) :
    KInv c (installRoute c s k n) := by
  obtain ⟨hm, hkey, hn⟩ := findRoute_mem hr
  have hko := konly_changeAdd c s r (metricToKernel c (routeMetric r))
  have hk : ∀ j, (changeAdd c s r (metricToKernel c (routeMetric r))).2.kres j = .ok := by
    unfold changeAdd
    split
    · exact h.kres
    · exact kernelAdd_kres h.kres _ _ _ _ _
  have h1 := h.core (s' := (changeAdd c s r (metricToKernel c (routeMetric r))).2) (by rw [hko.routes]) hk
  rcases installRoute_cases (c := c) hr hi hf with ⟨-, e⟩ | ⟨-, -, e⟩ | ⟨-, hne, e⟩
  · rw [e]; exact h.core rfl h.kres
  · rw [e]; exact h1
  · rw [e]
    refine (h1.mark none fun x hx e1 e2 => ?_).notify ..
    have hx' : x = r := by
      rw [hko.routes] at hx
      exact onePerNeigh_unique hl.one hx hm (by rw [e1, hkey]) (by rw [e2, hn])
    subst hx'
    unfold changeAdd at hne
    split at hne
    · exact absurd rfl hne
    · rcases kernelAdd_fail (c := c) h.kres (routeTable c x) (k := x.key) (g := x.nexthop) (c.ifOf x.neigh)
        (metricToKernel c (routeMetric x)) with ⟨e, -⟩ | e
      · exact absurd e hne
      · exact e

theorem KInv.uninstall (h : KInv c s) (k : PKey) (n : NeighId) : KInv c (uninstallRoute c s k n) := by
  cases hr : findRoute s k n with
  | none => rw [uninstallRoute_noop (by rw [hr]; simp)]; exact h
  | some r =>
    cases hi : r.installed with
    | false => rw [uninstallRoute_noop (by rw [hr]; simp [hi])]; exact h
    | true =>
      rw [uninstallRoute_eq hr hi]
      have hko := konly_changeFlush c (modRoute s k n (fun r => { r with installed := false })) r (metricToKernel c (routeMetric r))
      have h1 : KInv c (changeFlush c (modRoute s k n (fun r => { r with installed := false })) r
          (metricToKernel c (routeMetric r))).2 :=
        h.modify k n _ hko.routes (kernelFlush_kres (s := modRoute s k n _) h.kres _ _ _ _ _) fun r => ⟨rfl, rfl, by simp⟩
      simp only
      split
      · exact h1.notify ..
      · exact h1

theorem KInv.switch (h : KInv c s) (hl : LInv c s.routes) {k : PKey} {m n : NeighId} {o r : Route}
    (ho : findRoute s k m = some o) (hoi : o.installed = true) (hr : findRoute s k n = some r)
    (hf : routeFeasible s r = true) : KInv c (switchRoutes c s k m n) := by
  obtain ⟨om, okey, on⟩ := findRoute_mem ho
  obtain ⟨hm, hkey, hn⟩ := findRoute_mem hr
  have hko := konly_changeModify c s o (metricToKernel c (routeMetric o)) r.nexthop (c.ifOf r.neigh) (metricToKernel c (routeMetric r))
  have hk := kernelModify_kres (c := c) h.kres (routeTable c o) o.key o.nexthop (c.ifOf o.neigh) (metricToKernel c (routeMetric o))
    r.nexthop (c.ifOf r.neigh) (metricToKernel c (routeMetric r))
  have h1 := h.core (s' := (changeModify c s o (metricToKernel c (routeMetric o)) r.nexthop (c.ifOf r.neigh)
    (metricToKernel c (routeMetric r))).2) (by rw [hko.routes]) hk
  rcases switchRoutes_cases (c := c) ho hr hf with ⟨-, e⟩ | ⟨-, -, e⟩ | ⟨-, ht, e⟩
  · rw [e]; exact h
  · rw [e]; exact h1
  · rw [e]
    have h2 := h1.modify (s' := modRoute _ k m (fun r => { r with installed := false })) k m _ rfl h1.kres
      (fun r => ⟨rfl, rfl, by simp⟩)
    refine ((h2.mark (some o) fun x hx e1 e2 => ?_).notify ..).notify ..
    have hs := h.ok o om hoi
    have hfam := kernelModify_family _ _ _ _ _ hs.1 ht
    have hx : x ∈ flatModify (changeModify c s o (metricToKernel c (routeMetric o)) r.nexthop (c.ifOf r.neigh)
      (metricToKernel c (routeMetric r))).2.routes k m (fun r => { r with installed := false }) := hx
    rw [hko.routes] at hx
    rw [e1]
    rw [okey] at hs hfam
    refine ⟨?_, hs.2⟩
    rcases mem_flatModify hx with ⟨y, hy, f1, f2, rfl⟩ | ⟨hy, -⟩
    · have : y = r := onePerNeigh_unique hl.one hy hm (by rw [f1, hkey]) (by rw [hn]; exact e2)
      rw [this]; exact hfam
    · have : x = r := onePerNeigh_unique hl.one hy hm (by rw [e1, hkey]) (by rw [e2, hn])
      rw [this]; exact hfam

theorem KInv.metric (h : KInv c s) (k : PKey) (n : NeighId) (refm cost add : Nat) :
    KInv c (changeRouteMetric c s k n refm cost add) := by
  cases hr : findRoute s k n with
  | none => rw [changeRouteMetric_noop _ _ _ hr]; exact h
  | some r =>
    have hk := kernelModify_kres (c := c) h.kres (routeTable c r) r.key r.nexthop (c.ifOf r.neigh) (metricToKernel c (routeMetric r))
      r.nexthop (c.ifOf r.neigh) (metricToKernel c (min (refm + cost + add) INFINITY))
    have hko := konly_changeModify c s r (metricToKernel c (routeMetric r)) r.nexthop (c.ifOf r.neigh)
      (metricToKernel c (min (refm + cost + add) INFINITY))
    have h1 := h.core (s' := (changeModify c s r (metricToKernel c (routeMetric r)) r.nexthop (c.ifOf r.neigh)
      (metricToKernel c (min (refm + cost + add) INFINITY))).2) (by rw [hko.routes]) hk
    rcases changeRouteMetric_cases (c := c) refm cost add hr with ⟨-, -, e⟩ | ⟨s1, hs, e⟩
    · rw [e]; exact h1
    · rw [e]
      have h2 : KInv c s1 := by
        rcases hs with ⟨-, -, e1⟩ | ⟨-, e1⟩
        · rw [e1] at h1; exact h1
        · rw [e1]; exact h
      have h3 : KInv c (smoothRoute c s1 k n).2 :=
        h2.core (frame_smooth c s1 k n).routes (by rw [(frame_smooth c s1 k n).kres]; exact h2.kres)
      refine (h3.modify (s' := modRoute _ k n _) k n (setMetric c s.now.sec refm cost add) rfl h3.kres fun r => ?_).notify ..
      unfold setMetric
      simp only
      split <;> exact ⟨rfl, rfl, fun h => h⟩

theorem KInv.apply (h : KInv c s) (k : PKey) (n : NeighId) (id : Bytes) (q : UInt16) (refm add hold : Nat) (u : Bool) :
    KInv c (applyUpdate c s k n id q refm add hold u) := by
  have h1 : KInv c (if u = true then uninstallRoute c s k n else s) := by
    split
    · exact h.uninstall k n
    · exact h
  have h2 := h1.modify (s' := modRoute (retainSource (if u = true then uninstallRoute c s k n else s) ⟨id, k⟩) k n
    (updRoute s.now.sec id q refm)) k n _ rfl h1.kres (fun r => ⟨rfl, rfl, fun h => h⟩)
  have h3 := h2.metric k n refm (s.ncost n) add
  exact h3.modify (s' := modRoute _ k n (fun r => { r with holdTime := hold })) k n _ rfl h3.kres (fun r => ⟨rfl, rfl, fun h => h⟩)

theorem M.kinv {A : Allow} {ex ex' : List SKey} (h : M c A s ex s' ex') (hl : LInv c s.routes) (hi : KInv c s) : KInv c s' := by
  cases h with
  | q h => exact hi.core h.same.routes (by rw [h.same.kres]; exact hi.kres)
  | install h1 h2 h3 h4 => exact hi.install hl h1 h2 h3
  | @switch _ k n r o ho hr h3 hf h4 h5 h6 =>
    obtain ⟨hm, hok, hoi⟩ := findInstalled_mem ho
    exact hi.switch hl (by rw [← hok]; exact findRoute_of_mem hl hm) hoi hr hf
  | uninstall k n => exact hi.uninstall k n
  | recost h1 h2 => exact hi.metric ..
  | retract k n => exact hi.metric ..
  | @expire _ k n r q h1 h2 h3 =>
    exact (hi.modify (s' := modRoute s k n (fun r => { r with seqno := q })) k n _ rfl hi.kres
      (fun r => ⟨rfl, rfl, fun h => h⟩)).metric ..
  | apply id q refm add hold u h1 h2 h3 h4 h5 h6 => exact hi.apply ..
  | insert k n id q refm add hold nh h1 h2 h3 h4 h5 h6 h7 =>
    have : KInv c { retainSource s ⟨id, k⟩ with routes := flatInsert s.routes (newRoute s k n id q refm add hold nh) } := by
      refine hi.routes hi.kres fun r hm hr => ?_
      rcases List.mem_append.1 hm with hm | hm
      · exact ⟨r, hm, hr, rfl, rfl⟩
      · rw [List.mem_singleton.1 hm] at hr; cases hr
    exact this.notify ..
  | @unlink _ k n r h1 h2 h3 =>
    refine (hi.notify .flush k n).routes (by show ∀ i, (notifyRoute s .flush k n).kres i = _; rw [notifyRoute_kres]; exact hi.kres)
      fun r hm hr => ⟨r, (List.mem_filter.1 hm).1, hr, rfl, rfl⟩
  | release k => exact hi.core rfl hi.kres
  | ensure k q h =>
    unfold ensureSource
    split
    · exact hi
    · exact hi.core rfl hi.kres
  | gc h => exact hi.core rfl hi.kres
  | xadd kr h1 h2 h3 h4 =>
    unfold addXroute
    rw [h1]; exact hi.core rfl hi.kres
  | xdel x h1 h2 => exact hi.core rfl hi.kres
  | xmod x m p h1 h2 h3 h4 => exact hi.core rfl hi.kres
  | bump h => exact hi.core rfl hi.kres
  | tick t h => exact hi.core rfl hi.kres
  | cost n v h => exact hi.core rfl hi.kres

end

end Babel
