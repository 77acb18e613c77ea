import Verif.Lemmas.Asked
import Verif.Lemmas.NewRoute
import Verif.Lemmas.Walk2
import Verif.Lemmas.Store
import Verif.Spec.Newer
/-
Requests for newer sequence numbers.
-/
set_option linter.unusedSimpArgs false
set_option linter.unusedVariables false
set_option linter.unusedSectionVars false
namespace Babel
open Spec

variable {c : Cfg}

def Out.isMh : Out → Bool
  | .mhRequest .. => true
  | _ => false

theorem isMh_iff (o : Out) : Out.isMh o = true ↔ Spec.Out.IsSeqnoRequest o := by
  unfold Spec.Out.IsSeqnoRequest
  cases o <;> simp [Out.isMh]

/-- No seqno requests. -/
def noMh : Perm := ⟨fun _ _ _ _ _ => False, True⟩

instance : noMh.Recs := ⟨trivial⟩

/-- The seqno requests among the outputs. -/
def mhs (s : St) : List Out := s.out.filter Out.isMh

theorem hard_mhs {s t : St} (h : Hard s t) : mhs t = mhs s := by
  obtain ⟨new, e, hn⟩ := h.out
  unfold mhs
  rw [e, List.filter_append, List.filter_eq_nil_iff.2, List.nil_append]
  intro o ho
  have := hn o ho
  cases o <;> simp_all [Out.isMh, Out.silent]

theorem mhs_emit {s : St} {o : Out} (h : o.isMh = false) : mhs (emit s o) = mhs s := by
  unfold mhs emit; simp [h]

theorem fines_mhs {s t : St} (h : Fines c noMh s t) : mhs t = mhs s := by
  obtain ⟨new, e, hn⟩ := h.mhs
  unfold mhs
  rw [e, List.filter_append, List.filter_eq_nil_iff.2, List.nil_append]
  intro o ho
  have := hn o ho
  cases o <;> simp_all [Out.isMh, MhOk, noMh]

theorem softs_mhs {w : Option IfId} {s t : St} (h : Softs c w noMh s t) : mhs t = mhs s := fines_mhs h.fine

theorem requestSeqno_eq (src : Source) : requestSeqno src = if src.metric ≥ 65535 then src.seqno else src.seqno + 1 := by
  unfold requestSeqno INFINITY seqnoPlus
  split
  · rfl
  · apply UInt16.toNat.inj
    rw [UInt16.toNat_ofNat', UInt16.toNat_add]
    have := src.seqno.toNat_lt
    show _ = (src.seqno.toNat + 1) % 65536
    omega

theorem ssBlocked_flush (s : St) (i j : IfId) (k : PKey) : ssBlocked (flushUpdates c s j) i k = ssBlocked s i k :=
  conf_ss (fine_flush (P := ⟨fun _ _ _ _ _ => True, True⟩) s j).conf i k

theorem ssBlocked_iff (s : St) (i : IfId) (k : PKey) :
    ssBlocked s i k = true ↔ ¬ ∀ ifp, getIf s i = some ifp → (k.isSS && ifp.rfc6126) = false := by
  unfold ssBlocked
  cases hg : getIf s i <;> simp

/-- `Called`, in terms of the functions of the model. -/
def CalledBy (c : Cfg) (s : St) (id : Bytes) (k : PKey) (q : UInt16) (m : Nat) (n : NeighId) (o : Out) : Prop :=
  ∃ src, findSource s ⟨id, k⟩ = some src ∧ (src.seqno - q).toNat ≤ 100 ∧
    (∀ x, findInstalled s k = some x → m + 512 ≤ routeMetric x) ∧ ssBlocked s (c.ifOf n) k = false ∧
    o = .mhRequest (c.ifOf n) (some n) k (requestSeqno src) id 127

theorem called_iff {s : St} (hl : LInv c s.routes) (id : Bytes) (k : PKey) (q : UInt16) (m : Nat) (n : NeighId) (o : Out) :
    CalledBy c s id k q m n o ↔ Called c s id k q m n o := by
  unfold CalledBy Called
  refine exists_congr fun src => and_congr_right fun _ => and_congr_right fun _ => and_congr ?_ (and_congr ?_ (by rw [requestSeqno_eq]))
  · constructor
    · intro h x hx hk hi
      exact h x ((findInstalled_iff hl).2 ⟨hx, hk, hi⟩)
    · intro h x hx
      obtain ⟨a, b, d⟩ := findInstalled_mem hx
      exact h x a b d
  · have := ssBlocked_iff s (c.ifOf n) k
    constructor
    · intro h
      rw [h] at this
      exact Classical.not_not.1 fun g => absurd (this.2 g) (by simp)
    · intro h
      cases e : ssBlocked s (c.ifOf n) k with
      | false => rfl
      | true => exact absurd h (this.1 e)

/-- The seqno requests sent for an unfeasible update. -/
theorem unfeasible_mhs (s : St) (n : NeighId) (q : UInt16) (m : Nat) (id : Bytes) (k : PKey)
    (hn : ∀ src, findSource s ⟨id, k⟩ = some src → (src.seqno - q).toNat < 32768) (o : Out) :
    o ∈ mhs (sendUnfeasibleRequest c s n false q m ⟨id, k⟩) ↔ o ∈ mhs s ∨ CalledBy c s id k q m n o := by
  unfold sendUnfeasibleRequest CalledBy
  cases hs : findSource s ⟨id, k⟩ with
  | none => simp
  | some src =>
    simp only
    have hm : seqnoMinus src.seqno q > 100 ↔ 100 < (src.seqno - q).toNat := by
      have := hn src hs
      unfold seqnoMinus toShort
      omega
    by_cases h1 : seqnoMinus src.seqno q > 100
    · rw [if_pos h1]
      constructor
      · exact .inl
      · rintro (h | ⟨y, hy, h, -⟩)
        · exact h
        · cases hy; have := hm.1 h1; omega
    · rw [if_neg h1]
      have hd : (false || (match findInstalled s k with
          | none => true
          | some r => decide (routeMetric r ≥ m + 512))) = true ↔
          ∀ x, findInstalled s k = some x → m + 512 ≤ routeMetric x := by
        rw [Bool.false_or]
        cases ho : findInstalled s k with
        | none => simp
        | some r => simp
      generalize (false || _) = b at hd ⊢
      have e : mhs (flushUpdates c s (c.ifOf n)) = mhs s :=
        softs_mhs (Soft.one (w := none) (.flush (c.ifOf n)))
      cases b with
      | false =>
        simp only [Bool.false_eq_true, if_false]
        constructor
        · exact .inl
        · rintro (h | ⟨y, -, -, h, -⟩)
          · exact h
          · exact absurd (hd.2 h) (by simp)
      | true =>
        simp only [if_true]
        unfold sendUnicastMh sendMh
        rw [ssBlocked_flush]
        by_cases hb : ssBlocked s (c.ifOf n) k = true
        · rw [if_pos hb, e]
          simp [hb]
        · rw [if_neg hb]
          have : mhs (emit (flushUpdates c s (c.ifOf n)) (.mhRequest (c.ifOf n) (some n) k (requestSeqno src) id 127)) =
              .mhRequest (c.ifOf n) (some n) k (requestSeqno src) id 127 :: mhs s := by
            rw [← e]; unfold mhs emit; exact List.filter_cons_of_pos rfl
          rw [this, List.mem_cons]
          constructor
          · rintro (h | h)
            · exact .inr ⟨src, rfl, by have := mt hm.2 h1; omega, hd.1 rfl, by simpa using hb, h⟩
            · exact .inl h
          · rintro (h | ⟨y, hy, -, -, -, h⟩)
            · exact .inr h
            · cases hy; exact .inl h

/-! ### Assignments to a route that is not selected -/

/-- Only the route `(k, n)` differs, and only in fields other than the identity and whether it is selected. -/
structure AtOnly (k : PKey) (n : NeighId) (s s' : St) : Prop where
  routes : ∃ g : Route → Route, (∀ x, (g x).key = x.key ∧ (g x).neigh = x.neigh ∧ (g x).installed = x.installed) ∧
    s'.routes = flatModify s.routes k n g
  ifaces : s'.ifaces = s.ifaces
  now : s'.now = s.now
  sources : ∀ sk, (findSource s' sk).map (fun x => (x.seqno, x.metric, x.time)) =
    (findSource s sk).map (fun x => (x.seqno, x.metric, x.time))

theorem AtOnly.refl (k : PKey) (n : NeighId) (s : St) : AtOnly k n s s :=
  ⟨⟨fun x => x, fun _ => ⟨rfl, rfl, rfl⟩, by unfold flatModify; simp⟩, rfl, rfl, fun _ => rfl⟩

theorem AtOnly.trans {k : PKey} {n : NeighId} {a b d : St} (h : AtOnly k n a b) (g : AtOnly k n b d) : AtOnly k n a d := by
  obtain ⟨f1, p1, e1⟩ := h.routes
  obtain ⟨f2, p2, e2⟩ := g.routes
  refine ⟨⟨f2 ∘ f1, fun x => ⟨(p2 _).1.trans (p1 x).1, (p2 _).2.1.trans (p1 x).2.1, (p2 _).2.2.trans (p1 x).2.2⟩, ?_⟩,
    g.ifaces.trans h.ifaces, g.now.trans h.now, fun sk => (g.sources sk).trans (h.sources sk)⟩
  rw [e2, e1]
  unfold flatModify
  rw [List.map_map]
  refine List.map_congr_left fun x _ => ?_
  simp only [Function.comp]
  by_cases hx : (x.key == k && x.neigh == n) = true
  · simp only [hx, if_true, (p1 x).1, (p1 x).2.1]
  · simp only [hx, if_false, Bool.false_eq_true]

theorem atOnly_mod {s : St} {k : PKey} {n : NeighId} {g : Route → Route}
    (hg : ∀ x, (g x).key = x.key ∧ (g x).neigh = x.neigh ∧ (g x).installed = x.installed) : AtOnly k n s (modRoute s k n g) :=
  ⟨⟨g, hg, rfl⟩, rfl, rfl, fun _ => rfl⟩

theorem atOnly_of_eq {s s' : St} (k : PKey) (n : NeighId) (h1 : s'.routes = s.routes) (h2 : s'.ifaces = s.ifaces) (h3 : s'.now = s.now)
    (h4 : s'.sources = s.sources) :
    AtOnly k n s s' :=
  ⟨by obtain ⟨g, a, b⟩ := (AtOnly.refl k n s).routes; exact ⟨g, a, h1.trans b⟩, h2, h3, fun _ => by unfold findSource; rw [h4]⟩

theorem AtOnly.installed {k : PKey} {n : NeighId} {s s' : St} (h : AtOnly k n s s') {r : Route}
    (hr : findRoute s k n = some r) (hi : r.installed = false) : findInstalled s' k = findInstalled s k := by
  obtain ⟨g, hg, e⟩ := h.routes
  unfold findInstalled
  rw [e, slotOf_modify _ _ _ _ _ (fun x => (hg x).1)]
  have hr : flatFind s.routes k n = some r := hr
  cases hs : slotOf s.routes k with
  | nil => rfl
  | cons a l =>
    simp only [List.map_cons]
    have hak : a.key = k := by
      have : a ∈ slotOf s.routes k := by rw [hs]; exact List.mem_cons_self ..
      simpa using (List.mem_filter.1 this).2
    by_cases han : a.neigh = n
    · have : flatFind s.routes k n = some a := by
        rw [flatFind_slot, hs]; simp [han]
      rw [this] at hr
      cases hr
      simp [hak, han, (hg r).2.2, hi]
    · simp [han]

theorem AtOnly.find {k : PKey} {n : NeighId} {s s' : St} (h : AtOnly k n s s') {r : Route} (hr : findRoute s k n = some r) :
    ∃ r', findRoute s' k n = some r' ∧ r'.installed = r.installed := by
  obtain ⟨g, hg, e⟩ := h.routes
  refine ⟨g r, ?_, (hg r).2.2⟩
  unfold findRoute
  rw [e, flatFind_modify _ _ _ _ _ _ (fun x => ⟨(hg x).1, (hg x).2.1⟩), show flatFind s.routes k n = some r from hr]
  simp

theorem AtOnly.feasible {k : PKey} {n : NeighId} {s s' : St} (h : AtOnly k n s s') (sk : SKey) (q : UInt16) (refm : Nat) :
    updateFeasible s' (findSource s' sk) q refm = updateFeasible s (findSource s sk) q refm := by
  have := h.sources sk
  unfold updateFeasible
  rw [h.now]
  cases e1 : findSource s' sk <;> cases e2 : findSource s sk <;> rw [e1, e2] at this <;> simp at this ⊢
  obtain ⟨a, b, d⟩ := this
  rw [a, b, d]

theorem AtOnly.called {k : PKey} {n : NeighId} {s s' : St} (h : AtOnly k n s s') {r : Route}
    (hr : findRoute s k n = some r) (hi : r.installed = false) (id : Bytes) (q : UInt16) (m : Nat) (o : Out) :
    CalledBy c s' id k q m n o ↔ CalledBy c s id k q m n o := by
  unfold CalledBy
  rw [h.installed hr hi]
  have e : ssBlocked s' (c.ifOf n) k = ssBlocked s (c.ifOf n) k := by unfold ssBlocked getIf; rw [h.ifaces]
  rw [e]
  have := h.sources ⟨id, k⟩
  cases e1 : findSource s' ⟨id, k⟩ <;> cases e2 : findSource s ⟨id, k⟩ <;> rw [e1, e2] at this <;> simp at this ⊢
  obtain ⟨a, b, d⟩ := this
  rw [a]
  unfold requestSeqno
  rw [a, b]

/-- The assignments of an update to a route that is not selected. -/
theorem atOnly_apply {s : St} {r : Route} (hr : findRoute s r.key r.neigh = some r) (hi : r.installed = false)
    (id : Bytes) (q : UInt16) (refm add hold : Nat) :
    AtOnly r.key r.neigh s (applyUpdate c s r.key r.neigh id q refm add hold false) := by
  unfold applyUpdate
  simp only [Bool.false_eq_true, if_false]
  have h1 : AtOnly r.key r.neigh s (retainSource s ⟨id, r.key⟩) := by
    obtain ⟨g, a, b⟩ := (AtOnly.refl r.key r.neigh s).routes
    refine ⟨⟨g, a, b⟩, rfl, rfl, fun sk => ?_⟩
    unfold findSource
    rw [retain_sources, List.find?_map, Option.map_map]
    have e : (fun x : Source => x.skey == sk) ∘ (fun x : Source => if x.skey == ⟨id, r.key⟩ then { x with routeCount := x.routeCount + 1 } else x) =
        (fun x => x.skey == sk) := by
      funext x; simp only [Function.comp]; split <;> rfl
    rw [e]
    congr 1
    funext x; simp only [Function.comp]; split <;> rfl
  refine h1.trans (AtOnly.trans (atOnly_mod (g := fun x => { x with
    id := id, seqno := q, time := if refm < INFINITY then s.now.sec else x.time }) fun _ => ⟨rfl, rfl, rfl⟩) ?_)
  obtain ⟨t, ht⟩ : ∃ t, t = modRoute (retainSource s ⟨id, r.key⟩) r.key r.neigh (fun x => { x with
    id := id, seqno := q, time := if refm < INFINITY then s.now.sec else x.time }) := ⟨_, rfl⟩
  have hrt : ∃ r', findRoute t r.key r.neigh = some r' ∧ r'.installed = false := by
    refine ⟨{ r with id := id, seqno := q, time := if refm < INFINITY then s.now.sec else r.time }, ?_, hi⟩
    rw [ht]
    refine Eq.trans (findRoute_modRoute _ _ _ _ _ _ ?_) ?_
    · exact fun _ => ⟨rfl, rfl⟩
    have : findRoute (retainSource s ⟨id, r.key⟩) r.key r.neigh = some r := hr
    simp [this]
  rw [← ht]
  refine AtOnly.trans ?_ (atOnly_mod fun _ => ⟨rfl, rfl, rfl⟩)
  obtain ⟨r', hr', hi'⟩ := hrt
  unfold changeRouteMetric
  rw [hr']
  simp only [hi', Bool.false_eq_true, false_and, if_false, Bool.not_true]
  refine AtOnly.trans (b := (smoothRoute c t r.key r.neigh).2) ?_ ?_
  · unfold smoothRoute
    rw [hr']
    have := atOnly_mod (s := t) (k := r.key) (n := r.neigh) (g := fun x => { x with
      smoothed := (smoothedMetric c.halfLife t.now.sec t.rand r').1, smoothedTime := t.now.sec }) fun _ => ⟨rfl, rfl, rfl⟩
    exact ⟨this.routes, this.ifaces, this.now, this.sources⟩
  · refine AtOnly.trans (atOnly_mod (g := setMetric c t.now.sec refm (s.ncost r.neigh) add) fun x => ?_) ?_
    · unfold setMetric; simp only; split <;> exact ⟨rfl, rfl, rfl⟩
    · rw [notifyRoute_eq]
      exact atOnly_of_eq _ _ rfl rfl rfl rfl

end Babel
