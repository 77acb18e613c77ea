import Verif.Lemmas.Flush
/-
The expiry pass: which routes remain.
-/
set_option linter.unusedSimpArgs false
set_option linter.unusedVariables false
set_option linter.unusedSectionVars false
namespace Babel
open Spec

def isAt (k : PKey) (n : NeighId) (i : Ident) : Bool := i.1 == k && i.2.1 == n

def idMove (L : List Ident) (k : PKey) (n : NeighId) : List Ident :=
  match L.find? (isAt k n) with
  | none => L
  | some x => x :: L.filter (fun i => !isAt k n i)

theorem find_ids (l : List Route) (k : PKey) (n : NeighId) :
    (l.map Route.ident).find? (isAt k n) = (flatFind l k n).map Route.ident := by
  unfold flatFind
  rw [List.find?_map]; rfl

theorem ids_move (l : List Route) (k : PKey) (n : NeighId) :
    (flatMove l k n).map Route.ident = idMove (l.map Route.ident) k n := by
  unfold flatMove idMove
  rw [find_ids]
  cases flatFind l k n with
  | none => rfl
  | some r =>
    simp only [Option.map_some, List.map_cons]
    congr 1
    unfold flatRemove
    rw [List.filter_map]
    rfl

theorem considerInstall_ids (c : Cfg) (s : St) (k : PKey) (n : NeighId) (o : Option Route) {r : Route}
    (h : findRoute s k n = some r) (hi : r.installed = false) (hf : routeFeasible s r = true) :
    ids (considerInstall c s k n o) = ids s ∨ ids (considerInstall c s k n o) = idMove (ids s) k n := by
  unfold considerInstall
  split
  · have e : ids (sendUpdate c (installRoute c s k n) true k) = ids (installRoute c s k n) :=
      ident_core (qms_sendUpdate ..).same.routes
    rw [e]
    rcases install_routes (c := c) h hi hf with e | ⟨-, e⟩
    · left; unfold ids; rw [e]
    · right; unfold ids; rw [e, ids_move, ident_modify _ _ _ (fun r => { r with installed := true }) (fun _ => rfl)]
  · next o =>
    have hs : ids (switchRoutes c s k o.neigh n) = ids s ∨
        ids (switchRoutes c s k o.neigh n) = idMove (ids s) k n := by
      cases ho : findRoute s k o.neigh with
      | none =>
        left
        have : switchRoutes c s k o.neigh n = s := by unfold switchRoutes; rw [ho]
        rw [this]
      | some o' =>
        rcases switch_routes (c := c) ho h hf with e | ⟨-, e⟩
        · left; unfold ids; rw [e]
        · right; unfold ids
          rw [e, ids_move, ident_modify _ _ _ (fun r => { r with installed := true }) (fun _ => rfl),
            ident_modify _ _ _ (fun r => { r with installed := false }) (fun _ => rfl)]
    simp only
    split
    · exact hs
    · split
      · have e : ids (sendTriggeredUpdate c (switchRoutes c s k o.neigh n) k n o.skey (routeMetric o)) =
            ids (switchRoutes c s k o.neigh n) := ident_core (qms_sendTriggered ..).same.routes
        rw [e]; exact hs
      · have e : ids (sendUpdate c (switchRoutes c s k o.neigh n) true k) =
            ids (switchRoutes c s k o.neigh n) := ident_core (qms_sendUpdate ..).same.routes
        rw [e]; exact hs

theorem considerRoute_ids (c : Cfg) (s : St) (k : PKey) (n : NeighId) :
    ids (considerRoute c s k n) = ids s ∨ ids (considerRoute c s k n) = idMove (ids s) k n := by
  unfold considerRoute
  split
  · exact .inl rfl
  · next r hr =>
    split
    · exact .inl rfl
    · next hi =>
      split
      · exact .inl rfl
      · next hfe =>
        split
        · exact .inl rfl
        · simp only
          have hfr := frame_shouldSwitch c s r (findInstalled s k)
          have e := ident_core hfr.routes
          split
          · obtain ⟨r1, hr1, e1⟩ := hfr.route hr
            have := considerInstall_ids c (shouldSwitch c s r (findInstalled s k)).2 k n
              (findInstalled s k) hr1 (by rw [core_installed e1]; simpa using hi)
              (by rw [hfr.feasible e1]; simpa using hfe)
            unfold ids at this ⊢
            rw [e] at this
            exact this
          · exact .inl e

/-! ### Orders reached by moving fresh routes to the front -/

inductive Ord (P : Ident → Prop) (k : PKey) : List Ident → List Ident → Prop
  | refl (L) : Ord P k L L
  | move {L L' : List Ident} {n : NeighId} {x : Ident} :
      Ord P k L L' → L'.find? (isAt k n) = some x → P x → Ord P k L (idMove L' k n)

theorem Ord.trans {P : Ident → Prop} {k : PKey} {a b d : List Ident} (h : Ord P k a b)
    (g : Ord P k b d) : Ord P k a d := by
  induction g with
  | refl => exact h
  | move _ h1 h2 ih => exact ih.move h1 h2

theorem considerRoute_ord (P : Ident → Prop) (c : Cfg) (s : St) (k : PKey) (n : NeighId)
    (h : ∀ r, findRoute s k n = some r → P r.ident) : Ord P k (ids s) (ids (considerRoute c s k n)) := by
  cases hr : findRoute s k n with
  | none =>
    have : considerRoute c s k n = s := by unfold considerRoute; rw [hr]
    rw [this]; exact .refl _
  | some r =>
    rcases considerRoute_ids c s k n with e | e
    · rw [e]; exact .refl _
    · rw [e]
      refine (Ord.refl _).move (x := r.ident) ?_ (h r hr)
      unfold findRoute at hr
      rw [find_ids, hr]; rfl

/-- Not expired at time `t`. -/
def NotExp (t : Int) (i : Ident) : Prop := ¬ i.2.2.2.2.1 < t - (i.2.2.2.2.2 : Int)

theorem notExp_route {s : St} {r : Route} : NotExp s.now.sec r.ident ↔ routeExpired s r = false := by
  unfold NotExp routeExpired
  simp [Route.ident]

theorem find_ident_of_ids {s s' : St} {k : PKey} {n : NeighId} {r : Route} (e : ids s' = ids s)
    (h : findRoute s k n = some r) : ∃ r', findRoute s' k n = some r' ∧ r'.ident = r.ident := by
  unfold ids at e
  have h1 := find_ids s.routes k n
  have h2 := find_ids s'.routes k n
  unfold findRoute at h
  rw [e, h1, h] at h2
  unfold findRoute
  cases hf : flatFind s'.routes k n with
  | none => rw [hf] at h2; simp at h2
  | some r' => rw [hf] at h2; exact ⟨r', rfl, by simpa using h2.symm⟩

theorem find_ident_inv {s s' : St} {k : PKey} {n : NeighId} {r' : Route} (e : ids s' = ids s)
    (h : findRoute s' k n = some r') : ∃ r, findRoute s k n = some r ∧ r'.ident = r.ident := by
  obtain ⟨r, h1, h2⟩ := find_ident_of_ids e.symm h
  exact ⟨r, h1, h2.symm⟩

theorem mem_idMove {L : List Ident} {k : PKey} {n : NeighId} (hu : ∀ i ∈ L, ∀ j ∈ L, isAt k n i → isAt k n j → i = j)
    (i : Ident) : i ∈ idMove L k n ↔ i ∈ L := by
  unfold idMove
  split
  · rfl
  · next x hx =>
    have h1 := List.mem_of_find?_eq_some hx
    have h2 := List.find?_some hx
    rw [List.mem_cons, List.mem_filter]
    constructor
    · rintro (h | h)
      · subst h; exact h1
      · exact h.1
    · intro h
      by_cases hc : isAt k n i = true
      · exact .inl (hu i h x h1 hc h2)
      · right; exact ⟨h, by simpa using hc⟩

/-- At most one ident for each destination and neighbour. -/
def Uniq (L : List Ident) : Prop := ∀ i ∈ L, ∀ j ∈ L, i.1 = j.1 → i.2.1 = j.2.1 → i = j

theorem uniq_ids {c : Cfg} {s : St} {ex : List SKey} (hi : Inv c s ex) : Uniq (ids s) := by
  intro i h j g e1 e2
  obtain ⟨x, hx, rfl⟩ := List.mem_map.1 h
  obtain ⟨y, hy, rfl⟩ := List.mem_map.1 g
  rw [onePerNeigh_unique hi.lst.one hx hy e1 e2]

theorem Uniq.at {L : List Ident} (h : Uniq L) (k : PKey) (n : NeighId) :
    ∀ i ∈ L, ∀ j ∈ L, isAt k n i → isAt k n j → i = j := by
  intro i hi j hj h1 h2
  unfold isAt at h1 h2
  exact h i hi j hj (by grind) (by grind)

theorem Ord.mem {P : Ident → Prop} {k : PKey} {L L' : List Ident} (h : Ord P k L L') (hu : Uniq L) :
    ∀ i, i ∈ L' ↔ i ∈ L := by
  induction h with
  | refl => intro i; rfl
  | move g h1 h2 ih =>
    intro i
    rw [mem_idMove]
    · exact ih i
    · exact Uniq.at (fun i hi j hj => hu i ((ih i).1 hi) j ((ih j).1 hj)) _ _

theorem Ord.find {P : Ident → Prop} {k : PKey} {s s' : St} (h : Ord P k (ids s) (ids s'))
    (hu : Uniq (ids s)) {k' : PKey} {n : NeighId} {r' : Route} (hr : findRoute s' k' n = some r') :
    ∃ r, findRoute s k' n = some r ∧ r'.ident = r.ident := by
  have hm := (findRoute_mem hr)
  have : r'.ident ∈ ids s := (h.mem hu _).1 (List.mem_map_of_mem hm.1)
  obtain ⟨x, hx, e⟩ := List.mem_map.1 this
  cases hf : findRoute s k' n with
  | none =>
    have := flatFind_none.1 hf x hx
    simp only [Route.ident, Prod.mk.injEq] at e
    grind
  | some r =>
    refine ⟨r, rfl, ?_⟩
    have hmr := findRoute_mem hf
    rw [← e]
    refine hu _ (List.mem_map_of_mem hx) _ (List.mem_map_of_mem hmr.1) ?_ ?_
    · simp only [Route.ident, Prod.mk.injEq] at e ⊢; grind
    · simp only [Route.ident, Prod.mk.injEq] at e ⊢; grind

theorem routeChanged_ord (c : Cfg) (s : St) (k : PKey) (n : NeighId) (os : SKey) (om : Nat)
    (hu : Uniq (ids s)) (h : ∀ r, findRoute s k n = some r → routeExpired s r = false) :
    Ord (NotExp s.now.sec) k (ids s) (ids (routeChanged c s k n os om)) := by
  have key : Ord (NotExp s.now.sec) k (ids s) (ids (routeChangedBetter c s k n)) := by
    unfold routeChangedBetter
    split
    · exact .refl _
    · next r hr =>
      split
      · split
        · next s1 hb =>
          have := ident_core (findBest_frame hb).routes
          unfold ids; rw [this]; exact .refl _
        · next b s1 hb =>
          have hf := findBest_frame hb
          have e : ids s1 = ids s := ident_core hf.routes
          obtain ⟨rb, hrb, hex, -⟩ := acceptable_spec (findBest_acceptable hb)
          rw [hrb]
          simp only
          split
          · have := considerRoute_ord (NotExp s.now.sec) c s1 k b (by
              intro r' hr'
              rw [hrb] at hr'; simp at hr'; subst hr'
              rw [← hf.now]; exact notExp_route.2 hex)
            rw [e] at this
            exact this
          · rw [e]; exact .refl _
      · exact .refl _
  unfold routeChanged
  simp only
  generalize routeChangedBetter c s k n = s1 at key
  split
  · exact key
  · next r hr =>
    split
    · have e : ids (sendTriggeredUpdate c s1 k n os om) = ids s1 :=
        ident_core (qms_sendTriggered ..).same.routes
      rw [e]; exact key
    · refine key.trans (considerRoute_ord _ c s1 k n ?_)
      intro r' hr'
      rw [hr] at hr'; simp at hr'; subst hr'
      obtain ⟨r0, h0, e0⟩ := key.find hu hr
      rw [e0]
      exact notExp_route.2 (h r0 h0)

theorem expireKeep_ord (c : Cfg) (s : St) (ex : List SKey) (hi : Inv c s ex) (k : PKey) (n : NeighId)
    (h : ∀ r, findRoute s k n = some r → routeExpired s r = false) :
    Ord (NotExp s.now.sec) k (ids s) (ids (expireKeep c s k n)) := by
  have hu := uniq_ids hi
  have key : Ord (NotExp s.now.sec) k (ids s) (ids (updateRouteMetric c s k n)) := by
    unfold updateRouteMetric
    split
    · exact .refl _
    · next r hr =>
      simp only
      rw [if_neg (by rw [h r hr]; simp)]
      have hf := frame_smooth c s k n
      have e0 : ids (smoothRoute c s k n).2 = ids s := ident_core hf.routes
      have e1 : ids (changeRouteMetric c (smoothRoute c s k n).2 k n r.refmetric
          ((smoothRoute c s k n).2.ncost n) (c.inputFilter (some r.id) k (some n) (c.ifOf n))) = ids s := by
        unfold ids; rw [ident_metric]; exact e0
      have n1 : (changeRouteMetric c (smoothRoute c s k n).2 k n r.refmetric
          ((smoothRoute c s k n).2.ncost n) (c.inputFilter (some r.id) k (some n) (c.ifOf n))).now = s.now := by
        rw [(keep_metric ..).now, hf.now]
      generalize changeRouteMetric c (smoothRoute c s k n).2 k n r.refmetric
          ((smoothRoute c s k n).2.ncost n) (c.inputFilter (some r.id) k (some n) (c.ifOf n)) = s2 at e1 n1
      have go : ∀ s3 os om, ids s3 = ids s → s3.now = s.now →
          Ord (NotExp s.now.sec) k (ids s) (ids (routeChanged c s3 k n os om)) := by
        intro s3 os om e3 n3
        have := routeChanged_ord c s3 k n os om (by rw [e3]; exact hu) (by
          intro r' hr'
          obtain ⟨r0, h0, e⟩ := find_ident_inv e3 hr'
          have := notExp_route.2 (h r0 h0)
          apply notExp_route.1
          rw [n3, e]; exact this)
        rw [e3, n3] at this
        exact this
      split
      · rw [e1]; exact .refl _
      · next r2 hr2 =>
        split
        · exact go _ _ _ e1 n1
        · have hf2 := frame_smooth c s2 k n
          have e2 : ids (smoothRoute c s2 k n).2 = ids s := (ident_core hf2.routes).trans e1
          split
          · exact go _ _ _ e2 (hf2.now.trans n1)
          · rw [e2]; exact .refl _
  unfold expireKeep
  simp only
  split
  · exact key
  · split
    · have e : ids (sendUnicastRequest c (updateRouteMetric c s k n) n k) =
          ids (updateRouteMetric c s k n) := ident_core (qms_sendUnicastRequest ..).same.routes
      rw [e]; exact key
    · exact key

/-! ### The walk -/

abbrev slotIds (L : List Ident) (k : PKey) : List Ident := L.filter (fun i => i.1 == k)

/-- Everything in front of the route of `n` satisfies `P`. -/
def Front (P : Ident → Prop) (S : List Ident) (n : NeighId) : Prop :=
  ∃ pre x post, S = pre ++ x :: post ∧ x.2.1 = n ∧ ∀ i ∈ pre, P i ∧ i.2.1 ≠ n

theorem slotIds_move (L : List Ident) (k : PKey) (n : NeighId) {x : Ident}
    (h : L.find? (isAt k n) = some x) :
    slotIds (idMove L k n) k = x :: (slotIds L k).filter (fun i => !(i.2.1 == n)) := by
  unfold idMove slotIds
  rw [h]
  simp only
  have hx := List.find?_some h
  unfold isAt at hx
  rw [List.filter_cons, if_pos (by grind), List.filter_filter, List.filter_filter]
  congr 1
  apply List.filter_congr
  intro i _
  unfold isAt
  cases (i.1 == k) <;> cases (i.2.1 == n) <;> rfl

theorem Ord.front {P : Ident → Prop} {k : PKey} {L L' : List Ident} (h : Ord P k L L') {n : NeighId}
    (hf : Front P (slotIds L k) n) : Front P (slotIds L' k) n := by
  induction h with
  | refl => exact hf
  | @move L' b x g h1 h2 ih =>
    rw [slotIds_move _ _ _ h1]
    have hx := List.find?_some h1
    unfold isAt at hx
    obtain ⟨pre, y, post, e, hy, hp⟩ := ih
    by_cases hb : b = n
    · subst hb
      exact ⟨[], x, _, rfl, by grind, by simp⟩
    · refine ⟨x :: pre.filter (fun i => !(i.2.1 == b)), y, post.filter (fun i => !(i.2.1 == b)), ?_, hy, ?_⟩
      · rw [e, List.filter_append, List.filter_cons, if_pos (by grind)]
        rfl
      · intro i hi
        rcases List.mem_cons.1 hi with hi | hi
        · subst hi; exact ⟨h2, by grind⟩
        · exact hp i (List.mem_filter.1 hi).1

/-- `succOf` on idents. -/
def succI : List Ident → NeighId → Option NeighId
  | [], _ => none
  | i :: l, n => if i.2.1 == n then l.head?.map (·.2.1) else succI l n

theorem succOf_ids (l : List Route) (n : NeighId) : succOf l n = succI (l.map Route.ident) n := by
  induction l with
  | nil => rfl
  | cons r l ih =>
    simp only [succOf, List.map_cons, succI]
    rw [ih]
    show (if r.neigh == n then _ else _) = (if r.neigh == n then _ else _)
    congr 1
    cases l <;> rfl

theorem slot_ids (s : St) (k : PKey) : (slotOf s.routes k).map Route.ident = slotIds (ids s) k := by
  unfold slotOf slotIds ids
  rw [List.filter_map]; rfl

theorem succI_split (pre : List Ident) (x : Ident) (post : List Ident) (n : NeighId) (hx : x.2.1 = n)
    (hp : ∀ i ∈ pre, i.2.1 ≠ n) : succI (pre ++ x :: post) n = post.head?.map (·.2.1) := by
  induction pre with
  | nil => simp only [List.nil_append, succI]; rw [if_pos (by simpa using hx)]
  | cons a pre ih =>
    simp only [List.cons_append, succI]
    rw [if_neg (by have := hp a (by simp); simpa using this)]
    exact ih (fun i hi => hp i (by simp [hi]))

/-- The position of the walk. -/
def Pos (P : Ident → Prop) (S : List Ident) : Option NeighId → Prop
  | none => ∀ i ∈ S, P i
  | some n => Front P S n

theorem pos_head (P : Ident → Prop) (S : List Ident) : Pos P S (S.head?.map (·.2.1)) := by
  cases S with
  | nil => intro i hi; simp at hi
  | cons x S => exact ⟨[], x, S, rfl, rfl, by simp⟩

theorem pos_succ {P : Ident → Prop} {S : List Ident} {n : NeighId} (h : Front P S n)
    (hu : ∀ i ∈ S, ∀ j ∈ S, i.2.1 = j.2.1 → i = j) (hn : S.Nodup)
    (hx : ∀ i ∈ S, i.2.1 = n → P i) : Pos P S (succI S n) := by
  obtain ⟨pre, x, post, e, hx1, hp⟩ := h
  have hs : succI S n = post.head?.map (·.2.1) := by
    rw [e]; exact succI_split pre x post n hx1 (fun i hi => (hp i hi).2)
  rw [hs]
  cases post with
  | nil =>
    intro i hi
    rw [e] at hi
    rcases List.mem_append.1 hi with hi | hi
    · exact (hp i hi).1
    · simp at hi; subst hi; exact hx i (by rw [e]; simp) hx1
  | cons y post =>
    refine ⟨pre ++ [x], y, post, by rw [e]; simp, rfl, ?_⟩
    intro i hi
    have hP : P i := by
      rcases List.mem_append.1 hi with hi | hi
      · exact (hp i hi).1
      · simp at hi; subst hi; exact hx i (by rw [e]; simp) hx1
    refine ⟨hP, ?_⟩
    intro heq
    have hiS : i ∈ S := by rw [e]; simp at hi ⊢; grind
    have hyS : y ∈ S := by rw [e]; simp
    have := hu i hiS y hyS heq
    subst this
    rw [e, List.nodup_append] at hn
    rcases List.mem_append.1 hi with hi | hi
    · exact hn.2.2 i hi i (by simp) rfl
    · simp at hi; subst hi
      have := hn.2.1
      simp at this

theorem ids_nodup {c : Cfg} {s : St} {ex : List SKey} (hi : Inv c s ex) : (ids s).Nodup := by
  unfold ids List.Nodup
  rw [List.pairwise_map]
  refine List.Pairwise.imp (fun {a b} h => ?_) hi.lst.one
  intro e
  simp only [Route.ident, Prod.mk.injEq] at e
  exact h ⟨e.1, e.2.1⟩

/-- The route is removed by the expiry pass at time `t`. -/
def Due (t : Int) (i : Ident) : Prop :=
  i.2.2.2.2.1 > t ∨ i.2.2.2.2.1 < t - ((i.2.2.2.2.2 * 7 / 8 : Nat) : Int)

theorem due_route {s : St} {r : Route} : dueForFlush s r = true ↔ Due s.now.sec r.ident := by
  unfold dueForFlush routeOld Due
  simp [Route.ident]

theorem not_due_notExp {t : Int} {i : Ident} (h : ¬ Due t i) : NotExp t i := by
  unfold Due at h; unfold NotExp
  omega

structure Expired (c : Cfg) (ex : List SKey) (k : PKey) (s s' : St) : Prop where
  inv : Inv c s' ex
  now : s'.now = s.now
  sub : ∀ i ∈ ids s', i ∈ ids s
  keep : ∀ i ∈ ids s, (¬ Due s.now.sec i ∨ i.1 ≠ k) → i ∈ ids s'

theorem Expired.refl {c : Cfg} {ex : List SKey} {k : PKey} {s : St} (hi : Inv c s ex) :
    Expired c ex k s s := ⟨hi, rfl, fun _ h => h, fun _ h _ => h⟩

theorem Expired.trans {c : Cfg} {ex : List SKey} {k : PKey} {a b d : St} (h : Expired c ex k a b)
    (g : Expired c ex k b d) : Expired c ex k a d :=
  ⟨g.inv, g.now.trans h.now, fun i hi => h.sub i (g.sub i hi), fun i hi hc =>
    g.keep i (h.keep i hi hc) (by rw [h.now]; exact hc)⟩

theorem flushRoute_expired (c : Cfg) (s : St) (ex : List SKey) (hi : Inv c s ex) (k : PKey) (n : NeighId)
    {r : Route} (hr : findRoute s k n = some r) (hd : Due s.now.sec r.ident) :
    Expired c ex k s (flushRoute c s k n) := by
  obtain ⟨h1, h2⟩ := flushRoute_ids c s ex hi k n
  refine ⟨h2, (flushRoute_ms c { drop := True } s ex k n trivial).now (fun h => h) hi, ?_, ?_⟩
  · intro i h
    exact (List.mem_filter.1 (h1.mem_iff.1 h)).1
  · intro i h hc
    refine h1.mem_iff.2 (List.mem_filter.2 ⟨h, ?_⟩)
    have hm := findRoute_mem hr
    by_cases ha : i.1 = k ∧ i.2.1 = n
    · have := uniq_ids hi i h r.ident (List.mem_map_of_mem hm.1) (by rw [ha.1]; exact hm.2.1.symm)
        (by rw [ha.2]; exact hm.2.2.symm)
      subst this
      rcases hc with hc | hc
      · exact absurd hd hc
      · exact absurd ha.1 hc
    · have : (i.1 == k && i.2.1 == n) = false := by rw [Bool.eq_false_iff]; simpa using ha
      rw [this]; rfl

theorem expireKeep_expired (c : Cfg) (s : St) (ex : List SKey) (hi : Inv c s ex) (k : PKey) (n : NeighId)
    (h : ∀ r, findRoute s k n = some r → routeExpired s r = false) :
    Expired c ex k s (expireKeep c s k n) := by
  have ho := expireKeep_ord c s ex hi k n h
  have hms := expireKeep_ms c { } s ex k n
  refine ⟨hms.inv hi, hms.now (fun h => h) hi, fun i hi' => (ho.mem (uniq_ids hi) i).1 hi',
    fun i hi' _ => (ho.mem (uniq_ids hi) i).2 hi'⟩

theorem expireFrom_spec (c : Cfg) (ex : List SKey) (k : PKey) (fuel : Nat) (cur : Option NeighId) (s : St)
    (hi : Inv c s ex) :
    Expired c ex k s (expireFrom c k fuel cur s).1 ∧
    (Pos (NotExp s.now.sec) (slotIds (ids s) k) cur → (expireFrom c k fuel cur s).2 = true →
      ∀ i ∈ ids (expireFrom c k fuel cur s).1, i.1 = k → NotExp s.now.sec i) := by
  induction fuel generalizing cur s with
  | zero => exact ⟨.refl hi, fun _ h => by simp [expireFrom] at h⟩
  | succ f ih =>
    cases cur with
    | none =>
      refine ⟨.refl hi, fun h _ i h1 h2 => ?_⟩
      exact h i (List.mem_filter.2 ⟨h1, by simpa using h2⟩)
    | some n =>
      simp only [expireFrom]
      cases hr : findRoute s k n with
      | none => exact ⟨.refl hi, fun _ h => by simp at h⟩
      | some r =>
        simp only
        split
        · next hd =>
          have h1 := flushRoute_expired c s ex hi k n hr (due_route.1 hd)
          obtain ⟨h2, h3⟩ := ih ((slotOf (flushRoute c s k n).routes k).head?.map (·.neigh))
            (flushRoute c s k n) h1.inv
          refine ⟨h1.trans h2, fun _ hf => ?_⟩
          rw [h1.now] at h3
          apply h3 _ hf
          have := pos_head (NotExp s.now.sec) (slotIds (ids (flushRoute c s k n)) k)
          rw [← slot_ids] at this ⊢
          rw [List.head?_map, Option.map_map] at this
          exact this
        · next hd =>
          have hne : ∀ r, findRoute s k n = some r → routeExpired s r = false := by
            intro r' hr'
            rw [hr] at hr'; simp at hr'; subst hr'
            exact notExp_route.1 (not_due_notExp (fun h => hd (due_route.2 h)))
          have h1 := expireKeep_expired c s ex hi k n hne
          obtain ⟨h2, h3⟩ := ih (succOf (slotOf (expireKeep c s k n).routes k) n) _ h1.inv
          refine ⟨h1.trans h2, fun hp hf => ?_⟩
          rw [h1.now] at h3
          apply h3 _ hf
          rw [succOf_ids, slot_ids]
          have hfr := (expireKeep_ord c s ex hi k n hne).front hp
          refine pos_succ hfr ?_ ((ids_nodup h1.inv).filter _) ?_
          · intro i hi' j hj' he
            rw [List.mem_filter] at hi' hj'
            exact uniq_ids h1.inv i hi'.1 j hj'.1 (by
              have := hi'.2; have := hj'.2; grind) he
          · intro i hi' he
            rw [List.mem_filter] at hi'
            have hin := h1.sub i hi'.1
            have hm := findRoute_mem hr
            have : i = r.ident := uniq_ids hi i hin r.ident (List.mem_map_of_mem hm.1)
              (by have := hi'.2; have := hm.2.1; simp only [Route.ident]; grind)
              (by have := hm.2.2; simp only [Route.ident]; grind)
            rw [this]
            exact notExp_route.2 (hne r hr)

theorem expireFold_spec (c : Cfg) (ex : List SKey) (fuel : Nat) (L : List PKey) (p : St × Bool)
    (hi : Inv c p.1 ex) :
    let q := L.foldl (fun p k => let q := expireSlot c fuel p.1 k; (q.1, p.2 && q.2)) p
    (q.1.now = p.1.now) ∧
    (∀ i ∈ ids q.1, i ∈ ids p.1) ∧ (∀ i ∈ ids p.1, ¬ Due p.1.now.sec i → i ∈ ids q.1) ∧
    (q.2 = true → p.2 = true ∧ ∀ i ∈ ids q.1, i.1 ∈ L → NotExp p.1.now.sec i) := by
  induction L generalizing p with
  | nil => exact ⟨rfl, fun _ h => h, fun _ h _ => h, fun h => ⟨h, fun _ _ h => by simp at h⟩⟩
  | cons k L ih =>
    simp only [List.foldl_cons]
    obtain ⟨h1, h2⟩ := expireFrom_spec c ex k fuel ((slotOf p.1.routes k).head?.map (·.neigh)) p.1 hi
    have hpos : Pos (NotExp p.1.now.sec) (slotIds (ids p.1) k) ((slotOf p.1.routes k).head?.map (·.neigh)) := by
      have := pos_head (NotExp p.1.now.sec) (slotIds (ids p.1) k)
      rw [← slot_ids] at this ⊢
      rw [List.head?_map, Option.map_map] at this
      exact this
    have h2 := h2 hpos
    have h3 := ih ((expireSlot c fuel p.1 k).1, p.2 && (expireSlot c fuel p.1 k).2) h1.inv
    simp only at h3
    obtain ⟨g1, g2, g3, g4⟩ := h3
    have e : (expireSlot c fuel p.1 k).1.now = p.1.now := h1.now
    rw [e] at g1 g3 g4
    refine ⟨g1, fun i h => h1.sub i (g2 i h), fun i h hd => g3 i (h1.keep i h (.inl hd)) hd, fun hf => ?_⟩
    obtain ⟨a1, a2⟩ := g4 hf
    simp only [Bool.and_eq_true] at a1
    refine ⟨a1.1, fun i h hk => ?_⟩
    rcases List.mem_cons.1 hk with hk | hk
    · exact h2 a1.2 i (g2 i h) hk
    · exact a2 i h hk

/-- The expiry pass removes only routes that are due, and a finished pass leaves no expired route. -/
theorem expireRoutes_spec (c : Cfg) (ex : List SKey) (fuel : Nat) (s : St) (hi : Inv c s ex) :
    (∀ i ∈ ids (expireRoutes c fuel s).1, i ∈ ids s) ∧
    (∀ i ∈ ids s, ¬ Due s.now.sec i → i ∈ ids (expireRoutes c fuel s).1) ∧
    ((expireRoutes c fuel s).2 = true → ∀ i ∈ ids (expireRoutes c fuel s).1, NotExp s.now.sec i) := by
  obtain ⟨h1, h2, h3, h4⟩ := expireFold_spec c ex fuel (slotKeys s) (s, true) hi
  refine ⟨h2, h3, fun hf i h => (h4 hf).2 i h ?_⟩
  obtain ⟨r, hr, rfl⟩ := List.mem_map.1 (h2 i h)
  exact (mem_slotKeys s r.key).2 ⟨r, hr, rfl⟩

end Babel
