import Verif.Lemmas.Steps
/-
Invariants of the tables of a running daemon, proved once for each elementary transition.
-/
set_option linter.unusedSimpArgs false
set_option linter.unusedVariables false
set_option linter.unusedSectionVars false
namespace Babel
open Spec

/-- Invariant of the list of routes. -/
structure LInv (c : Cfg) (l : List Route) : Prop where
  one : OnePerNeigh l
  head : l.Pairwise (fun a b => a.key = b.key → b.installed = false)
  ok : ∀ r ∈ l, r.id ≠ c.myid ∧ KeyOk r.key

theorem pairwise_core {R : Route → Route → Prop} (hR : ∀ a b, R a.core b.core ↔ R a b)
    {l l' : List Route} (e : l'.map Route.core = l.map Route.core) (h : l.Pairwise R) :
    l'.Pairwise R := by
  have hm : ∀ l : List Route, l.Pairwise R ↔ (l.map Route.core).Pairwise R := by
    intro l; rw [List.pairwise_map]; simp only [hR]
  rw [hm, e, ← hm]; exact h

theorem mem_core {l l' : List Route} (e : l'.map Route.core = l.map Route.core) {r : Route}
    (h : r ∈ l') : ∃ r0 ∈ l, r.core = r0.core := by
  have : r.core ∈ l'.map Route.core := List.mem_map_of_mem h
  rw [e, List.mem_map] at this
  obtain ⟨x, hx, ex⟩ := this
  exact ⟨x, hx, ex.symm⟩

theorem LInv.core {c : Cfg} {l l' : List Route} (e : l'.map Route.core = l.map Route.core)
    (h : LInv c l) : LInv c l' := by
  refine ⟨onePerNeigh_core e h.one, pairwise_core (fun a b => Iff.rfl) e h.head, fun r hr => ?_⟩
  obtain ⟨r0, h0, e0⟩ := mem_core e hr
  have := h.ok r0 h0
  rw [core_eq e0]
  exact this

theorem LInv.remove {c : Cfg} {l : List Route} (h : LInv c l) (k : PKey) (n : NeighId) :
    LInv c (flatRemove l k n) :=
  ⟨onePerNeigh_remove h.one k n, h.head.sublist List.filter_sublist,
   fun r hr => h.ok r (List.mem_filter.1 hr).1⟩

theorem LInv.insert {c : Cfg} {l : List Route} (h : LInv c l) {r : Route}
    (hn : flatFind l r.key r.neigh = none) (hi : r.installed = false) (hid : r.id ≠ c.myid)
    (hk : KeyOk r.key) : LInv c (flatInsert l r) := by
  refine ⟨onePerNeigh_insert h.one hn, ?_, ?_⟩
  · unfold flatInsert
    rw [List.pairwise_append]
    refine ⟨h.head, by simp, fun a ha b hb _ => ?_⟩
    simp at hb; rw [hb]; exact hi
  · intro x hx
    unfold flatInsert at hx
    rw [List.mem_append] at hx
    rcases hx with hx | hx
    · exact h.ok x hx
    · simp at hx; rw [hx]; exact ⟨hid, hk⟩

theorem LInv.modify {c : Cfg} {l : List Route} (h : LInv c l) (k : PKey) (n : NeighId)
    {f : Route → Route} (hf : KeepsId f) (hi : ∀ r, (f r).installed = true → r.installed = true)
    (hid : ∀ r, r.id ≠ c.myid → (f r).id ≠ c.myid) : LInv c (flatModify l k n f) := by
  refine ⟨onePerNeigh_modify h.one k n hf, ?_, ?_⟩
  · unfold flatModify
    rw [List.pairwise_map]
    refine h.head.imp (fun {a b} hab => ?_)
    have hb : ∀ x : Route, x.installed = false → (f x).installed = false := by
      intro x hx
      cases e : (f x).installed with
      | false => rfl
      | true => rw [hi x e] at hx; simp at hx
    have ha1 := (hf a).1
    have hb1 := (hf b).1
    have hb2 := hb b
    split <;> split <;> intro hk <;> grind
  · intro x hx
    rcases mem_flatModify hx with ⟨r, hr, -, -, e⟩ | ⟨hx, -⟩
    · rw [e, (hf r).1]; exact ⟨hid r (h.ok r hr).1, (h.ok r hr).2⟩
    · exact h.ok x hx

/-- Nothing selected for `k`. -/
def NoneInstalled (l : List Route) (k : PKey) : Prop := ∀ r ∈ l, r.key = k → r.installed = false

theorem noneInstalled_of_find {c : Cfg} {s : St} {k : PKey} (h : LInv c s.routes)
    (hn : findInstalled s k = none) : NoneInstalled s.routes k := by
  intro r hr hk
  have hs : r ∈ slotOf s.routes k := mem_slotOf.2 ⟨hr, hk⟩
  unfold findInstalled at hn
  split at hn
  · next e => rw [e] at hs; simp at hs
  · next a t e =>
    split at hn
    · simp at hn
    · next hi =>
      rw [e] at hs
      rcases List.mem_cons.1 hs with rfl | ht
      · simpa using hi
      · have hp : (slotOf s.routes k).Pairwise (fun a b => a.key = b.key → b.installed = false) :=
          h.head.sublist List.filter_sublist
        rw [e, List.pairwise_cons] at hp
        have hak : a.key = k := by
          have : a ∈ slotOf s.routes k := by rw [e]; simp
          exact (mem_slotOf.1 this).2
        exact hp.1 r ht (by rw [hak, hk])

theorem flatRemove_modify (l : List Route) (k : PKey) (n : NeighId) (f : Route → Route)
    (hf : KeepsId f) : flatRemove (flatModify l k n f) k n = flatRemove l k n := by
  unfold flatRemove flatModify
  induction l with
  | nil => rfl
  | cons a l ih =>
    rw [List.map_cons, List.filter_cons, List.filter_cons, ih]
    have h1 := (hf a).1
    have h2 := (hf a).2
    grind

theorem LInv.mark {c : Cfg} {l : List Route} (h : LInv c l) (k : PKey) (n : NeighId)
    (hn : NoneInstalled l k) :
    LInv c (flatMove (flatModify l k n (fun r => { r with installed := true })) k n) := by
  have h1 : OnePerNeigh (flatModify l k n (fun r => { r with installed := true })) :=
    onePerNeigh_modify h.one k n (keepsId_installed true)
  refine ⟨onePerNeigh_move h1 k n, ?_, ?_⟩
  · unfold flatMove
    split
    · next e =>
      have : flatModify l k n (fun r => { r with installed := true }) = l := by
        rw [flatFind_modify _ _ _ _ _ _ (keepsId_installed true)] at e
        simp only [and_self, if_true, Option.map_eq_none_iff] at e
        unfold flatModify
        conv => rhs; rw [← List.map_id l]
        apply List.map_congr_left
        intro r hr
        have := flatFind_none.1 e r hr
        rw [if_neg (by simpa using this)]; rfl
      rw [this]; exact h.head
    · next r e =>
      have hm := flatFind_mem e
      have hrem : flatRemove (flatModify l k n (fun r => { r with installed := true })) k n =
          flatRemove l k n := by
        exact flatRemove_modify _ _ _ _ (keepsId_installed true)
      rw [hrem, List.pairwise_cons]
      refine ⟨fun b hb hk => ?_, h.head.sublist List.filter_sublist⟩
      exact hn b (List.mem_filter.1 hb).1 (by rw [← hk, hm.2.1])
  · intro x hx
    rcases mem_flatModify (mem_flatMove hx) with ⟨r, hr, -, -, e⟩ | ⟨hx, -⟩
    · rw [e]; exact h.ok r hr
    · exact h.ok x hx

/-! ### Counting routes -/

theorem countP_modify {l : List Route} (hu : OnePerNeigh l) {k : PKey} {n : NeighId} {r : Route}
    (h : flatFind l k n = some r) (f : Route → Route) (p : Route → Bool) :
    (flatModify l k n f).countP p + (if p r then 1 else 0) =
      l.countP p + (if p (f r) then 1 else 0) := by
  induction l with
  | nil => simp [flatFind] at h
  | cons a l ih =>
    unfold OnePerNeigh at hu ih
    rw [List.pairwise_cons] at hu
    rw [flatFind_cons] at h
    have e : flatModify (a :: l) k n f =
        (if a.key == k && a.neigh == n then f a else a) :: flatModify l k n f := rfl
    rw [e, List.countP_cons, List.countP_cons]
    by_cases ha : a.key = k ∧ a.neigh = n
    · rw [if_pos ha] at h
      simp at h
      subst h
      have hb : (a.key == k && a.neigh == n) = true := by simpa using ha
      rw [hb, if_pos rfl]
      have : flatModify l k n f = l := by
        unfold flatModify
        conv => rhs; rw [← List.map_id l]
        apply List.map_congr_left
        intro r hr
        have := hu.1 r hr
        rw [ha.1, ha.2] at this
        rw [if_neg (by simp; intro h1 h2; exact this ⟨h1.symm, h2.symm⟩)]; rfl
      rw [this]
      omega
    · rw [if_neg ha] at h
      have hb : (a.key == k && a.neigh == n) = false := by
        rw [Bool.eq_false_iff]; simpa using ha
      rw [hb]
      have := ih hu.2 h
      simp only [Bool.false_eq_true, if_false]
      omega

theorem countP_remove {l : List Route} (hu : OnePerNeigh l) {k : PKey} {n : NeighId} {r : Route}
    (h : flatFind l k n = some r) (p : Route → Bool) :
    (flatRemove l k n).countP p + (if p r then 1 else 0) = l.countP p := by
  induction l with
  | nil => simp [flatFind] at h
  | cons a l ih =>
    unfold OnePerNeigh at hu ih
    rw [List.pairwise_cons] at hu
    rw [flatFind_cons] at h
    unfold flatRemove at ih ⊢
    rw [List.filter_cons]
    by_cases ha : a.key = k ∧ a.neigh = n
    · rw [if_pos ha] at h
      simp at h
      subst h
      have hb : (!(a.key == k && a.neigh == n)) = false := by simpa using ha
      rw [hb]
      have : l.filter (fun r => !(r.key == k && r.neigh == n)) = l := by
        rw [List.filter_eq_self]
        intro r hr
        have := hu.1 r hr
        rw [ha.1, ha.2] at this
        grind
      simp only [Bool.false_eq_true, if_false]
      rw [this, List.countP_cons]
    · rw [if_neg ha] at h
      have hb : (!(a.key == k && a.neigh == n)) = true := by grind
      rw [hb, if_pos rfl, List.countP_cons, List.countP_cons]
      have := ih hu.2 h
      omega

theorem countP_move {l : List Route} (hu : OnePerNeigh l) (k : PKey) (n : NeighId)
    (p : Route → Bool) : (flatMove l k n).countP p = l.countP p := by
  unfold flatMove
  split
  · rfl
  · next r h =>
    rw [List.countP_cons, ← countP_remove hu h p]

theorem countP_core {l l' : List Route} (e : l'.map Route.core = l.map Route.core)
    (p : Route → Bool) (hp : ∀ r, p r.core = p r) : l'.countP p = l.countP p := by
  have hm : ∀ l : List Route, l.countP p = (l.map Route.core).countP p := by
    intro l; rw [List.countP_map]; congr 1; funext r; exact (hp r).symm
  rw [hm, e, ← hm]

theorem countP_modify_same {l : List Route} (k : PKey) (n : NeighId) (f : Route → Route)
    (p : Route → Bool) (hp : ∀ r, p (f r) = p r) : (flatModify l k n f).countP p = l.countP p := by
  unfold flatModify
  rw [List.countP_map]
  congr 1
  funext r
  simp only [Function.comp]
  split
  · exact hp r
  · rfl

/-! ### Sources -/

/-- Number of references to the source `k`. -/
def refs (l : List Route) (ex : List SKey) (k : SKey) : Nat :=
  l.countP (fun r => r.skey == k) + ex.count k

/-- Invariant of the source table. -/
structure SInv (src : List Source) (l : List Route) (ex : List SKey) : Prop where
  nodup : (src.map (·.skey)).Nodup
  count : ∀ x ∈ src, x.routeCount = refs l ex x.skey
  has : ∀ k, refs l ex k ≠ 0 → ∃ x ∈ src, x.skey = k

theorem SInv.congr {src : List Source} {l l' : List Route} {ex ex' : List SKey}
    (h : SInv src l ex) (e : ∀ k, refs l' ex' k = refs l ex k) : SInv src l' ex' :=
  ⟨h.nodup, fun x hx => by rw [e]; exact h.count x hx, fun k hk => h.has k (by rw [← e]; exact hk)⟩

/-- Same keys and counts. -/
theorem SInv.skeys {src src' : List Source} {l : List Route} {ex : List SKey}
    (e : src'.map (fun x => (x.skey, x.routeCount)) = src.map (fun x => (x.skey, x.routeCount)))
    (h : SInv src l ex) : SInv src' l ex := by
  have key : ∀ l : List Source, l.map (·.skey) = (l.map (fun x => (x.skey, x.routeCount))).map (·.1) := by
    intro l; simp [List.map_map, Function.comp_def]
  refine ⟨by rw [key, e, ← key]; exact h.nodup, fun x hx => ?_, fun k hk => ?_⟩
  · have : (x.skey, x.routeCount) ∈ src.map (fun x => (x.skey, x.routeCount)) := by
      rw [← e]; exact List.mem_map_of_mem hx
    rw [List.mem_map] at this
    obtain ⟨y, hy, ey⟩ := this
    simp at ey
    rw [← ey.2, ← ey.1]; exact h.count y hy
  · obtain ⟨x, hx, ex⟩ := h.has k hk
    have : (x.skey, x.routeCount) ∈ src'.map (fun x => (x.skey, x.routeCount)) := by
      rw [e]; exact List.mem_map_of_mem hx
    rw [List.mem_map] at this
    obtain ⟨y, hy, ey⟩ := this
    simp at ey
    exact ⟨y, hy, by rw [ey.1, ex]⟩

/-- The counts of one source change together with the references. -/
theorem SInv.count_update {src : List Source} {l l' : List Route} {ex ex' : List SKey} (k : SKey)
    (f : Source → Source) (hf : ∀ x, (f x).skey = x.skey)
    (h : SInv src l ex) (hk : ∃ x ∈ src, x.skey = k)
    (ho : ∀ k', k' ≠ k → refs l' ex' k' = refs l ex k')
    (hc : ∀ x ∈ src, x.skey = k → (f x).routeCount = refs l' ex' k) :
    SInv (src.map (fun x => if x.skey == k then f x else x)) l' ex' := by
  refine ⟨?_, ?_, ?_⟩
  · rw [List.map_map]
    have : ((fun x : Source => x.skey) ∘ fun x => if (x.skey == k) = true then f x else x) =
        fun x => x.skey := by
      funext x
      simp only [Function.comp]
      split
      · exact hf x
      · rfl
    rw [this]; exact h.nodup
  · intro x hx
    rw [List.mem_map] at hx
    obtain ⟨y, hy, e⟩ := hx
    split at e
    · next hyk =>
      simp at hyk
      subst e
      rw [hf, hyk]
      exact hc y hy hyk
    · next hyk =>
      simp at hyk
      subst e
      rw [ho _ hyk]; exact h.count _ hy
  · intro k' hk'
    have : ∃ x ∈ src, x.skey = k' := by
      by_cases e : k' = k
      · rw [e]; exact hk
      · exact h.has k' (by rw [← ho k' e]; exact hk')
    obtain ⟨x, hx, ex⟩ := this
    refine ⟨_, List.mem_map_of_mem hx, ?_⟩
    split
    · rw [hf, ex]
    · exact ex

theorem SInv.ensure {s : St} {l : List Route} {ex : List SKey} (h : SInv s.sources l ex) (k : SKey)
    (q : UInt16) : SInv (ensureSource s k q).sources l ex := by
  unfold ensureSource
  split
  · exact h
  · next hn =>
    have hnk : ∀ x ∈ s.sources, x.skey ≠ k := by
      intro x hx e
      unfold findSource at hn
      rw [List.find?_eq_none] at hn
      exact hn x hx (by simp [e])
    have hz : refs l ex k = 0 := by
      refine Classical.byContradiction fun hz => ?_
      obtain ⟨x, hx, e⟩ := h.has k hz
      exact hnk x hx e
    refine ⟨?_, ?_, ?_⟩
    · simp only [List.map_append, List.map_cons, List.map_nil]
      rw [List.nodup_append]
      refine ⟨h.nodup, by simp, ?_⟩
      intro a ha b hb e
      simp at hb ha
      obtain ⟨x, hx, e'⟩ := ha
      exact hnk x hx (by rw [e', e, hb])
    · intro x hx
      rw [List.mem_append] at hx
      rcases hx with hx | hx
      · exact h.count x hx
      · simp at hx; rw [hx]; exact hz.symm
    · intro k' hk'
      obtain ⟨x, hx, e⟩ := h.has k' hk'
      exact ⟨x, List.mem_append_left _ hx, e⟩

theorem SInv.gc {s : St} {l : List Route} {ex : List SKey} (h : SInv s.sources l ex) :
    SInv (expireSources s).sources l ex := by
  unfold expireSources
  simp only
  have h1 : SInv (s.sources.map (fun x => if x.time > s.now.sec then { x with time := s.now.sec } else x))
      l ex := by
    refine h.skeys ?_
    rw [List.map_map]
    apply List.map_congr_left
    intro x _
    simp only [Function.comp]
    split <;> rfl
  generalize s.sources.map (fun x => if x.time > s.now.sec then { x with time := s.now.sec } else x) = l1
    at h1
  refine ⟨h1.nodup.sublist (List.filter_sublist.map _), fun x hx => h1.count x (List.mem_filter.1 hx).1,
    fun k hk => ?_⟩
  obtain ⟨x, hx, e⟩ := h1.has k hk
  refine ⟨x, List.mem_filter.2 ⟨hx, ?_⟩, e⟩
  have : x.routeCount ≠ 0 := by rw [h1.count x hx, e]; exact hk
  simp [this]

theorem refs_core {l l' : List Route} (e : l'.map Route.core = l.map Route.core) (ex : List SKey)
    (k : SKey) : refs l' ex k = refs l ex k := by
  unfold refs
  rw [countP_core e _ (fun r => rfl)]

end Babel
