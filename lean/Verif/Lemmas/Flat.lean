import Verif.Lemmas.Micro
import Verif.Lemmas.RouteTable
/- Helper lemmas: effect of the elementary operations on lookups in the list of routes. -/
set_option linter.unusedSimpArgs false
set_option linter.unusedVariables false
set_option linter.unusedSectionVars false
namespace Babel
open Spec

/-- `f` keeps the identity of routes. -/
def KeepsId (f : Route → Route) : Prop := ∀ r, (f r).key = r.key ∧ (f r).neigh = r.neigh

theorem flatFind_mem {l : List Route} {k : PKey} {n : NeighId} {r : Route}
    (h : flatFind l k n = some r) : r ∈ l ∧ r.key = k ∧ r.neigh = n := by
  have h1 := List.mem_of_find?_eq_some h
  have h2 := List.find?_some h
  simp at h2
  exact ⟨h1, h2⟩

theorem flatFind_none {l : List Route} {k : PKey} {n : NeighId} :
    flatFind l k n = none ↔ ∀ r ∈ l, ¬ (r.key = k ∧ r.neigh = n) := by
  simp [flatFind, List.find?_eq_none]

theorem flatFind_cons (a : Route) (l : List Route) (k : PKey) (n : NeighId) :
    flatFind (a :: l) k n = if a.key = k ∧ a.neigh = n then some a else flatFind l k n := by
  unfold flatFind
  rw [List.find?_cons]
  by_cases h : a.key = k ∧ a.neigh = n
  · simp [h]
  · have : (a.key == k && a.neigh == n) = false := by
      rw [Bool.eq_false_iff]; simpa using h
    rw [this, if_neg h]

theorem flatFind_modify (l : List Route) (k k' : PKey) (n n' : NeighId) (f : Route → Route)
    (hf : KeepsId f) :
    flatFind (flatModify l k n f) k' n' =
      if k' = k ∧ n' = n then (flatFind l k n).map f else flatFind l k' n' := by
  induction l with
  | nil => simp [flatFind, flatModify]
  | cons a l ih =>
    have e : flatModify (a :: l) k n f =
        (if a.key == k && a.neigh == n then f a else a) :: flatModify l k n f := rfl
    rw [e, flatFind_cons, ih, flatFind_cons, flatFind_cons]
    have h1 := (hf a).1
    have h2 := (hf a).2
    grind

theorem flatFind_remove (l : List Route) (k k' : PKey) (n n' : NeighId) :
    flatFind (flatRemove l k n) k' n' = if k' = k ∧ n' = n then none else flatFind l k' n' := by
  induction l with
  | nil => simp [flatFind, flatRemove]
  | cons a l ih =>
    unfold flatRemove at ih ⊢
    rw [List.filter_cons]
    by_cases ha : a.key = k ∧ a.neigh = n
    · have hb : (!(a.key == k && a.neigh == n)) = false := by simp [ha]
      rw [hb]
      simp only [Bool.false_eq_true, if_false]
      rw [ih, flatFind_cons]
      by_cases hk : k' = k ∧ n' = n
      · simp [hk]
      · have : ¬ (a.key = k' ∧ a.neigh = n') := by
          intro h; exact hk ⟨h.1.symm.trans ha.1, h.2.symm.trans ha.2⟩
        rw [if_neg hk, if_neg this, if_neg hk]
    · have hb : (!(a.key == k && a.neigh == n)) = true := by grind
      rw [hb, if_pos rfl, flatFind_cons, ih, flatFind_cons]
      by_cases hk : k' = k ∧ n' = n
      · rw [if_pos hk, if_pos hk, hk.1, hk.2, if_neg ha]
      · rw [if_neg hk, if_neg hk]

theorem flatFind_move (l : List Route) (k k' : PKey) (n n' : NeighId) :
    flatFind (flatMove l k n) k' n' = flatFind l k' n' := by
  unfold flatMove
  split
  · rfl
  · next r h =>
    have hm := flatFind_mem h
    rw [flatFind_cons, flatFind_remove, hm.2.1, hm.2.2]
    by_cases hk : k' = k ∧ n' = n
    · rw [if_pos ⟨hk.1.symm, hk.2.symm⟩, hk.1, hk.2, h]
    · rw [if_neg (fun e => hk ⟨e.1.symm, e.2.symm⟩), if_neg hk]

theorem flatFind_insert {l : List Route} {r : Route} (h : flatFind l r.key r.neigh = none)
    (k : PKey) (n : NeighId) :
    flatFind (flatInsert l r) k n = if k = r.key ∧ n = r.neigh then some r else flatFind l k n := by
  unfold flatInsert
  have e : flatFind (l ++ [r]) k n = (flatFind l k n).or (flatFind [r] k n) := by
    unfold flatFind; rw [List.find?_append]
  rw [e, flatFind_cons]
  by_cases hk : k = r.key ∧ n = r.neigh
  · rw [if_pos hk, hk.1, hk.2, h]; simp
  · rw [if_neg hk, if_neg (fun e => hk ⟨e.1.symm, e.2.symm⟩)]
    simp [flatFind]

theorem mem_flatModify {l : List Route} {k : PKey} {n : NeighId} {f : Route → Route} {x : Route}
    (h : x ∈ flatModify l k n f) :
    (∃ r ∈ l, r.key = k ∧ r.neigh = n ∧ x = f r) ∨ (x ∈ l ∧ ¬ (x.key = k ∧ x.neigh = n)) := by
  unfold flatModify at h
  rw [List.mem_map] at h
  obtain ⟨r, hr, e⟩ := h
  split at e
  · next hc => simp at hc; exact .inl ⟨r, hr, hc.1, hc.2, e.symm⟩
  · next hc => simp at hc; subst e; exact .inr ⟨hr, by simpa using hc⟩

theorem mem_flatMove {l : List Route} {k : PKey} {n : NeighId} {x : Route} (h : x ∈ flatMove l k n) :
    x ∈ l := by
  unfold flatMove at h
  split at h
  · exact h
  · next r e =>
    rcases List.mem_cons.1 h with h | h
    · rw [h]; exact (flatFind_mem e).1
    · exact (List.mem_filter.1 h).1

theorem onePerNeigh_unique {l : List Route} (hu : OnePerNeigh l) {x r : Route} (hx : x ∈ l)
    (hr : r ∈ l) (hk : x.key = r.key) (hn : x.neigh = r.neigh) : x = r := by
  induction l with
  | nil => simp at hx
  | cons a l ih =>
    unfold OnePerNeigh at hu ih
    rw [List.pairwise_cons] at hu
    rcases List.mem_cons.1 hx with h | h <;> rcases List.mem_cons.1 hr with g | g
    · rw [h, g]
    · subst h; exact absurd ⟨hk, hn⟩ (hu.1 r g)
    · subst g; exact absurd ⟨hk.symm, hn.symm⟩ (hu.1 x h)
    · exact ih hu.2 h g

theorem mem_flatMove_iff {l : List Route} {k : PKey} {n : NeighId} (hu : OnePerNeigh l) {x : Route} :
    x ∈ flatMove l k n ↔ x ∈ l := by
  refine ⟨mem_flatMove, fun h => ?_⟩
  unfold flatMove
  split
  · exact h
  · next r e =>
    by_cases hx : x.key = k ∧ x.neigh = n
    · have hm := flatFind_mem e
      have : x = r := onePerNeigh_unique hu h hm.1 (hx.1.trans hm.2.1.symm) (hx.2.trans hm.2.2.symm)
      simp [this]
    · rw [List.mem_cons]; right
      unfold flatRemove
      rw [List.mem_filter]
      exact ⟨h, by grind⟩

theorem flatFind_of_mem {l : List Route} (hu : OnePerNeigh l) {r : Route} (hr : r ∈ l) :
    flatFind l r.key r.neigh = some r := by
  cases h : flatFind l r.key r.neigh with
  | none => exact absurd ⟨rfl, rfl⟩ (flatFind_none.1 h r hr)
  | some x =>
    have := flatFind_mem h
    rw [onePerNeigh_unique hu this.1 hr this.2.1 this.2.2]

theorem onePerNeigh_modify {l : List Route} (h : OnePerNeigh l) (k : PKey) (n : NeighId)
    {f : Route → Route} (hf : KeepsId f) : OnePerNeigh (flatModify l k n f) := by
  unfold OnePerNeigh flatModify at *
  rw [List.pairwise_map]
  refine h.imp (fun {a b} hab => ?_)
  split <;> split <;> simpa [(hf _).1, (hf _).2] using hab

theorem onePerNeigh_move {l : List Route} (h : OnePerNeigh l) (k : PKey) (n : NeighId) :
    OnePerNeigh (flatMove l k n) := by
  unfold flatMove
  split
  · exact h
  · next r e =>
    have hm := flatFind_mem e
    unfold OnePerNeigh
    rw [List.pairwise_cons]
    refine ⟨fun x hx hc => ?_, onePerNeigh_remove h k n⟩
    unfold flatRemove at hx
    have := (List.mem_filter.1 hx).2
    grind

theorem onePerNeigh_insert {l : List Route} (h : OnePerNeigh l) {r : Route}
    (hn : flatFind l r.key r.neigh = none) : OnePerNeigh (flatInsert l r) := by
  unfold OnePerNeigh flatInsert at *
  rw [List.pairwise_append]
  refine ⟨h, by simp, fun a ha b hb => ?_⟩
  simp at hb
  subst hb
  exact flatFind_none.1 hn a ha

theorem onePerNeigh_core {l l' : List Route} (e : l'.map Route.core = l.map Route.core)
    (h : OnePerNeigh l) : OnePerNeigh l' := by
  have hm : ∀ l : List Route, OnePerNeigh l ↔ OnePerNeigh (l.map Route.core) := by
    intro l; unfold OnePerNeigh; rw [List.pairwise_map]; rfl
  rw [hm, e, ← hm]; exact h

/-! ### Slots -/

theorem slotOf_move_ne (l : List Route) (k k' : PKey) (n : NeighId) (h : k' ≠ k) :
    slotOf (flatMove l k n) k' = slotOf l k' := by
  unfold flatMove
  split
  · rfl
  · next r e =>
    have hm := flatFind_mem e
    have : slotOf (r :: flatRemove l k n) k' = slotOf (flatRemove l k n) k' := by
      unfold slotOf
      rw [List.filter_cons, if_neg (by simp [hm.2.1]; exact fun e => h e.symm)]
    rw [this, slotOf_remove_ne l k k' n h]

theorem slotOf_move (l : List Route) (k : PKey) (n : NeighId) {r : Route}
    (e : flatFind l k n = some r) :
    slotOf (flatMove l k n) k = r :: (slotOf l k).filter (fun x => !(x.neigh == n)) := by
  unfold flatMove
  rw [e]
  have hm := flatFind_mem e
  show slotOf (r :: flatRemove l k n) k = _
  rw [← slotOf_remove]
  unfold slotOf
  rw [List.filter_cons, if_pos (by simp [hm.2.1])]

theorem slotOf_modify_ne (l : List Route) (k k' : PKey) (n : NeighId) (f : Route → Route)
    (hf : KeepsId f) (h : k' ≠ k) : slotOf (flatModify l k n f) k' = slotOf l k' := by
  unfold slotOf flatModify
  induction l with
  | nil => rfl
  | cons a l ih =>
    rw [List.map_cons, List.filter_cons, List.filter_cons, ih]
    by_cases ha : a.key = k ∧ a.neigh = n
    · have hb : (a.key == k && a.neigh == n) = true := by simpa using ha
      rw [hb, if_pos rfl, (hf a).1]
      have : (a.key == k') = false := by
        rw [Bool.eq_false_iff]; simp [ha.1]; exact fun e => h e.symm
      rw [this]; rfl
    · have hb : (a.key == k && a.neigh == n) = false := by
        rw [Bool.eq_false_iff]; simpa using ha
      rw [hb]; rfl

theorem flatFind_slot (l : List Route) (k : PKey) (n : NeighId) :
    flatFind l k n = (slotOf l k).find? (fun r => r.neigh == n) := (find_slotOf l k n).symm

/-! ### States -/

theorem findRoute_modRoute (s : St) (k k' : PKey) (n n' : NeighId) (f : Route → Route)
    (hf : KeepsId f) :
    findRoute (modRoute s k n f) k' n' =
      if k' = k ∧ n' = n then (findRoute s k n).map f else findRoute s k' n' :=
  flatFind_modify _ _ _ _ _ _ hf

theorem slotOf_modRoute_ne (s : St) (k k' : PKey) (n : NeighId) (f : Route → Route)
    (hf : KeepsId f) (h : k' ≠ k) : slotOf (modRoute s k n f).routes k' = slotOf s.routes k' :=
  slotOf_modify_ne _ _ _ _ _ hf h

/-- Looking up a route of a slot. -/
theorem findInstalled_eq {s : St} {k : PKey} {r : Route} {l : List Route}
    (h : slotOf s.routes k = r :: l) : findInstalled s k = if r.installed then some r else none := by
  unfold findInstalled
  rw [h]

theorem findInstalled_congr {s s' : St} {k : PKey} (h : slotOf s'.routes k = slotOf s.routes k) :
    findInstalled s' k = findInstalled s k := by
  unfold findInstalled
  rw [h]

end Babel
