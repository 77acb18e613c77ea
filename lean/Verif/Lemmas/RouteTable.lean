import Verif.Spec.RouteTable
import Verif.Lemmas.Table
set_option linter.unusedSimpArgs false
set_option linter.unusedVariables false
/- Helper lemmas: the slot array refines the flat list of routes. -/
namespace Babel
open Spec

/-- The array of slots `t` stores the routes `l`. -/
structure Refines (t : RTable) (l : List Route) : Prop where
  sorted : Sorted routeCompare headKey t
  nonempty : ∀ s ∈ t, s ≠ []
  canon : ∀ s ∈ t, Canonical (headKey s)
  slots : ∀ s ∈ t, slotOf l (headKey s) = s
  cover : ∀ r ∈ l, ∃ s ∈ t, headKey s = r.key
  uniq : OnePerNeigh l

theorem Refines.empty : Refines [] [] := by
  constructor <;> simp [Sorted, OnePerNeigh]

theorem mem_slotOf {l : List Route} {k : PKey} {r : Route} :
    r ∈ slotOf l k ↔ r ∈ l ∧ r.key = k := by
  simp [slotOf]

theorem Refines.key_of_mem {t l} (h : Refines t l) {s} (hs : s ∈ t) {r} (hr : r ∈ s) :
    r.key = headKey s := by
  rw [← h.slots s hs, mem_slotOf] at hr
  exact hr.2

theorem slot_cases {t l} (h : Refines t l) {k : PKey} (hk : Canonical k) :
    (∃ i, ∃ hi : i < t.length, findRouteSlot t k = .found i ∧ headKey t[i] = k ∧
        slotOf l k = t[i]) ∨
    (∃ n, findRouteSlot t k = .missing n ∧ (∀ s ∈ t, headKey s ≠ k) ∧ slotOf l k = []) := by
  cases hf : findRouteSlot t k with
  | found i =>
    left
    obtain ⟨hi, hc⟩ := findSlot_found hf
    have hk' : headKey t[i] = k :=
      ((routeCompare_canonical hk (h.canon _ (List.getElem_mem hi))).1 hc).symm
    refine ⟨i, hi, rfl, hk', ?_⟩
    have := h.slots _ (List.getElem_mem hi)
    rwa [hk'] at this
  | missing n =>
    right
    have hn : ∀ s ∈ t, headKey s ≠ k := by
      intro s hs he
      have hf' : tFind routeCompare headKey t k = none := by
        unfold tFind; unfold findRouteSlot at hf; rw [hf]
      exact tFind_none routeCompare_pre h.sorted hf' s hs (by rw [he]; exact routeCompare_refl k)
    refine ⟨n, rfl, hn, ?_⟩
    rw [slotOf, List.filter_eq_nil_iff]
    intro r hr he
    obtain ⟨s, hs, hsk⟩ := h.cover r hr
    exact hn s hs (by rw [hsk]; simpa using he)

theorem slotOf_append (l l' : List Route) (k : PKey) :
    slotOf (l ++ l') k = slotOf l k ++ slotOf l' k := by simp [slotOf]

theorem headKey_append (s : List Route) (hs : s ≠ []) (r : List Route) :
    headKey (s ++ r) = headKey s := by
  cases s with
  | nil => exact absurd rfl hs
  | cons a as => rfl

/-- Replacing one slot by another one with the same key keeps the table sorted. -/
theorem set_sorted {t : RTable} (hs : Sorted routeCompare headKey t) {i : Nat} (hi : i < t.length)
    {s : List Route} (hk : headKey s = headKey t[i]) :
    Sorted routeCompare headKey (t.set i s) := by
  unfold Sorted at *
  rw [List.pairwise_iff_getElem] at *
  intro a b ha hb hab
  rw [List.length_set] at ha hb
  have := hs a b ha hb hab
  rw [List.getElem_set, List.getElem_set]
  by_cases h1 : i = a
  · have h2 : ¬ i = b := by omega
    subst h1
    rw [if_pos rfl, if_neg h2, hk]; exact this
  · by_cases h2 : i = b
    · subst h2; rw [if_neg h1, if_pos rfl, hk]; exact this
    · rw [if_neg h1, if_neg h2]; exact this

theorem sorted_key_ne {t : RTable} (hs : Sorted routeCompare headKey t) {i j : Nat}
    (hi : i < t.length) (hj : j < t.length) (h : i ≠ j) : headKey t[i] ≠ headKey t[j] := by
  intro e
  have hp := List.pairwise_iff_getElem.1 hs
  rcases Nat.lt_or_gt_of_ne h with hl | hl
  · have := hp i j hi hj hl; rw [e, routeCompare_refl] at this; cases this
  · have := hp j i hj hi hl; rw [e, routeCompare_refl] at this; cases this

/-- General lemma: the slot of key `k` at index `i` is replaced by `s'`, and in the flat list only
the routes of key `k` change. -/
theorem refines_set {t l} (h : Refines t l) {i : Nat} (hi : i < t.length) {s' : List Route}
    {l' : List Route} (hne : s' ≠ []) (hk : headKey s' = headKey t[i])
    (hs' : slotOf l' (headKey t[i]) = s')
    (ho : ∀ k, k ≠ headKey t[i] → slotOf l' k = slotOf l k)
    (hu : OnePerNeigh l') : Refines (t.set i s') l' := by
  have hmem : ∀ s ∈ t.set i s', s = s' ∨ (s ∈ t ∧ headKey s ≠ headKey t[i]) := by
    intro s hs
    rw [List.mem_iff_getElem] at hs
    obtain ⟨j, hj, rfl⟩ := hs
    rw [List.getElem_set]
    rw [List.length_set] at hj
    by_cases e : i = j
    · rw [if_pos e]; exact Or.inl rfl
    · rw [if_neg e]
      exact Or.inr ⟨List.getElem_mem _, sorted_key_ne h.sorted hj hi (fun x => e x.symm)⟩
  have hin : s' ∈ t.set i s' := List.mem_set hi s'
  refine ⟨set_sorted h.sorted hi hk, ?_, ?_, ?_, ?_, hu⟩
  · intro s hs
    rcases hmem s hs with rfl | ⟨hm, _⟩
    · exact hne
    · exact h.nonempty s hm
  · intro s hs
    rcases hmem s hs with rfl | ⟨hm, _⟩
    · rw [hk]; exact h.canon _ (List.getElem_mem hi)
    · exact h.canon s hm
  · intro s hs
    rcases hmem s hs with rfl | ⟨hm, hn⟩
    · rw [hk]; exact hs'
    · rw [ho _ hn]; exact h.slots s hm
  · intro r hr
    by_cases e : r.key = headKey t[i]
    · exact ⟨s', hin, by rw [hk, e]⟩
    · have : r ∈ slotOf l' r.key := mem_slotOf.2 ⟨hr, rfl⟩
      rw [ho _ e, mem_slotOf] at this
      obtain ⟨s, hs, hsk⟩ := h.cover r this.1
      rw [List.mem_iff_getElem] at hs
      obtain ⟨j, hj, rfl⟩ := hs
      have hji : i ≠ j := by rintro rfl; exact e hsk.symm
      refine ⟨t[j], ?_, hsk⟩
      rw [List.mem_iff_getElem]
      refine ⟨j, by rw [List.length_set]; exact hj, ?_⟩
      rw [List.getElem_set, if_neg hji]

theorem modify_eq_set {α : Type} (t : List α) (i : Nat) (hi : i < t.length) (f : α → α) :
    t.modify i f = t.set i (f t[i]) := by
  apply List.ext_getElem
  · simp
  · intro j h1 h2
    rw [List.getElem_modify, List.getElem_set]
    by_cases e : i = j
    · subst e; simp
    · simp [e]

theorem onePerNeigh_slot {l : List Route} (h : OnePerNeigh l) (k : PKey) :
    (slotOf l k).Pairwise (fun a b => a.neigh ≠ b.neigh) := by
  have h1 : (slotOf l k).Pairwise (fun a b => ¬ (a.key = b.key ∧ a.neigh = b.neigh)) :=
    h.sublist List.filter_sublist
  refine h1.imp_of_mem ?_
  intro a b ha hb hab e
  exact hab ⟨by rw [(mem_slotOf.1 ha).2, (mem_slotOf.1 hb).2], e⟩

theorem eraseP_eq_filter {s : List Route} (h : s.Pairwise (fun a b => a.neigh ≠ b.neigh))
    (n : NeighId) : s.eraseP (fun r => r.neigh == n) = s.filter (fun r => !(r.neigh == n)) := by
  induction s with
  | nil => rfl
  | cons a as ih =>
    rw [List.pairwise_cons] at h
    by_cases e : a.neigh = n
    · have : as.filter (fun r => !(r.neigh == n)) = as := by
        rw [List.filter_eq_self]
        intro b hb
        have := h.1 b hb
        rw [e] at this
        simp; exact fun x => this x.symm
      simp [List.eraseP_cons, e, this]
    · have e' : (a.neigh == n) = false := by simp [e]
      simp [List.eraseP_cons, e', ih h.2]

theorem slotOf_remove (l : List Route) (k : PKey) (n : NeighId) :
    slotOf (flatRemove l k n) k = (slotOf l k).filter (fun r => !(r.neigh == n)) := by
  unfold slotOf flatRemove
  rw [List.filter_filter, List.filter_filter]
  apply List.filter_congr
  intro r _
  cases h1 : (r.key == k) <;> cases h2 : (r.neigh == n) <;> simp

theorem slotOf_remove_ne (l : List Route) (k k' : PKey) (n : NeighId) (h : k' ≠ k) :
    slotOf (flatRemove l k n) k' = slotOf l k' := by
  unfold slotOf flatRemove
  rw [List.filter_filter]
  apply List.filter_congr
  intro r _
  by_cases e : r.key = k'
  · have : ¬ r.key = k := by rw [e]; exact h
    simp [e, h]
  · simp [e]

theorem onePerNeigh_remove {l : List Route} (h : OnePerNeigh l) (k : PKey) (n : NeighId) :
    OnePerNeigh (flatRemove l k n) := h.sublist List.filter_sublist

theorem refines_insert {t l} (h : Refines t l) {r : Route} (hc : Canonical r.key)
    (hnew : flatFind l r.key r.neigh = none) : Refines (rtInsert t r) (flatInsert l r) := by
  have hu : OnePerNeigh (flatInsert l r) := by
    unfold OnePerNeigh flatInsert
    rw [List.pairwise_append]
    refine ⟨h.uniq, List.pairwise_singleton _ _, ?_⟩
    intro a ha b hb hab
    rw [List.mem_singleton] at hb
    subst hb
    have := List.find?_eq_none.1 hnew a ha
    simp at this
    exact this hab.1 hab.2
  unfold rtInsert
  rcases slot_cases h hc with ⟨i, hi, hf, hk, hsl⟩ | ⟨n, hf, hn, hsl⟩
  · simp only [hf]
    rw [modify_eq_set t i hi]
    have hne := h.nonempty _ (List.getElem_mem hi)
    refine refines_set h hi (by simp) (headKey_append _ hne _) ?_ ?_ hu
    · rw [hk, flatInsert, slotOf_append, hsl]
      simp [slotOf]
    · intro k hk'
      rw [flatInsert, slotOf_append]
      have : slotOf [r] k = [] := by
        simp [slotOf]; rw [hk] at hk'; exact fun e => hk' e.symm
      rw [this, List.append_nil]
  · simp only [hf]
    obtain ⟨hlen, h2, h3⟩ := findSlot_missing routeCompare_pre h.sorted hf
    have hsort : Sorted routeCompare headKey (insertAt t n [r]) :=
      insertAt_sorted routeCompare_pre h.sorted (e := [r]) h2 h3
    refine ⟨hsort, ?_, ?_, ?_, ?_, hu⟩
    · intro s hs
      rcases mem_insertAt.1 hs with rfl | hs
      · simp
      · exact h.nonempty s hs
    · intro s hs
      rcases mem_insertAt.1 hs with rfl | hs
      · exact hc
      · exact h.canon s hs
    · intro s hs
      rw [flatInsert, slotOf_append]
      rcases mem_insertAt.1 hs with rfl | hs
      · show slotOf l r.key ++ slotOf [r] r.key = [r]
        rw [hsl]; simp [slotOf]
      · rw [h.slots s hs]
        have : slotOf [r] (headKey s) = [] := by
          simp [slotOf]; exact fun e => hn s hs e.symm
        rw [this, List.append_nil]
    · intro x hx
      rw [flatInsert, List.mem_append, List.mem_singleton] at hx
      rcases hx with hx | rfl
      · obtain ⟨s, hs, hk⟩ := h.cover x hx
        exact ⟨s, mem_insertAt.2 (Or.inr hs), hk⟩
      · exact ⟨[x], mem_insertAt.2 (Or.inl rfl), rfl⟩

theorem headKey_of_forall {s : List Route} {k : PKey} (hne : s ≠ []) (h : ∀ r ∈ s, r.key = k) :
    headKey s = k := by
  cases s with
  | nil => exact absurd rfl hne
  | cons a as => exact h a (List.mem_cons_self ..)

theorem getElem!_slot (t : RTable) (i : Nat) (hi : i < t.length) : t[i]! = t[i] := by simp [hi]

theorem refines_remove {t l} (h : Refines t l) {k : PKey} (hc : Canonical k) (n : NeighId) :
    Refines (rtRemove t k n) (flatRemove l k n) := by
  have hu := onePerNeigh_remove h.uniq k n
  unfold rtRemove
  rcases slot_cases h hc with ⟨i, hi, hf, hk, hsl⟩ | ⟨m, hf, hn, hsl⟩
  · simp only [hf, getElem!_slot t i hi]
    have he : t[i].eraseP (fun r => r.neigh == n) = slotOf (flatRemove l k n) k := by
      rw [slotOf_remove, hsl, ← eraseP_eq_filter]
      rw [← hsl]; exact onePerNeigh_slot h.uniq k
    rw [he]
    by_cases hem : slotOf (flatRemove l k n) k = []
    · rw [hem]
      simp only [List.isEmpty_nil, if_true]
      have hm : ∀ s, s ∈ removeAt t i ↔ s ∈ t ∧ s ≠ t[i] := fun s =>
        mem_removeAt routeCompare_pre h.sorted hi
      refine ⟨h.sorted.sublist (removeAt_sublist t i), ?_, ?_, ?_, ?_, hu⟩
      · intro s hs; exact h.nonempty s ((hm s).1 hs).1
      · intro s hs; exact h.canon s ((hm s).1 hs).1
      · intro s hs
        obtain ⟨h1, h2⟩ := (hm s).1 hs
        rw [slotOf_remove_ne]
        · exact h.slots s h1
        · intro e
          apply h2
          rw [← hk] at e
          exact sorted_key_inj routeCompare_pre h.sorted h1 (List.getElem_mem hi)
            (by rw [e]; exact routeCompare_refl _)
      · intro r hr
        have hr' : r ∈ l := (List.mem_filter.1 hr).1
        obtain ⟨s, hs, hsk⟩ := h.cover r hr'
        refine ⟨s, (hm s).2 ⟨hs, ?_⟩, hsk⟩
        rintro rfl
        have : r ∈ slotOf (flatRemove l k n) k := mem_slotOf.2 ⟨hr, by rw [← hsk, hk]⟩
        rw [hem] at this; cases this
    · have hemp : (slotOf (flatRemove l k n) k).isEmpty = false := by
        cases hx : slotOf (flatRemove l k n) k with
        | nil => exact absurd hx hem
        | cons a b => rfl
      rw [hemp]
      simp only [Bool.false_eq_true, if_false]
      refine refines_set h hi hem ?_ (by rw [hk]) ?_ hu
      · rw [hk]; exact headKey_of_forall hem (fun r hr => (mem_slotOf.1 hr).2)
      · intro k' hk'
        rw [hk] at hk'
        exact slotOf_remove_ne l k k' n hk'
  · simp only [hf]
    have : flatRemove l k n = l := by
      rw [flatRemove, List.filter_eq_self]
      intro r hr
      have : ¬ r.key = k := by
        intro e
        have : r ∈ slotOf l k := mem_slotOf.2 ⟨hr, e⟩
        rw [hsl] at this; cases this
      simp [this]
    rw [this]; exact h

theorem find_slotOf (l : List Route) (k : PKey) (n : NeighId) :
    (slotOf l k).find? (fun r => r.neigh == n) = flatFind l k n := by
  unfold slotOf flatFind
  rw [List.find?_filter]
  congr 1; funext a; rw [Bool.eq_iff_iff]; simp

theorem refines_find {t l} (h : Refines t l) {k : PKey} (hc : Canonical k) (n : NeighId) :
    rtFindRoute t k n = flatFind l k n := by
  unfold rtFindRoute
  rw [← find_slotOf]
  rcases slot_cases h hc with ⟨i, hi, hf, hk, hsl⟩ | ⟨m, hf, hn, hsl⟩
  · simp only [hf, getElem!_slot t i hi]; rw [hsl]
  · simp only [hf]; rw [hsl]; rfl

theorem refines_findInstalled {t l} (h : Refines t l) {k : PKey} (hc : Canonical k) :
    rtFindInstalled t k =
      (slotOf l k).head?.bind (fun r => if r.installed then some r else none) := by
  unfold rtFindInstalled
  rcases slot_cases h hc with ⟨i, hi, hf, hk, hsl⟩ | ⟨m, hf, hn, hsl⟩
  · simp only [hf, getElem!_slot t i hi]; rw [hsl]
    have hne := h.nonempty _ (List.getElem_mem hi)
    cases hx : t[i] with
    | nil => exact absurd hx hne
    | cons a as => simp
  · simp only [hf]; rw [hsl]; rfl

theorem refines_move {t l} (h : Refines t l) {k : PKey} (hc : Canonical k) (n : NeighId) :
    Refines (rtMove t k n) (flatMove l k n) := by
  unfold rtMove flatMove
  rw [← find_slotOf]
  rcases slot_cases h hc with ⟨i, hi, hf, hk, hsl⟩ | ⟨m, hf, hn, hsl⟩
  · simp only [hf]
    rw [modify_eq_set t i hi, hsl]
    unfold moveToHead
    cases hfi : t[i].find? (fun r => r.neigh == n) with
    | none => simp only; rw [List.set_getElem_self]; exact h
    | some r =>
      simp only
      have hr := List.find?_some hfi
      simp at hr
      have hrm : r ∈ t[i] := List.mem_of_find?_eq_some hfi
      have hrk : r.key = k := by rw [← hk]; exact h.key_of_mem (List.getElem_mem hi) hrm
      have he : t[i].eraseP (fun r => r.neigh == n) = slotOf (flatRemove l k n) k := by
        rw [slotOf_remove, hsl, ← eraseP_eq_filter]
        rw [← hsl]; exact onePerNeigh_slot h.uniq k
      rw [he]
      refine refines_set h hi (by simp) (by rw [hk]; exact hrk) ?_ ?_ ?_
      · rw [hk]; simp [slotOf, hrk]
      · intro k' hk'
        rw [hk] at hk'
        have : slotOf (r :: flatRemove l k n) k' = slotOf (flatRemove l k n) k' := by
          unfold slotOf
          rw [List.filter_cons_of_neg]
          simp [hrk]; exact fun e => hk' e.symm
        rw [this]; exact slotOf_remove_ne l k k' n hk'
      · unfold OnePerNeigh
        rw [List.pairwise_cons]
        refine ⟨?_, onePerNeigh_remove h.uniq k n⟩
        rintro a ha ⟨e1, e2⟩
        have := (List.mem_filter.1 ha).2
        rw [hrk] at e1; rw [hr] at e2
        simp [← e1, ← e2] at this
  · simp only [hf]; rw [hsl]; exact h

theorem slotOf_modify (l : List Route) (k k' : PKey) (n : NeighId) (f : Route → Route)
    (hf : ∀ r, (f r).key = r.key) :
    slotOf (flatModify l k n f) k' = (slotOf l k').map
      (fun r => if r.key == k && r.neigh == n then f r else r) := by
  unfold slotOf flatModify
  induction l with
  | nil => rfl
  | cons a as ih =>
    rw [List.map_cons]
    have hk : (if (a.key == k && a.neigh == n) = true then f a else a).key = a.key := by
      split
      · exact hf a
      · rfl
    by_cases e : a.key = k'
    · rw [List.filter_cons_of_pos (by rw [hk]; simp [e]), List.filter_cons_of_pos (by simp [e]),
        List.map_cons, ih]
    · rw [List.filter_cons_of_neg (by rw [hk]; simp [e]), List.filter_cons_of_neg (by simp [e]), ih]

theorem refines_modify {t l} (h : Refines t l) {k : PKey} (hc : Canonical k) (n : NeighId)
    (f : Route → Route) (hfk : ∀ r, (f r).key = r.key) (hfn : ∀ r, (f r).neigh = r.neigh) :
    Refines (rtModify t k n f) (flatModify l k n f) := by
  have hu : OnePerNeigh (flatModify l k n f) := by
    unfold OnePerNeigh flatModify
    rw [List.pairwise_map]
    refine h.uniq.imp ?_
    intro a b hab
    have ha : (if (a.key == k && a.neigh == n) = true then f a else a).key = a.key ∧
      (if (a.key == k && a.neigh == n) = true then f a else a).neigh = a.neigh := by
      split
      · exact ⟨hfk a, hfn a⟩
      · exact ⟨rfl, rfl⟩
    have hb : (if (b.key == k && b.neigh == n) = true then f b else b).key = b.key ∧
      (if (b.key == k && b.neigh == n) = true then f b else b).neigh = b.neigh := by
      split
      · exact ⟨hfk b, hfn b⟩
      · exact ⟨rfl, rfl⟩
    rw [ha.1, ha.2, hb.1, hb.2]; exact hab
  unfold rtModify
  rcases slot_cases h hc with ⟨i, hi, hf, hk, hsl⟩ | ⟨m, hf, hn, hsl⟩
  · simp only [hf]
    rw [modify_eq_set t i hi]
    have hne := h.nonempty _ (List.getElem_mem hi)
    have hmap : slotOf (flatModify l k n f) k =
        t[i].map (fun r => if r.neigh == n then f r else r) := by
      rw [slotOf_modify l k k n f hfk, hsl]
      apply List.map_congr_left
      intro r hr
      have : r.key = k := by rw [← hk]; exact h.key_of_mem (List.getElem_mem hi) hr
      simp [this]
    refine refines_set h hi (by simp [hne]) ?_ (by rw [hk]; exact hmap) ?_ hu
    · rw [hk, ← hmap]
      refine headKey_of_forall ?_ (fun r hr => (mem_slotOf.1 hr).2)
      rw [hmap]; simp [hne]
    · intro k' hk'
      rw [hk] at hk'
      rw [slotOf_modify l k k' n f hfk]
      conv => rhs; rw [← List.map_id (slotOf l k')]
      apply List.map_congr_left
      intro r hr
      have : ¬ r.key = k := by rw [(mem_slotOf.1 hr).2]; exact hk'
      simp [this]
  · simp only [hf]
    have : flatModify l k n f = l := by
      unfold flatModify
      conv => rhs; rw [← List.map_id l]
      apply List.map_congr_left
      intro r hr
      have : ¬ r.key = k := by
        intro e
        have : r ∈ slotOf l k := mem_slotOf.2 ⟨hr, e⟩
        rw [hsl] at this; cases this
      simp [this]
    rw [this]; exact h

end Babel
