import Verif.Lemmas.Keep
/-
Removing routes: exactly the intended routes disappear.
-/
set_option linter.unusedSimpArgs false
set_option linter.unusedVariables false
set_option linter.unusedSectionVars false
namespace Babel
open Spec

abbrev Ident := PKey × NeighId × Bytes × Bytes × Int × Nat

abbrev ids (s : St) : List Ident := s.routes.map Route.ident

theorem map_filter_ident (l : List Route) (P : Ident → Bool) :
    (l.filter (fun r => P r.ident)).map Route.ident = (l.map Route.ident).filter P := by
  rw [List.filter_map]; rfl

theorem flushRoute_ids (c : Cfg) (s : St) (ex : List SKey) (hi : Inv c s ex) (k : PKey) (n : NeighId) :
    (ids (flushRoute c s k n)).Perm ((ids s).filter (fun i => !(i.1 == k && i.2.1 == n))) ∧
    Inv c (flushRoute c s k n) ex := by
  refine ⟨?_, (flushRoute_ms c { drop := True } s ex k n trivial).inv hi⟩
  unfold flushRoute
  cases hr : findRoute s k n with
  | none =>
    simp only
    have : (ids s).filter (fun i => !(i.1 == k && i.2.1 == n)) = ids s := by
      rw [List.filter_eq_self]
      intro i h
      obtain ⟨r, h1, rfl⟩ := List.mem_map.1 h
      have := flatFind_none.1 hr r h1
      simp only [Route.ident]
      grind
    rw [this]
  | some r =>
    simp only
    have key : ∃ s1, (if r.installed = true then uninstallRoute c s k n else s) = s1 ∧
        Ms c { drop := True } s ex s1 ex ∧ ids s1 = ids s ∧
        ∃ r', findRoute s1 k n = some r' ∧ r'.skey = r.skey ∧ r'.installed = false := by
      refine ⟨_, rfl, ?_⟩
      split
      · refine ⟨.one (.uninstall k n), ident_uninstall .., ?_⟩
        obtain ⟨r', h1, h2, h3, -⟩ := uninstall_find c s k n hr
        exact ⟨r', h1, h2, h3⟩
      · next h => exact ⟨.refl .., rfl, r, hr, rfl, by simpa using h⟩
    obtain ⟨s1, e1, hms, hid, r', hr', hsk, hi'⟩ := key
    rw [e1]
    have h2 := hms.step (.unlink hr' hi' trivial)
    have hi2 := h2.inv hi
    rw [hsk] at hi2
    have hid2 : ids (unlinkRoute (notifyRoute s1 .flush k n) k n) =
        (ids s).filter (fun i => !(i.1 == k && i.2.1 == n)) := by
      show (flatRemove (notifyRoute s1 .flush k n).routes k n).map Route.ident = _
      rw [notifyRoute_routes, ← hid]
      exact map_filter_ident s1.routes (fun i => !(i.1 == k && i.2.1 == n))
    rw [← hid2]
    generalize unlinkRoute (notifyRoute s1 .flush k n) k n = s2 at hi2
    split
    · exact (routeLost_ms c {} s2 _ r.skey (routeMetric r)).ids (fun _ _ _ _ _ h => h) (fun h => h) hi2
    · exact .refl _

theorem slot_find_none {l : List Route} {k : PKey} {p : Route → Bool}
    (h : (slotOf l k).find? p = none) : ∀ r ∈ l, r.key = k → p r = false := by
  intro r hr hk
  rw [List.find?_eq_none] at h
  have := h r (by unfold slotOf; simp [hr, hk])
  simpa using this

theorem flushSlot_ids (c : Cfg) (ex : List SKey) (k : PKey) (P : Ident → Bool) (fuel : Nat) (s : St)
    (hi : Inv c s ex) (hf : (ids s).countP (fun i => i.1 == k && P i) ≤ fuel) :
    (ids (flushSlot c (fun r => P r.ident) k fuel s)).Perm
      ((ids s).filter (fun i => !(i.1 == k && P i))) ∧
    Inv c (flushSlot c (fun r => P r.ident) k fuel s) ex := by
  induction fuel generalizing s with
  | zero =>
    refine ⟨?_, hi⟩
    have : (ids s).filter (fun i => !(i.1 == k && P i)) = ids s := by
      rw [List.filter_eq_self]
      intro i h
      have := List.countP_eq_zero.1 (Nat.le_zero.1 hf) i h
      grind
    rw [this]; exact .refl _
  | succ f ih =>
    simp only [flushSlot]
    cases e : (slotOf s.routes k).find? (fun r => P r.ident) with
    | none =>
      refine ⟨?_, hi⟩
      have : (ids s).filter (fun i => !(i.1 == k && P i)) = ids s := by
        rw [List.filter_eq_self]
        intro i h
        obtain ⟨r, h1, rfl⟩ := List.mem_map.1 h
        have := slot_find_none e r h1
        simp only [Route.ident] at this ⊢
        grind
      rw [this]
    | some r =>
      simp only
      have hp := List.find?_some e
      have hm := List.mem_of_find?_eq_some e
      unfold slotOf at hm
      rw [List.mem_filter] at hm
      have hk : r.key = k := by simpa using hm.2
      obtain ⟨h1, h2⟩ := flushRoute_ids c s ex hi k r.neigh
      have huniq : ∀ i ∈ ids s, i.1 = k → i.2.1 = r.neigh → i = r.ident := by
        intro i h e1 e2
        obtain ⟨x, hx, rfl⟩ := List.mem_map.1 h
        rw [onePerNeigh_unique hi.lst.one hx hm.1 (by rw [hk]; exact e1) e2]
      have hcount : (ids (flushRoute c s k r.neigh)).countP (fun i => i.1 == k && P i) ≤ f := by
        rw [h1.countP_eq]
        have hlt : ((ids s).filter (fun i => !(i.1 == k && i.2.1 == r.neigh))).countP
            (fun i => i.1 == k && P i) < (ids s).countP (fun i => i.1 == k && P i) := by
          rw [List.countP_filter]
          have hin : r.ident ∈ ids s := List.mem_map_of_mem hm.1
          generalize ids s = L at hin
          induction L with
          | nil => simp at hin
          | cons a L ihL =>
            rw [List.countP_cons, List.countP_cons]
            have hle : ∀ M : List Ident, M.countP (fun i => (i.1 == k && P i) && !(i.1 == k && i.2.1 == r.neigh)) ≤
                M.countP (fun i => i.1 == k && P i) := by
              intro M
              exact List.countP_mono_left (fun i _ h => by simp only [Bool.and_eq_true] at h ⊢; exact h.1)
            rcases List.mem_cons.1 hin with h | h
            · subst h
              have := hle L
              have e1 : (r.ident.1 == k) = true := by simpa [Route.ident] using hk
              have e2 : (r.ident.2.1 == r.neigh) = true := by simp [Route.ident]
              rw [if_neg (by rw [e1, e2]; simp), if_pos (by rw [e1]; simpa using hp)]
              omega
            · have := ihL h
              split <;> split <;> first | omega | simp_all
        omega
      obtain ⟨h3, h4⟩ := ih _ h2 hcount
      refine ⟨h3.trans ?_, h4⟩
      refine (h1.filter _).trans ?_
      rw [List.filter_filter]
      have : (ids s).filter (fun i => (!(i.1 == k && P i)) && !(i.1 == k && i.2.1 == r.neigh)) =
          (ids s).filter (fun i => !(i.1 == k && P i)) := by
        apply List.filter_congr
        intro i h
        by_cases hc : i.1 = k ∧ i.2.1 = r.neigh
        · have := huniq i h hc.1 hc.2
          subst this
          have e1 : (r.ident.1 == k) = true := by simpa [Route.ident] using hk
          rw [e1]
          simp [hp]
        · have : (i.1 == k && i.2.1 == r.neigh) = false := by
            rw [Bool.eq_false_iff]; simpa using hc
          rw [this]; simp
      rw [this]

theorem insertBy_perm {α} (cmp : α → α → Ordering) (x : α) (l : List α) :
    (insertBy cmp x l).Perm (x :: l) := by
  induction l with
  | nil => exact .refl _
  | cons y l ih =>
    simp only [insertBy]
    split
    · exact (ih.cons y).trans (.swap ..)
    · exact .refl _

theorem sortBy_perm {α} (cmp : α → α → Ordering) (l : List α) : (sortBy cmp l).Perm l := by
  unfold sortBy
  induction l with
  | nil => exact .refl _
  | cons y l ih =>
    rw [List.foldr_cons]
    exact (insertBy_perm ..).trans (ih.cons y)

theorem mem_sortBy {α} (cmp : α → α → Ordering) (l : List α) (x : α) : x ∈ sortBy cmp l ↔ x ∈ l :=
  (sortBy_perm cmp l).mem_iff

theorem mem_slotKeys (s : St) (k : PKey) : k ∈ slotKeys s ↔ ∃ r ∈ s.routes, r.key = k := by
  unfold slotKeys
  rw [mem_sortBy, List.mem_eraseDups, List.mem_map]

theorem count_slot (s : St) (k : PKey) (P : Ident → Bool) :
    (ids s).countP (fun i => i.1 == k && P i) ≤ (slotOf s.routes k).length := by
  unfold ids slotOf
  rw [List.countP_map, ← List.countP_eq_length_filter]
  apply List.countP_mono_left
  intro r _ h
  simp only [Function.comp, Route.ident, Bool.and_eq_true] at h
  exact h.1

theorem flushFold_ids (c : Cfg) (ex : List SKey) (P : Ident → Bool) (L : List PKey) (s : St)
    (hi : Inv c s ex) :
    (ids (L.foldl (fun s k => flushSlot c (fun r => P r.ident) k (slotOf s.routes k).length s) s)).Perm
      ((ids s).filter (fun i => !(L.contains i.1 && P i))) ∧
    Inv c (L.foldl (fun s k => flushSlot c (fun r => P r.ident) k (slotOf s.routes k).length s) s) ex := by
  induction L generalizing s with
  | nil =>
    refine ⟨?_, hi⟩
    show (ids s).Perm ((ids s).filter (fun i => true))
    rw [List.filter_eq_self.2 (fun _ _ => rfl)]
  | cons k L ih =>
    rw [List.foldl_cons]
    obtain ⟨h1, h2⟩ := flushSlot_ids c ex k P _ s hi (count_slot s k P)
    obtain ⟨h3, h4⟩ := ih _ h2
    refine ⟨h3.trans ((h1.filter _).trans ?_), h4⟩
    rw [List.filter_filter]
    apply List.Perm.of_eq
    apply List.filter_congr
    intro i _
    simp only [List.contains_cons]
    cases (i.1 == k) <;> cases P i <;> cases L.contains i.1 <;> rfl

theorem flushWhere_ids (c : Cfg) (ex : List SKey) (P : Ident → Bool) (s : St) (hi : Inv c s ex) :
    (ids (flushWhere c (fun r => P r.ident) s)).Perm ((ids s).filter (fun i => !P i)) := by
  unfold flushWhere
  refine (flushFold_ids c ex P (slotKeys s) s hi).1.trans (List.Perm.of_eq ?_)
  apply List.filter_congr
  intro i h
  obtain ⟨r, h1, rfl⟩ := List.mem_map.1 h
  have : (slotKeys s).contains r.key = true := by
    rw [List.contains_iff_mem, mem_slotKeys]; exact ⟨r, h1, rfl⟩
  show (!((slotKeys s).contains r.key && P r.ident)) = _
  rw [this]; simp

theorem flushAllSlot_ids (c : Cfg) (ex : List SKey) (k : PKey) (fuel : Nat) (s : St)
    (hi : Inv c s ex) (hf : (ids s).countP (fun i => i.1 == k) ≤ fuel) :
    (ids (flushAllSlot c k fuel s)).Perm ((ids s).filter (fun i => !(i.1 == k))) ∧
    Inv c (flushAllSlot c k fuel s) ex := by
  induction fuel generalizing s with
  | zero =>
    refine ⟨?_, hi⟩
    have : (ids s).filter (fun i => !(i.1 == k)) = ids s := by
      rw [List.filter_eq_self]
      intro i h
      have := List.countP_eq_zero.1 (Nat.le_zero.1 hf) i h
      simpa using this
    rw [this]; exact .refl _
  | succ f ih =>
    simp only [flushAllSlot]
    cases e : (slotOf s.routes k).head? with
    | none =>
      refine ⟨?_, hi⟩
      have e : slotOf s.routes k = [] := by simpa using e
      have : (ids s).filter (fun i => !(i.1 == k)) = ids s := by
        rw [List.filter_eq_self]
        intro i h
        obtain ⟨r, h1, rfl⟩ := List.mem_map.1 h
        unfold slotOf at e
        have := List.filter_eq_nil_iff.1 e r h1
        simp only [Route.ident]
        simpa using this
      rw [this]
    | some r =>
      simp only
      have hm : r ∈ slotOf s.routes k := List.mem_of_mem_head? e
      unfold slotOf at hm
      rw [List.mem_filter] at hm
      have hk : r.key = k := by simpa using hm.2
      have hu := (Ms.one (c := c) (A := {}) (e1 := ex) (s := s) (.uninstall k r.neigh)).inv hi
      have hid : ids (uninstallRoute c s k r.neigh) = ids s := ident_uninstall ..
      obtain ⟨h1, h2⟩ := flushRoute_ids c _ ex hu k r.neigh
      rw [hid] at h1
      have hcount : (ids (flushRoute c (uninstallRoute c s k r.neigh) k r.neigh)).countP (fun i => i.1 == k) ≤ f := by
        rw [h1.countP_eq, List.countP_filter]
        have hlt : (ids s).countP (fun i => i.1 == k && !(i.1 == k && i.2.1 == r.neigh)) <
            (ids s).countP (fun i => i.1 == k) := by
          have hin : r.ident ∈ ids s := List.mem_map_of_mem hm.1
          generalize ids s = L at hin
          induction L with
          | nil => simp at hin
          | cons a L ihL =>
            rw [List.countP_cons, List.countP_cons]
            have hle : L.countP (fun i => i.1 == k && !(i.1 == k && i.2.1 == r.neigh)) ≤
                L.countP (fun i => i.1 == k) :=
              List.countP_mono_left (fun i _ h => by simp only [Bool.and_eq_true] at h ⊢; exact h.1)
            rcases List.mem_cons.1 hin with h | h
            · subst h
              have e1 : (r.ident.1 == k) = true := by simpa [Route.ident] using hk
              have e2 : (r.ident.2.1 == r.neigh) = true := by simp [Route.ident]
              rw [if_neg (by rw [e1, e2]; simp), if_pos e1]
              omega
            · have := ihL h
              split <;> split <;> first | omega | simp_all
        omega
      obtain ⟨h3, h4⟩ := ih _ h2 hcount
      refine ⟨h3.trans ((h1.filter _).trans (.of_eq ?_)), h4⟩
      rw [List.filter_filter]
      apply List.filter_congr
      intro i h
      cases (i.1 == k) <;> simp

theorem flushAll_ids (c : Cfg) (ex : List SKey) (s : St) (hi : Inv c s ex) :
    (flushAllRoutes c s).routes = [] := by
  have key : ∀ (L : List PKey) (s : St), Inv c s ex →
      (ids (L.foldl (fun s k => flushAllSlot c k (slotOf s.routes k).length s) s)).Perm
        ((ids s).filter (fun i => !(L.contains i.1))) := by
    intro L
    induction L with
    | nil =>
      intro s hi
      show (ids s).Perm ((ids s).filter (fun i => true))
      rw [List.filter_eq_self.2 (fun _ _ => rfl)]
    | cons k L ih =>
      intro s hi
      rw [List.foldl_cons]
      have hc := count_slot s k (fun _ => true)
      simp only [Bool.and_true] at hc
      obtain ⟨h1, h2⟩ := flushAllSlot_ids c ex k _ s hi hc
      refine (ih _ h2).trans ((h1.filter _).trans (.of_eq ?_))
      rw [List.filter_filter]
      apply List.filter_congr
      intro i _
      simp only [List.contains_cons]
      cases (i.1 == k) <;> cases L.contains i.1 <;> rfl
  have := key (slotKeys s).reverse s hi
  have e : (ids s).filter (fun i => !((slotKeys s).reverse.contains i.1)) = [] := by
    rw [List.filter_eq_nil_iff]
    intro i h
    obtain ⟨r, h1, rfl⟩ := List.mem_map.1 h
    have : (slotKeys s).reverse.contains r.key = true := by
      rw [List.contains_iff_mem, List.mem_reverse, mem_slotKeys]; exact ⟨r, h1, rfl⟩
    show ¬ (!((slotKeys s).reverse.contains r.key)) = true
    rw [this]; simp
  rw [e] at this
  have := this.eq_nil
  unfold flushAllRoutes
  simpa using this

end Babel
