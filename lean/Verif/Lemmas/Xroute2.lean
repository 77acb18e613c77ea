import Verif.Lemmas.Only
/-
Redistributed routes: what is announced during a synchronisation with the kernel.
-/
set_option linter.unusedSimpArgs false
set_option linter.unusedVariables false
set_option linter.unusedSectionVars false
namespace Babel
open Spec

/-- Changes to the redistributed routes are allowed. -/
def xrAllow : Allow := { xr := True }

variable {c : Cfg}

theorem exported_eq (s : St) (k : PKey) : exported s k = findXroute s k := rfl

/-! ### Withdrawals -/

theorem flushXroute_told (s : St) (x : Xroute) :
    flushXroute c s x true = sendUpdate c (flushXroute c s x false) false (flushXrouteKey s x) ∨
    flushXroute c s x true = sendUpdateResend c (flushXroute c s x false) (flushXrouteKey s x) := by
  unfold flushXroute
  simp only [if_true, Bool.false_eq_true, if_false]
  split
  · split
    · exact .inl rfl
    · exact .inr rfl
  · exact .inr rfl

/-- The part of a withdrawal that changes tables. -/
theorem flushXroute_only (s : St) (x : Xroute) :
    ∃ t, Only x.key s t ∧ Only (flushXrouteKey s x) t (flushXroute c s x false) := by
  refine ⟨{ emit s (.notifyXroute .flush x) with
    xroutes := (emit s (.notifyXroute .flush x)).xroutes.filter (fun y => !(y.key == x.key)) }, ?_, ?_⟩
  · refine ⟨?_, rfl, fun _ _ => rfl, ?_⟩
    · exact (hard_silent s (.notifyXroute .flush x) rfl).trans (hard_xroutes ..)
    · intro k' e
      exact find_filter_key e
  · unfold flushXroute
    simp only [Bool.false_eq_true, if_false]
    generalize hb : findBest c _ (flushXrouteKey s x) true none = p
    obtain ⟨b, s3⟩ := p
    have h := only_findBest (k := flushXrouteKey s x) hb
    split
    · split
      · exact h.trans (only_install ..)
      · exact h
    · exact h

theorem exported_flush (s : St) (x : Xroute) (b : Bool) (k : PKey) :
    exported (flushXroute c s x b) k = if k = x.key then none else exported s k := by
  unfold exported
  rw [xr_flush]
  split
  · next e =>
    subst e
    rw [List.find?_eq_none]
    intro y hy
    have := (List.mem_filter.1 hy).2
    simpa using this
  · next e => exact find_filter_key e

theorem flush_told {s : St} (hi : Inv c s []) {x : Xroute} (hx : x ∈ s.xroutes) :
    (∀ i, UpToDate c (flushXroute c s x true) i (flushXrouteKey s x)) ∧
    (∀ i k, k ≠ flushXrouteKey s x → k ≠ x.key → UpToDate c s i k → UpToDate c (flushXroute c s x true) i k) := by
  have hl := ((flushXroute_ms c xrAllow [] s x false hx trivial).inv hi).lst
  obtain ⟨t, h1, h2⟩ := flushXroute_only (c := c) s x
  rcases flushXroute_told (c := c) s x with e | e
  · rw [e]
    obtain ⟨g1, g2⟩ := quiet_sendUpdate hl false (flushXrouteKey s x)
    exact ⟨g2, fun i k e1 e2 hu => g1.upToDate (h2.upToDate e1 (h1.upToDate e2 hu))⟩
  · rw [e]
    obtain ⟨g1, g2⟩ := quiet_sendUpdateResend hl (flushXrouteKey s x)
    exact ⟨g2, fun i k e1 e2 hu => g1.upToDate (h2.upToDate e1 (h1.upToDate e2 hu))⟩

/-! ### Changes -/

theorem exported_modify {s : St} (hx : XInv s.xroutes) {x : Xroute} (hm : x ∈ s.xroutes) (kr : KRoute) (b : Bool) (k : PKey) :
    exported (modifyXroute c s x kr b) k =
      if k = x.key then some { x with metric := kr.metric, proto := kr.proto } else exported s k := by
  unfold exported
  rw [xr_modify hx hm]
  split
  · next e =>
    subst e
    unfold xModify
    clear hx
    generalize s.xroutes = l at hm ⊢
    induction l with
    | nil => cases hm
    | cons a l ih =>
      rw [List.map_cons, List.find?_cons]
      by_cases ea : a.key = x.key
      · simp [ea]
      · have hm' : x ∈ l := by
          rcases List.mem_cons.1 hm with rfl | h
          · exact absurd rfl ea
          · exact h
        have hb : (a.key == x.key) = false := by simpa using ea
        simp only [hb, Bool.false_eq_true, if_false]
        exact ih hm'
  · next e => exact find_xModify e

theorem modify_told {s : St} (hi : Inv c s []) {x : Xroute} (hx : x ∈ s.xroutes) {kr : KRoute} (hm : kr.metric < INFINITY) :
    ((x.metric = kr.metric ∧ x.proto = kr.proto ∧ modifyXroute c s x kr true = s) ∨
      ∀ i, UpToDate c (modifyXroute c s x kr true) i x.key) ∧
    (∀ i k, k ≠ x.key → UpToDate c s i k → UpToDate c (modifyXroute c s x kr true) i k) := by
  by_cases hc : x.metric ≠ kr.metric ∨ x.proto ≠ kr.proto
  · have e : modifyXroute c s x kr true = sendUpdate c (modifyXroute c s x kr false) false x.key := by
      unfold modifyXroute; rw [if_pos hc, if_pos hc]; rfl
    have hl := ((modifyXroute_ms c xrAllow [] s x kr false hx hm trivial).inv hi).lst
    have ho : Only x.key s (modifyXroute c s x kr false) := by
      unfold modifyXroute
      rw [if_pos hc]
      refine ⟨(hard_xroutes ..).trans (hard_silent _ _ rfl), rfl, fun _ _ => rfl, ?_⟩
      intro k' e
      exact find_xModify e
    obtain ⟨g1, g2⟩ := quiet_sendUpdate hl false x.key
    rw [e]
    exact ⟨.inr g2, fun i k e1 hu => g1.upToDate (ho.upToDate e1 hu)⟩
  · have e : modifyXroute c s x kr true = s := by unfold modifyXroute; rw [if_neg hc]
    rw [e]
    refine ⟨.inl ⟨?_, ?_, rfl⟩, fun _ _ _ h => h⟩
    · exact Classical.byContradiction fun h => hc (.inl h)
    · exact Classical.byContradiction fun h => hc (.inr h)

/-! ### Additions -/

theorem exported_add {s : St} {kr : KRoute} (h : findXroute s kr.key = none) (b : Bool) (k : PKey) :
    exported (addAndAnnounce c s kr b).1 k = if k = kr.key then some kr.entry else exported s k := by
  rcases xr_add c s kr b with ⟨-, -, e⟩ | ⟨e, -⟩
  · unfold exported
    rw [e]
    split
    · next ek =>
      subst ek
      unfold findXroute at h
      generalize s.xroutes = l at h ⊢
      clear e
      induction l with
      | nil => simp [xInsert, KRoute.entry]
      | cons a l ih =>
        rw [List.find?_cons] at h
        split at h
        · cases h
        · next ha =>
          unfold xInsert
          split
          · rw [List.find?_cons, ha]; exact ih h
          · simp [KRoute.entry]
    · next ek => exact find_xInsert ek
  · rw [h] at e; cases e

theorem add_told {s : St} (hi : Inv c s []) {kr : KRoute} (hm : kr.metric < INFINITY)
    (hk : martianPrefix kr.key.prefix_ kr.key.plen = false) :
    ((findXroute s kr.key).isSome ∧ (addAndAnnounce c s kr true) = (s, false) ∨
      findXroute s kr.key = none ∧ ∀ i, UpToDate c (addAndAnnounce c s kr true).1 i kr.key) ∧
    (∀ i k, k ≠ kr.key → UpToDate c s i k → UpToDate c (addAndAnnounce c s kr true).1 i k) := by
  cases hx : findXroute s kr.key with
  | some x =>
    rcases xr_add c s kr true with ⟨h, -⟩ | ⟨h, e⟩
    · rw [hx] at h; cases h
    · rw [e]; exact ⟨.inl ⟨rfl, rfl⟩, fun _ _ _ h => h⟩
  | none =>
    have e2 : (addXroute s kr).2 = true := by unfold addXroute; rw [hx]
    have e : (addAndAnnounce c s kr true).1 = sendUpdate c (addAndAnnounce c s kr false).1 false kr.key := by
      unfold addAndAnnounce
      simp [e2]
    have hl := ((addAndAnnounce_ms c xrAllow [] s kr false hm hk trivial).inv hi).lst
    have ho : Only kr.key s (addAndAnnounce c s kr false).1 := by
      unfold addAndAnnounce
      simp only [e2, if_true, Bool.false_eq_true, if_false]
      exact (only_addXroute ..).trans (only_flushDuplicate ..)
    obtain ⟨g1, g2⟩ := quiet_sendUpdate hl false kr.key
    rw [e]
    exact ⟨.inr ⟨rfl, g2⟩, fun i k e1 hu => g1.upToDate (ho.upToDate e1 hu)⟩

/-! ### The whole synchronisation -/

/-- What is known about `k` before a step is enough to conclude that `k` is up to date in the end. -/
theorem merge_told (fuel : Nat) (krs : List KRoute) (j : Nat) {s : St} (hi : Inv c s []) {i : IfId} {k : PKey}
    (hk : (exported (mergeXroutes c true fuel krs j s) k).isSome ∧
        (UpToDate c s i k ∨ exported s k ≠ exported (mergeXroutes c true fuel krs j s) k) ∨
      exported s k = none ∧ UpToDate c s i k ∧
        ∀ kr ∈ krs, kr.key = k → INFINITY ≤ kr.metric ∨ martianPrefix k.prefix_ k.plen = true) :
    UpToDate c (mergeXroutes c true fuel krs j s) i k := by
  have base : ∀ (f : Nat) (krs : List KRoute) (j : Nat) (s : St), mergeXroutes c true f krs j s = s →
      ((exported (mergeXroutes c true f krs j s) k).isSome ∧
        (UpToDate c s i k ∨ exported s k ≠ exported (mergeXroutes c true f krs j s) k) ∨
      exported s k = none ∧ UpToDate c s i k ∧
        ∀ kr ∈ krs, kr.key = k → INFINITY ≤ kr.metric ∨ martianPrefix k.prefix_ k.plen = true) →
      UpToDate c (mergeXroutes c true f krs j s) i k := by
    intro f krs j s e h
    rw [e] at h ⊢
    rcases h with ⟨-, h | h⟩ | ⟨-, h, -⟩
    · exact h
    · exact absurd rfl h
    · exact h
  induction fuel generalizing krs j s with
  | zero => exact base _ _ _ _ (by unfold mergeXroutes; rfl) hk
  | succ fuel ih =>
    have hflush : ∀ x ∈ s.xroutes, ∀ krs', (∀ kr ∈ krs', kr ∈ krs) →
        mergeXroutes c true (fuel + 1) krs j s = mergeXroutes c true fuel krs' j (flushXroute c s x true) →
        UpToDate c (mergeXroutes c true (fuel + 1) krs j s) i k := by
      intro x hx krs' hsub e
      rw [e] at hk ⊢
      have hi' := (flushXroute_ms c xrAllow [] s x true hx trivial).inv hi
      obtain ⟨g1, g2⟩ := flush_told hi hx
      refine ih krs' j hi' ?_
      rw [exported_flush]
      rcases hk with ⟨h1, h2⟩ | ⟨h1, h2, h3⟩
      · left
        refine ⟨h1, ?_⟩
        by_cases ex : k = x.key
        · right
          rw [if_pos ex]
          intro e2
          rw [← e2] at h1
          cases h1
        · rw [if_neg ex]
          by_cases ef : k = flushXrouteKey s x
          · left; rw [ef]; exact g1 i
          · rcases h2 with h2 | h2
            · exact .inl (g2 i k ef ex h2)
            · exact .inr h2
      · right
        have ex : k ≠ x.key := by
          rintro rfl
          rw [exported_eq] at h1
          rw [(findXroute_iff hi.xr).2 ⟨hx, rfl⟩] at h1
          cases h1
        rw [if_neg ex]
        refine ⟨h1, ?_, fun kr hkr => h3 kr (hsub kr hkr)⟩
        by_cases ef : k = flushXrouteKey s x
        · rw [ef]; exact g1 i
        · exact g2 i k ef ex h2
    have hadd : ∀ kr rest, (∀ r ∈ kr :: rest, r ∈ krs) → kr.metric < INFINITY →
        mergeXroutes c true (fuel + 1) krs j s = mergeAdd c true (mergeXroutes c true fuel) kr rest j s →
        UpToDate c (mergeXroutes c true (fuel + 1) krs j s) i k := by
      intro kr rest hsub hm e
      rw [e] at hk ⊢
      unfold mergeAdd at hk ⊢
      by_cases hmar : martianPrefix kr.key.prefix_ kr.key.plen = true
      · simp only [hmar, Bool.not_true, Bool.false_eq_true, if_false] at hk ⊢
        refine ih rest j hi ?_
        rcases hk with h | ⟨h1, h2, h3⟩
        · exact .inl h
        · exact .inr ⟨h1, h2, fun r hr => h3 r (hsub r (by simp [hr]))⟩
      · have hmar' : martianPrefix kr.key.prefix_ kr.key.plen = false := by simpa using hmar
        simp only [hmar', Bool.not_false, if_true] at hk ⊢
        have hi' := (addAndAnnounce_ms c xrAllow [] s kr true hm hmar' trivial).inv hi
        obtain ⟨g1, g2⟩ := add_told hi hm hmar'
        refine ih rest _ hi' ?_
        rcases g1 with ⟨g1, e2⟩ | ⟨g1, g3⟩
        · rw [e2] at hk ⊢
          rcases hk with h | ⟨h1, h2, h3⟩
          · exact .inl h
          · exact .inr ⟨h1, h2, fun r hr => h3 r (hsub r (by simp [hr]))⟩
        · rcases hk with ⟨h1, h2⟩ | ⟨h1, h2, h3⟩
          · left
            refine ⟨h1, ?_⟩
            by_cases ek : k = kr.key
            · left; rw [ek]; exact g3 i
            · rw [exported_add g1, if_neg ek]
              rcases h2 with h2 | h2
              · exact .inl (g2 i k ek h2)
              · exact .inr h2
          · right
            have ek : k ≠ kr.key := by
              intro e
              rcases h3 kr (hsub kr (by simp)) e.symm with h | h
              · omega
              · rw [e, hmar'] at h; cases h
            rw [exported_add g1, if_neg ek]
            exact ⟨h1, g2 i k ek h2, fun r hr => h3 r (hsub r (by simp [hr]))⟩
    cases krs with
    | nil =>
      cases hx : s.xroutes[j]? with
      | none => exact base _ _ _ _ (by simp only [mergeXroutes, hx]) hk
      | some x =>
        exact hflush x (List.mem_of_getElem? hx) [] (by simp) (mergeXroutes.eq_3 _ _ _ _ _ _ hx)
    | cons kr rest =>
      by_cases hm : kr.metric ≥ INFINITY
      · have e : mergeXroutes c true (fuel + 1) (kr :: rest) j s = mergeXroutes c true fuel rest j s := by
          simp only [mergeXroutes]; rw [if_pos hm]
        rw [e] at hk ⊢
        refine ih rest j hi ?_
        rcases hk with h | ⟨h1, h2, h3⟩
        · exact .inl h
        · exact .inr ⟨h1, h2, fun r hr => h3 r (by simp [hr])⟩
      · have hm' : kr.metric < INFINITY := by omega
        cases hx : s.xroutes[j]? with
        | none =>
          exact hadd kr rest (fun _ h => h) hm' (by simp only [mergeXroutes]; rw [if_neg hm]; simp only [hx])
        | some x =>
          have hmem := List.mem_of_getElem? hx
          cases hc : xrouteCompare kr.key x.key with
          | lt =>
            exact hadd kr rest (fun _ h => h) hm' (by simp only [mergeXroutes]; rw [if_neg hm]; simp only [hx, hc])
          | gt =>
            exact hflush x hmem (kr :: rest) (fun _ h => h) (by
              conv => lhs; unfold mergeXroutes
              simp only [hx]; rw [if_neg hm]; simp only [hc])
          | eq =>
            have hkey : kr.key = x.key := (xrouteCompare_order.eq_iff _ _).1 hc
            have e : mergeXroutes c true (fuel + 1) (kr :: rest) j s =
                mergeXroutes c true fuel rest (j + 1) (modifyXroute c s x kr true) := by
              conv => lhs; unfold mergeXroutes
              simp only [hx]; rw [if_neg hm]; simp only [hc]
            rw [e] at hk ⊢
            have hi' := (modifyXroute_ms c xrAllow [] s x kr true hmem hm' trivial).inv hi
            obtain ⟨g1, g2⟩ := modify_told hi hmem hm'
            refine ih rest _ hi' ?_
            rcases hk with ⟨h1, h2⟩ | ⟨h1, h2, h3⟩
            · left
              refine ⟨h1, ?_⟩
              by_cases ek : k = x.key
              · rcases g1 with ⟨-, -, e2⟩ | g1
                · rw [e2] at h2 ⊢; exact h2
                · left; rw [ek]; exact g1 i
              · rw [exported_modify hi.xr hmem, if_neg ek]
                rcases h2 with h2 | h2
                · exact .inl (g2 i k ek h2)
                · exact .inr h2
            · right
              have ek : k ≠ x.key := by
                rintro rfl
                rw [exported_eq] at h1
                rw [(findXroute_iff hi.xr).2 ⟨hmem, rfl⟩] at h1
                cases h1
              rw [exported_modify hi.xr hmem, if_neg ek]
              exact ⟨h1, g2 i k ek h2, fun r hr => h3 r (by simp [hr])⟩

end Babel
