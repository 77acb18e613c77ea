import Verif.Lemmas.Queue
/-
Redistributed routes: the table after a synchronisation with the kernel.
-/
set_option linter.unusedSimpArgs false
set_option linter.unusedVariables false
set_option linter.unusedSectionVars false
namespace Babel
open Spec

theorem xr_install (c : Cfg) (s : St) (k : PKey) (n : NeighId) : (installRoute c s k n).xroutes = s.xroutes := by
  unfold installRoute
  split
  · rfl
  · split
    · rfl
    · next r _ _ =>
      have hw : (warnIfUnfeasible s r).xroutes = s.xroutes := by unfold warnIfUnfeasible; split <;> rfl
      simp only
      split
      · exact hw
      · have hk := (konly_changeAdd c (warnIfUnfeasible s r) r (metricToKernel c (routeMetric r))).xroutes
        split
        · rw [hk, hw]
        · rw [notifyRoute_xroutes]
          show (changeAdd c (warnIfUnfeasible s r) r (metricToKernel c (routeMetric r))).2.xroutes = _
          rw [hk, hw]

theorem xr_uninstall (c : Cfg) (s : St) (k : PKey) (n : NeighId) : (uninstallRoute c s k n).xroutes = s.xroutes := by
  unfold uninstallRoute
  split
  · rfl
  · split
    · rfl
    · next r _ _ =>
      simp only
      have hk := (konly_changeFlush c (modRoute s k n (fun r => { r with installed := false })) r
        (metricToKernel c (routeMetric r))).xroutes
      split
      · rw [notifyRoute_xroutes, hk]; rfl
      · rw [hk]; rfl

theorem xr_flush (c : Cfg) (s : St) (x : Xroute) (b : Bool) :
    (flushXroute c s x b).xroutes = s.xroutes.filter (fun y => !(y.key == x.key)) := by
  unfold flushXroute
  simp only
  have hb := (frame_findBest c { emit s (.notifyXroute .flush x) with
    xroutes := (emit s (.notifyXroute .flush x)).xroutes.filter (fun y => !(y.key == x.key)) } (flushXrouteKey s x) true none).xroutes
  generalize findBest c _ (flushXrouteKey s x) true none = p at hb ⊢
  have e : p.2.xroutes = s.xroutes.filter (fun y => !(y.key == x.key)) := hb
  split
  · split
    · split
      · rw [(qms_sendUpdate ..).same.xroutes, xr_install, e]
      · rw [xr_install, e]
    · split
      · rw [(qms_sendUpdateResend ..).same.xroutes, e]
      · exact e
  · split
    · rw [(qms_sendUpdateResend ..).same.xroutes, e]
    · exact e

/-- The table after `modify_xroute`. -/
def xModify (x : Xroute) (kr : KRoute) (l : List Xroute) : List Xroute :=
  l.map (fun y => if y.key == x.key then { x with metric := kr.metric, proto := kr.proto } else y)

theorem xr_modify {c : Cfg} {s : St} (hx : XInv s.xroutes) {x : Xroute} (hm : x ∈ s.xroutes) (kr : KRoute) (b : Bool) :
    (modifyXroute c s x kr b).xroutes = xModify x kr s.xroutes := by
  unfold modifyXroute
  split
  · simp only
    split
    · rw [(qms_sendUpdate ..).same.xroutes]; rfl
    · rfl
  · next h =>
    have hc : x.metric = kr.metric ∧ x.proto = kr.proto := by
      constructor
      · exact Classical.byContradiction fun e => h (.inl e)
      · exact Classical.byContradiction fun e => h (.inr e)
    unfold xModify
    conv => lhs; rw [← List.map_id s.xroutes]
    apply List.map_congr_left
    intro y hy
    simp only [id]
    split
    · next hk =>
      rw [hx.unique hy hm (by simpa using hk), ← hc.1, ← hc.2]
    · rfl

theorem xr_flushDuplicate (c : Cfg) (s : St) (kr : KRoute) : (flushDuplicateRoute c s kr).xroutes = s.xroutes := by
  unfold flushDuplicateRoute
  split
  · rfl
  · split
    · exact xr_uninstall ..
    · rfl

/-- The entry made from a kernel route. -/
def KRoute.entry (kr : KRoute) : Xroute := ⟨kr.key, kr.metric, kr.ifindex, kr.proto⟩

theorem xr_add (c : Cfg) (s : St) (kr : KRoute) (b : Bool) :
    (findXroute s kr.key = none ∧ (addAndAnnounce c s kr b).2 = true ∧
      (addAndAnnounce c s kr b).1.xroutes = xInsert kr.entry s.xroutes) ∨
    ((findXroute s kr.key).isSome ∧ addAndAnnounce c s kr b = (s, false)) := by
  unfold addAndAnnounce addXroute
  cases h : findXroute s kr.key with
  | some x => right; simp
  | none =>
    left
    refine ⟨rfl, ?_, ?_⟩
    · simp
    · simp only [if_true]
      split
      · rw [(qms_sendUpdate ..).same.xroutes, xr_flushDuplicate]; rfl
      · rw [xr_flushDuplicate]; rfl

/-! ### Sorted lists -/

theorem xcmp_lt_trans {a b d : PKey} (h : xrouteCompare a b ≠ .gt) (g : xrouteCompare b d = .lt) : xrouteCompare a d = .lt := by
  cases e : xrouteCompare a b with
  | gt => exact absurd e h
  | eq => rw [(xrouteCompare_order.eq_iff _ _).1 e]; exact g
  | lt => exact xrouteCompare_order.trans _ _ _ e g

theorem xcmp_ne {a b : PKey} (h : xrouteCompare a b = .lt) : a ≠ b := by
  rintro rfl
  rw [xrouteCompare_order.rfl' a] at h
  cases h

/-- Insertion behind the smaller entries. -/
theorem xInsert_at {x : Xroute} {l1 l2 : List Xroute} (h1 : ∀ y ∈ l1, xrouteCompare y.key x.key = .lt)
    (h2 : ∀ y, l2.head? = some y → xrouteCompare x.key y.key = .lt) : xInsert x (l1 ++ l2) = l1 ++ x :: l2 := by
  induction l1 with
  | nil =>
    cases l2 with
    | nil => rfl
    | cons y l =>
      have := h2 y rfl
      simp [xInsert, this]
  | cons y l1 ih =>
    have hy : xrouteCompare x.key y.key = .gt := (xrouteCompare_order.gt_iff _ _).2 (h1 y (by simp))
    simp only [List.cons_append, xInsert, hy]
    simp [ih (fun z hz => h1 z (by simp [hz]))]

/-- The entry that a kernel route leads to, given the entries that are there. -/
def Makes (l : List Xroute) (kr : KRoute) (x' : Xroute) : Prop :=
  (∃ x ∈ l, x.key = kr.key ∧ x' = { x with metric := kr.metric, proto := kr.proto }) ∨
  ((∀ x ∈ l, x.key ≠ kr.key) ∧ martianPrefix kr.key.prefix_ kr.key.plen = false ∧ x' = kr.entry)

theorem Makes.key {l : List Xroute} {kr : KRoute} {x' : Xroute} (h : Makes l kr x') : x'.key = kr.key := by
  rcases h with ⟨x, -, hk, rfl⟩ | ⟨-, -, rfl⟩
  · exact hk
  · rfl

/-- The first accepted kernel route with its key. -/
def First (krs : List KRoute) (kr : KRoute) : Prop :=
  krs.find? (fun k => k.key == kr.key && decide (k.metric < INFINITY)) = some kr

theorem First.mem {krs : List KRoute} {kr : KRoute} (h : First krs kr) : kr ∈ krs ∧ kr.metric < INFINITY := by
  refine ⟨List.mem_of_find?_eq_some h, ?_⟩
  have := List.find?_some h
  simpa using this

theorem First.head {kr : KRoute} (h : kr.metric < INFINITY) (l : List KRoute) : First (kr :: l) kr := by
  unfold First
  simp [h]

theorem First.tail {a kr : KRoute} {l : List KRoute} (h : a.key ≠ kr.key ∨ INFINITY ≤ a.metric) :
    First (a :: l) kr ↔ First l kr := by
  unfold First
  rw [List.find?_cons]
  have : (a.key == kr.key && decide (a.metric < INFINITY)) = false := by
    rcases h with h | h
    · simp [h]
    · simp; intro _; omega
  rw [this]

theorem First.same {a kr : KRoute} {l : List KRoute} (h : First (a :: l) kr) (hk : a.key = kr.key) (hm : a.metric < INFINITY) :
    kr = a := by
  unfold First at h
  rw [List.find?_cons] at h
  simp [hk, hm] at h
  exact h.symm

theorem merge_spec (c : Cfg) (b : Bool) (fuel : Nat) (krs : List KRoute) (l1 l2 : List Xroute) (s : St)
    (hs : s.xroutes = l1 ++ l2) (hx : XInv s.xroutes) (hk : krs.Pairwise (fun a b => xrouteCompare a.key b.key ≠ .gt))
    (hle : ∀ x ∈ l1, ∀ kr ∈ krs, xrouteCompare x.key kr.key ≠ .gt) (hf : krs.length + l2.length + 1 ≤ fuel) (x' : Xroute) :
    x' ∈ (mergeXroutes c b fuel krs l1.length s).xroutes ↔
      x' ∈ l1 ∨ ∃ kr, First krs kr ∧ (∀ x ∈ l1, x.key ≠ kr.key) ∧ Makes l2 kr x' := by
  induction fuel generalizing krs l1 l2 s with
  | zero => omega
  | succ fuel ih =>
    have hget : s.xroutes[l1.length]? = l2.head? := by
      rw [hs, List.getElem?_append_right (by omega)]
      simp [List.head?_eq_getElem?]
    have hsorted := hx.sorted
    rw [hs, List.pairwise_append] at hsorted
    obtain ⟨hs1, hs2, hs12⟩ := hsorted
    cases krs with
    | nil =>
      cases l2 with
      | nil =>
        simp only [mergeXroutes, hget, List.head?_nil]
        rw [hs]
        simp [First]
      | cons x l2 =>
        have em : mergeXroutes c b (fuel + 1) [] l1.length s = mergeXroutes c b fuel [] l1.length (flushXroute c s x b) := by
          exact mergeXroutes.eq_3 _ _ _ _ _ _ (by rw [hget]; rfl)
        rw [em]
        have hfl := xr_flush c s x b
        have he : s.xroutes.filter (fun y => !(y.key == x.key)) = l1 ++ l2 := by
          rw [hs, List.filter_append, List.filter_cons]
          have e1 : l1.filter (fun y => !(y.key == x.key)) = l1 := by
            rw [List.filter_eq_self]
            intro y hy
            simp [xcmp_ne (hs12 y hy x (by simp))]
          have e2 : l2.filter (fun y => !(y.key == x.key)) = l2 := by
            rw [List.filter_eq_self]
            intro y hy
            rw [List.pairwise_cons] at hs2
            simp [Ne.symm (xcmp_ne (hs2.1 y hy))]
          simp [e1, e2]
        rw [he] at hfl
        have hx' : XInv (flushXroute c s x b).xroutes := by
          rw [hfl, ← he]
          exact ⟨hx.sorted.filter _, fun y hy => hx.ok y ((List.mem_filter.1 hy).1)⟩
        rw [ih [] l1 l2 _ hfl hx' .nil (by simp) (by simp at hf ⊢; omega)]
        simp [First]
    | cons kr rest =>
      rw [List.pairwise_cons] at hk
      have hle' : ∀ x ∈ l1, ∀ kr ∈ rest, xrouteCompare x.key kr.key ≠ .gt := fun x hx k hk => hle x hx k (by simp [hk])
      by_cases hm : kr.metric ≥ INFINITY
      · simp only [mergeXroutes, hget]
        rw [if_pos hm, ih rest l1 l2 s hs hx hk.2 hle' (by simp at hf; omega)]
        simp only [First.tail (.inr hm)]
      · -- an accepted route
        have hm' : kr.metric < INFINITY := by omega
        have hadd : (∀ y, l2.head? = some y → xrouteCompare kr.key y.key = .lt) →
            (x' ∈ (mergeAdd c b (mergeXroutes c b fuel) kr rest l1.length s).xroutes ↔
              x' ∈ l1 ∨ ∃ k, First (kr :: rest) k ∧ (∀ x ∈ l1, x.key ≠ k.key) ∧ Makes l2 k x') := by
          intro hlt
          have hlt2 : ∀ y ∈ l2, xrouteCompare kr.key y.key = .lt := by
            intro y hy
            cases l2 with
            | nil => simp at hy
            | cons z l2 =>
              have h0 := hlt z rfl
              rcases List.mem_cons.1 hy with rfl | hy
              · exact h0
              · rw [List.pairwise_cons] at hs2
                exact xrouteCompare_order.trans _ _ _ h0 (hs2.1 y hy)
          unfold mergeAdd
          by_cases hmar : martianPrefix kr.key.prefix_ kr.key.plen = true
          · simp only [hmar, Bool.not_true, Bool.false_eq_true, if_false]
            rw [ih rest l1 l2 s hs hx hk.2 hle' (by simp at hf; omega)]
            constructor
            · rintro (h | ⟨k, h1, h2, h3⟩)
              · exact .inl h
              · by_cases hkk : kr.key = k.key
                · exfalso
                  rcases h3 with ⟨x, hx1, hx2, -⟩ | ⟨-, h3, -⟩
                  · exact xcmp_ne (hlt2 x hx1) (hkk.trans hx2.symm)
                  · rw [← hkk, hmar] at h3; cases h3
                · exact .inr ⟨k, (First.tail (.inl hkk)).2 h1, h2, h3⟩
            · rintro (h | ⟨k, h1, h2, h3⟩)
              · exact .inl h
              · by_cases hkk : kr.key = k.key
                · exfalso
                  rcases h3 with ⟨x, hx1, hx2, -⟩ | ⟨-, h3, -⟩
                  · exact xcmp_ne (hlt2 x hx1) (hkk.trans hx2.symm)
                  · rw [← hkk, hmar] at h3; cases h3
                · exact .inr ⟨k, (First.tail (.inl hkk)).1 h1, h2, h3⟩
          · simp only [Bool.not_eq_true] at hmar
            simp only [hmar, Bool.not_false, if_true]
            rcases xr_add c s kr b with ⟨h1, h2, h3⟩ | ⟨h1, h2⟩
            · have hn : ∀ x ∈ l1, x.key ≠ kr.key := by
                intro x hx1 e
                have : findXroute s kr.key = some x := (findXroute_iff hx).2 ⟨by rw [hs]; simp [hx1], e⟩
                rw [h1] at this; cases this
              have hlt1 : ∀ y ∈ l1, xrouteCompare y.key kr.key = .lt := by
                intro y hy
                cases e : xrouteCompare y.key kr.key with
                | lt => rfl
                | eq => exact absurd ((xrouteCompare_order.eq_iff _ _).1 e) (hn y hy)
                | gt => exact absurd e (hle y hy kr (by simp))
              have hins := xInsert_at (x := kr.entry) (l1 := l1) (l2 := l2) hlt1 hlt
              rw [hs, hins] at h3
              have h3' : (addAndAnnounce c s kr b).1.xroutes = (l1 ++ [kr.entry]) ++ l2 := by rw [h3]; simp
              have hx2 : XInv (addAndAnnounce c s kr b).1.xroutes := by
                rw [h3]
                refine ⟨?_, ?_⟩
                · rw [List.pairwise_append, List.pairwise_cons]
                  refine ⟨hs1, ⟨hlt2, hs2⟩, ?_⟩
                  intro a ha z hz
                  rcases List.mem_cons.1 hz with rfl | hz
                  · exact hlt1 a ha
                  · exact hs12 a ha z hz
                · intro x hxm
                  simp only [List.mem_append, List.mem_cons] at hxm
                  rcases hxm with hxm | rfl | hxm
                  · exact hx.ok x (by rw [hs]; simp [hxm])
                  · exact ⟨hm', hmar⟩
                  · exact hx.ok x (by rw [hs]; simp [hxm])
              have hle2 : ∀ x ∈ l1 ++ [kr.entry], ∀ k ∈ rest, xrouteCompare x.key k.key ≠ .gt := by
                intro x hxm k hkm
                rcases List.mem_append.1 hxm with hxm | hxm
                · exact hle' x hxm k hkm
                · rw [List.mem_singleton] at hxm
                  subst hxm
                  exact hk.1 k hkm
              have := ih rest (l1 ++ [kr.entry]) l2 _ h3' hx2 hk.2 hle2 (by simp at hf; omega)
              rw [List.length_append, List.length_singleton] at this
              rw [if_pos h2, this]
              constructor
              · rintro (h | ⟨k, g1, g2, g3⟩)
                · rcases List.mem_append.1 h with h | h
                  · exact .inl h
                  · rw [List.mem_singleton] at h
                    exact .inr ⟨kr, First.head hm' _, hn, .inr ⟨fun x hx => Ne.symm (xcmp_ne (hlt2 x hx)), hmar, h⟩⟩
                · have hkk : kr.key ≠ k.key := g2 kr.entry (by simp)
                  exact .inr ⟨k, (First.tail (.inl hkk)).2 g1, fun x hx => g2 x (by simp [hx]), g3⟩
              · rintro (h | ⟨k, g1, g2, g3⟩)
                · exact .inl (by simp [h])
                · by_cases hkk : kr.key = k.key
                  · left
                    have := g1.same hkk hm'
                    subst this
                    rcases g3 with ⟨x, hx1, hx2, -⟩ | ⟨-, -, rfl⟩
                    · exact absurd hx2 (Ne.symm (xcmp_ne (hlt2 x hx1)))
                    · simp
                  · refine .inr ⟨k, (First.tail (.inl hkk)).1 g1, fun x hx => ?_, g3⟩
                    rcases List.mem_append.1 hx with hx | hx
                    · exact g2 x hx
                    · rw [List.mem_singleton] at hx
                      subst hx
                      exact hkk
            · -- already there
              obtain ⟨y, hy⟩ := Option.isSome_iff_exists.1 h1
              obtain ⟨hy1, hy2⟩ := (findXroute_iff hx).1 hy
              have hyl : y ∈ l1 := by
                rw [hs] at hy1
                rcases List.mem_append.1 hy1 with h | h
                · exact h
                · exact absurd hy2 (Ne.symm (xcmp_ne (hlt2 y h)))
              rw [h2]
              simp only [Bool.false_eq_true, if_false]
              rw [ih rest l1 l2 s hs hx hk.2 hle' (by simp at hf; omega)]
              constructor
              · rintro (h | ⟨k, g1, g2, g3⟩)
                · exact .inl h
                · by_cases hkk : kr.key = k.key
                  · exact absurd (hy2.trans hkk) (g2 y hyl)
                  · exact .inr ⟨k, (First.tail (.inl hkk)).2 g1, g2, g3⟩
              · rintro (h | ⟨k, g1, g2, g3⟩)
                · exact .inl h
                · by_cases hkk : kr.key = k.key
                  · exact absurd (hy2.trans hkk) (g2 y hyl)
                  · exact .inr ⟨k, (First.tail (.inl hkk)).1 g1, g2, g3⟩
        simp only [mergeXroutes, hget]
        rw [if_neg hm]
        cases l2 with
        | nil =>
          simp only [List.head?_nil]
          exact hadd (by simp)
        | cons x l2 =>
          simp only [List.head?_cons]
          rw [List.pairwise_cons] at hs2
          cases hc : xrouteCompare kr.key x.key with
          | lt =>
            simp only
            exact hadd (by intro y hy; simp at hy; subst hy; exact hc)
          | gt =>
            simp only
            have hlt : xrouteCompare x.key kr.key = .lt := (xrouteCompare_order.gt_iff _ _).1 hc
            have hfl := xr_flush c s x b
            have he : s.xroutes.filter (fun y => !(y.key == x.key)) = l1 ++ l2 := by
              rw [hs, List.filter_append, List.filter_cons]
              have e1 : l1.filter (fun y => !(y.key == x.key)) = l1 := by
                rw [List.filter_eq_self]
                intro y hy
                simp [xcmp_ne (hs12 y hy x (by simp))]
              have e2 : l2.filter (fun y => !(y.key == x.key)) = l2 := by
                rw [List.filter_eq_self]
                intro y hy
                simp [Ne.symm (xcmp_ne (hs2.1 y hy))]
              simp [e1, e2]
            rw [he] at hfl
            have hx' : XInv (flushXroute c s x b).xroutes := by
              rw [hfl, ← he]
              exact ⟨hx.sorted.filter _, fun y hy => hx.ok y ((List.mem_filter.1 hy).1)⟩
            rw [ih (kr :: rest) l1 l2 _ hfl hx' (List.pairwise_cons.2 hk) hle (by simp at hf ⊢; omega)]
            have hno : ∀ k, First (kr :: rest) k → x.key ≠ k.key := by
              intro k hk1 e
              rcases List.mem_cons.1 hk1.mem.1 with rfl | hk2
              · exact xcmp_ne hlt e
              · have := xcmp_lt_trans (a := kr.key) (b := k.key) (d := kr.key) (hk.1 k hk2) (by rw [← e]; exact hlt)
                exact xcmp_ne this rfl
            constructor
            · rintro (h | ⟨k, g1, g2, g3⟩)
              · exact .inl h
              · refine .inr ⟨k, g1, g2, ?_⟩
                rcases g3 with ⟨y, hy1, hy2, hy3⟩ | ⟨hy1, hy2, hy3⟩
                · exact .inl ⟨y, by simp [hy1], hy2, hy3⟩
                · refine .inr ⟨fun y hy => ?_, hy2, hy3⟩
                  rcases List.mem_cons.1 hy with rfl | hy
                  · exact hno k g1
                  · exact hy1 y hy
            · rintro (h | ⟨k, g1, g2, g3⟩)
              · exact .inl h
              · refine .inr ⟨k, g1, g2, ?_⟩
                rcases g3 with ⟨y, hy1, hy2, hy3⟩ | ⟨hy1, hy2, hy3⟩
                · rcases List.mem_cons.1 hy1 with rfl | hy1
                  · exact absurd hy2 (hno k g1)
                  · exact .inl ⟨y, hy1, hy2, hy3⟩
                · exact .inr ⟨fun y hy => hy1 y (by simp [hy]), hy2, hy3⟩
          | eq =>
            simp only
            have hkx : kr.key = x.key := (xrouteCompare_order.eq_iff _ _).1 hc
            have hmem : x ∈ s.xroutes := by rw [hs]; simp
            have hmo := xr_modify (c := c) hx hmem kr b
            have he : xModify x kr s.xroutes = (l1 ++ [{ x with metric := kr.metric, proto := kr.proto }]) ++ l2 := by
              unfold xModify
              rw [hs, List.map_append, List.map_cons]
              have e1 : l1.map (fun y => if y.key == x.key then { x with metric := kr.metric, proto := kr.proto } else y) = l1 := by
                conv => rhs; rw [← List.map_id l1]
                apply List.map_congr_left
                intro y hy
                simp [xcmp_ne (hs12 y hy x (by simp))]
              have e2 : l2.map (fun y => if y.key == x.key then { x with metric := kr.metric, proto := kr.proto } else y) = l2 := by
                conv => rhs; rw [← List.map_id l2]
                apply List.map_congr_left
                intro y hy
                simp [Ne.symm (xcmp_ne (hs2.1 y hy))]
              rw [e1, e2]
              simp
            rw [he] at hmo
            have hx2 : XInv (modifyXroute c s x kr b).xroutes := by
              rw [hmo]
              refine ⟨?_, ?_⟩
              · rw [List.append_assoc, List.pairwise_append]
                simp only [List.singleton_append, List.pairwise_cons]
                refine ⟨hs1, ⟨hs2.1, hs2.2⟩, ?_⟩
                intro a ha z hz
                rcases List.mem_cons.1 hz with rfl | hz
                · exact hs12 a ha x (by simp)
                · exact hs12 a ha z (by simp [hz])
              · intro y hy
                simp only [List.mem_append, List.mem_singleton] at hy
                rcases hy with (hy | rfl) | hy
                · exact hx.ok y (by rw [hs]; simp [hy])
                · exact ⟨hm', (hx.ok x hmem).2⟩
                · exact hx.ok y (by rw [hs]; simp [hy])
            have hle2 : ∀ y ∈ l1 ++ [{ x with metric := kr.metric, proto := kr.proto }], ∀ k ∈ rest, xrouteCompare y.key k.key ≠ .gt := by
              intro y hym k hkm
              rcases List.mem_append.1 hym with hym | hym
              · exact hle' y hym k hkm
              · rw [List.mem_singleton] at hym
                subst hym
                show xrouteCompare x.key k.key ≠ .gt
                rw [← hkx]
                exact hk.1 k hkm
            have := ih rest (l1 ++ [{ x with metric := kr.metric, proto := kr.proto }]) l2 _ hmo hx2 hk.2 hle2 (by simp at hf; omega)
            rw [List.length_append, List.length_singleton] at this
            rw [this]
            constructor
            · rintro (h | ⟨k, g1, g2, g3⟩)
              · rcases List.mem_append.1 h with h | h
                · exact .inl h
                · rw [List.mem_singleton] at h
                  refine .inr ⟨kr, First.head hm' _, fun y hy => ?_, .inl ⟨x, by simp, hkx.symm, h⟩⟩
                  rw [hkx]; exact xcmp_ne (hs12 y hy x (by simp))
              · have hkk : x.key ≠ k.key := g2 { x with metric := kr.metric, proto := kr.proto } (by simp)
                refine .inr ⟨k, (First.tail (.inl (by rw [hkx]; exact hkk))).2 g1, fun y hy => g2 y (by simp [hy]), ?_⟩
                rcases g3 with ⟨y, hy1, hy2, hy3⟩ | ⟨hy1, hy2, hy3⟩
                · exact .inl ⟨y, by simp [hy1], hy2, hy3⟩
                · refine .inr ⟨fun y hy => ?_, hy2, hy3⟩
                  rcases List.mem_cons.1 hy with rfl | hy
                  · exact hkk
                  · exact hy1 y hy
            · rintro (h | ⟨k, g1, g2, g3⟩)
              · exact .inl (by simp [h])
              · by_cases hkk : kr.key = k.key
                · left
                  have := g1.same hkk hm'
                  subst this
                  rcases g3 with ⟨y, hy1, hy2, hy3⟩ | ⟨hy1, -, -⟩
                  · rcases List.mem_cons.1 hy1 with rfl | hy1
                    · simp [hy3]
                    · exact absurd (hkx.symm.trans hy2.symm) (xcmp_ne (hs2.1 y hy1))
                  · exact absurd hkx.symm (hy1 x (by simp))
                · refine .inr ⟨k, (First.tail (.inl hkk)).1 g1, fun y hy => ?_, ?_⟩
                  · rcases List.mem_append.1 hy with hy | hy
                    · exact g2 y hy
                    · rw [List.mem_singleton] at hy
                      subst hy
                      show x.key ≠ k.key
                      rw [← hkx]; exact hkk
                  · rcases g3 with ⟨y, hy1, hy2, hy3⟩ | ⟨hy1, hy2, hy3⟩
                    · rcases List.mem_cons.1 hy1 with rfl | hy1
                      · exact absurd (hkx.trans hy2) hkk
                      · exact .inl ⟨y, hy1, hy2, hy3⟩
                    · exact .inr ⟨fun y hy => hy1 y (by simp [hy]), hy2, hy3⟩

end Babel
