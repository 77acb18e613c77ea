import Verif.Lemmas.Xroute2
import Verif.Spec.Xroute
import Verif.Props.Choice
/-
C34, C35: redistributed routes.
-/
set_option linter.unusedSimpArgs false
set_option linter.unusedVariables false
namespace Babel
open Spec

theorem redistribute_eq (c : Cfg) (kr : KRoute) :
    redistribute c kr = ⟨exportKey c kr, exportMetric c kr, kr.ifindex, kr.proto⟩ := by
  unfold redistribute exportKey exportMetric
  rfl

/-- C34: after a synchronisation with the kernel, whatever the table of redistributed routes was before: every
entry comes from a kernel route that is wanted, with the metric given by the filter; every wanted kernel
route is in the table; and no destination is there twice. -/
theorem C34_table {c : Cfg} {s : St} (h : Reachable c s) (krs : List KRoute) (b : Bool) :
    (∀ x ∈ (step c s (.checkXroutes krs b)).xroutes, ∃ kr ∈ krs, Wanted c kr ∧ exportKey c kr = x.key ∧
      exportMetric c kr = x.metric ∧ kr.proto = x.proto ∧
      (kr.ifindex = x.ifindex ∨ ∃ y ∈ s.xroutes, y.key = x.key ∧ y.ifindex = x.ifindex)) ∧
    (∀ kr ∈ krs, Wanted c kr → ∃ x ∈ (step c s (.checkXroutes krs b)).xroutes, x.key = exportKey c kr) ∧
    (step c s (.checkXroutes krs b)).xroutes.Pairwise (fun x y => x.key ≠ y.key) := by
  have hsort : (sortBy kernelRouteCompare (krs.map (redistribute c))).Pairwise
      (fun a b => xrouteCompare a.key b.key ≠ .gt) := by
    have hpre : ∀ (l : List KRoute), (sortBy kernelRouteCompare l).Pairwise
        (fun a b => xrouteCompare a.key b.key ≠ .gt) := by
      intro l
      induction l with
      | nil => exact .nil
      | cons a l ih =>
        show (insertBy kernelRouteCompare a (sortBy kernelRouteCompare l)).Pairwise _
        generalize sortBy kernelRouteCompare l = m at ih
        induction m with
        | nil => simp [insertBy]
        | cons y m ihm =>
          unfold insertBy
          rw [List.pairwise_cons] at ih
          split
          · next hgt =>
            have hlt : xrouteCompare y.key a.key = .lt := (xrouteCompare_order.gt_iff _ _).1 (by simpa [kernelRouteCompare] using hgt)
            rw [List.pairwise_cons]
            refine ⟨?_, ihm ih.2⟩
            intro z hz
            rcases List.mem_cons.1 ((insertBy_perm _ _ _).subset hz) with rfl | hz
            · rw [hlt]; simp
            · exact ih.1 z hz
          · next hgt =>
            have hle : xrouteCompare a.key y.key ≠ .gt := by simpa [kernelRouteCompare] using hgt
            rw [List.pairwise_cons]
            refine ⟨?_, by rw [List.pairwise_cons]; exact ih⟩
            intro z hz
            rcases List.mem_cons.1 hz with rfl | hz
            · exact hle
            · intro hgz
              have h1 := (xrouteCompare_order.gt_iff _ _).1 hgz
              have h2 : xrouteCompare z.key y.key = .lt := by
                cases e : xrouteCompare a.key y.key with
                | gt => exact absurd e hle
                | eq => rw [← (xrouteCompare_order.eq_iff _ _).1 e]; exact h1
                | lt => exact xrouteCompare_order.trans _ _ _ h1 e
              exact ih.1 z hz ((xrouteCompare_order.gt_iff _ _).2 h2)
    exact hpre _
  have hmem : ∀ kr', kr' ∈ sortBy kernelRouteCompare (krs.map (redistribute c)) ↔ ∃ kr ∈ krs, redistribute c kr = kr' := by
    intro kr'; rw [mem_sortBy, List.mem_map]
  have hinv := h.inv
  have hspec := merge_spec c b (2 * (sortBy kernelRouteCompare (krs.map (redistribute c))).length + s.xroutes.length + 1)
    (sortBy kernelRouteCompare (krs.map (redistribute c))) [] s.xroutes s rfl hinv.xr hsort (by simp) (by omega)
  have hspec : ∀ x', x' ∈ (step c s (.checkXroutes krs b)).xroutes ↔ ∃ kr,
      First (sortBy kernelRouteCompare (krs.map (redistribute c))) kr ∧ Makes s.xroutes kr x' := by
    intro x'
    have := hspec x'
    simp only [List.not_mem_nil, false_or, List.length_nil, false_implies, implies_true, true_and] at this
    exact this
  refine ⟨?_, ?_, ?_⟩
  · intro x hx
    obtain ⟨kr', hf, hm⟩ := (hspec x).1 hx
    obtain ⟨h1, h2⟩ := hf.mem
    obtain ⟨kr, hkr, rfl⟩ := (hmem _).1 h1
    rw [redistribute_eq] at hm h2
    refine ⟨kr, hkr, ?_⟩
    rcases hm with ⟨y, hy, hk, rfl⟩ | ⟨-, hmar, rfl⟩
    · refine ⟨⟨h2, ?_⟩, hk.symm, rfl, rfl, .inr ⟨y, hy, rfl, rfl⟩⟩
      have := (hinv.xr.ok y hy).2
      rw [hk] at this; exact this
    · exact ⟨⟨h2, hmar⟩, rfl, rfl, rfl, .inl rfl⟩
  · intro kr hkr ⟨hw1, hw2⟩
    have hm1 : redistribute c kr ∈ sortBy kernelRouteCompare (krs.map (redistribute c)) := (hmem _).2 ⟨kr, hkr, rfl⟩
    obtain ⟨kr', hf⟩ : ∃ kr', (sortBy kernelRouteCompare (krs.map (redistribute c))).find?
        (fun k => k.key == (redistribute c kr).key && decide (k.metric < INFINITY)) = some kr' := by
      rw [← Option.isSome_iff_exists, List.find?_isSome]
      exact ⟨_, hm1, by rw [redistribute_eq]; simpa using hw1⟩
    have hk' : kr'.key = exportKey c kr := by
      have := List.find?_some hf
      rw [redistribute_eq] at this
      simp at this
      exact this.1
    have hf' : First (sortBy kernelRouteCompare (krs.map (redistribute c))) kr' := by
      unfold First
      rw [redistribute_eq] at hf
      rw [hk']; exact hf
    by_cases hx : ∃ x ∈ s.xroutes, x.key = kr'.key
    · obtain ⟨x, hx, e⟩ := hx
      exact ⟨_, (hspec _).2 ⟨kr', hf', .inl ⟨x, hx, e, rfl⟩⟩, e.trans hk'⟩
    · refine ⟨kr'.entry, (hspec _).2 ⟨kr', hf', .inr ⟨fun x hx1 e => hx ⟨x, hx1, e⟩, by rw [hk']; exact hw2, rfl⟩⟩, hk'⟩
  · exact (h.step (.checkXroutes krs b)).inv.xr.sorted.imp (fun h => xcmp_ne h)

/-- C34: the table is determined by the kernel if no two kernel routes are redistributed to the same
destination. -/
theorem C34_exact {c : Cfg} {s : St} (h : Reachable c s) (krs : List KRoute) (b : Bool)
    (hu : krs.Pairwise (fun a b => exportKey c a ≠ exportKey c b)) (k : PKey) (m : Nat) (p : Int) :
    (∃ x ∈ (step c s (.checkXroutes krs b)).xroutes, x.key = k ∧ x.metric = m ∧ x.proto = p) ↔
      ∃ kr ∈ krs, Wanted c kr ∧ exportKey c kr = k ∧ exportMetric c kr = m ∧ kr.proto = p := by
  obtain ⟨h1, h2, -⟩ := C34_table h krs b
  constructor
  · rintro ⟨x, hx, rfl, rfl, rfl⟩
    obtain ⟨kr, hkr, hw, e1, e2, e3, -⟩ := h1 x hx
    exact ⟨kr, hkr, hw, e1, e2, e3⟩
  · rintro ⟨kr, hkr, hw, rfl, rfl, rfl⟩
    obtain ⟨x, hx, e⟩ := h2 kr hkr hw
    obtain ⟨kr', hkr', -, e1, e2, e3, -⟩ := h1 x hx
    have : kr' = kr := by
      have hall := List.pairwise_iff_getElem.1 hu
      obtain ⟨a, ha, rfl⟩ := List.getElem_of_mem hkr
      obtain ⟨d, hd, rfl⟩ := List.getElem_of_mem hkr'
      rcases Nat.lt_trichotomy a d with hlt | heq | hlt
      · exact absurd (e.symm.trans e1.symm) (hall a d ha hd hlt)
      · subst heq; rfl
      · exact absurd (e1.trans e) (hall d a hd ha hlt)
    subst this
    exact ⟨x, hx, e, e2.symm, e3.symm⟩

theorem linkLocal_iff (a : Bytes) : in6LinkLocal a = true ↔ linkLocalAddr a := by
  have key' : ∀ n : Fin 256, (UInt8.ofNat n.val &&& 0xc0 == 0x80) = (decide (128 ≤ n.val) && decide (n.val < 192)) := by
    decide +kernel
  have key : ∀ b : UInt8, (b &&& 0xc0 == 0x80) = (decide (128 ≤ b.toNat) && decide (b.toNat < 192)) := by
    intro b
    have := key' ⟨b.toNat, b.toNat_lt⟩
    simpa using this
  unfold in6LinkLocal linkLocalAddr
  cases h0 : a[0]? with
  | none => simp
  | some x =>
    cases h1 : a[1]? with
    | none => simp
    | some b => simp [key]

theorem tableSize_some {n m : Nat} (hm : 8 ≤ m) (h : n < MAXMAXROUTES) : (tableSize n 20 m).isSome := by
  have key : ∀ fuel m, 8 ≤ m → MAXMAXROUTES ≤ m * 2 ^ (fuel - 1) → 0 < fuel → (tableSize n fuel m).isSome := by
    intro fuel
    induction fuel with
    | zero => omega
    | succ fuel ih =>
      intro m h8 hp _
      unfold tableSize
      split
      · next hn =>
        split
        · unfold MAXMAXROUTES at *; omega
        · next hlt =>
          have hf : 0 < fuel := by
            rcases Nat.eq_zero_or_pos fuel with rfl | h
            · simp at hp; omega
            · exact h
          refine ih _ ?_ ?_ hf
          · unfold MAXMAXROUTES; omega
          · obtain ⟨f, rfl⟩ : ∃ f, fuel = f + 1 := ⟨fuel - 1, by omega⟩
            simp only [Nat.add_sub_cancel] at hp ⊢
            rcases Nat.le_total MAXMAXROUTES (2 * m) with hc | hc
            · rw [Nat.min_eq_left hc]
              exact Nat.le_mul_of_pos_right _ (Nat.pow_pos (by omega))
            · rw [Nat.min_eq_right hc]
              rw [Nat.pow_succ] at hp
              calc MAXMAXROUTES ≤ m * (2 ^ f * 2) := hp
                _ = 2 * m * 2 ^ f := by rw [Nat.mul_comm (2 ^ f) 2, ← Nat.mul_assoc, Nat.mul_comm m 2]
      · rfl
  refine key 20 m hm ?_ (by omega)
  unfold MAXMAXROUTES
  omega

/-- C34: the same in terms of the addresses and routes of the host: they are all found if there are
fewer than 262144. -/
theorem C34_kernel {c : Cfg} {s : St} (h : Reachable c s) {m : Nat} (hm : 8 ≤ m) (addrs : List KAddr) (rts : List KRoute) (b : Bool)
    (hn : addrs.length + rts.length < 262144) :
    (∀ x ∈ (checkKernel c s m addrs rts b).1.xroutes, ∃ kr, HostHas addrs rts kr ∧ Wanted c kr ∧ exportKey c kr = x.key ∧
      exportMetric c kr = x.metric ∧ kr.proto = x.proto) ∧
    (∀ kr, HostHas addrs rts kr → Wanted c kr → ∃ x ∈ (checkKernel c s m addrs rts b).1.xroutes, x.key = exportKey c kr) ∧
    8 ≤ (checkKernel c s m addrs rts b).2 := by
  have hlen : (addrs.filterMap filterAddress ++ rts.filterMap filterRoute).length < MAXMAXROUTES := by
    have h1 := List.length_filterMap_le filterAddress addrs
    have h2 := List.length_filterMap_le filterRoute rts
    unfold MAXMAXROUTES
    rw [List.length_append]; omega
  obtain ⟨z, hz⟩ := Option.isSome_iff_exists.1 (tableSize_some hm hlen)
  have hk : ∀ kr, kr ∈ addrs.filterMap filterAddress ++ rts.filterMap filterRoute ↔ HostHas addrs rts kr := by
    intro kr
    rw [List.mem_append, List.mem_filterMap, List.mem_filterMap]
    unfold HostHas
    constructor
    · rintro (⟨a, ha, e⟩ | ⟨r, hr, e⟩)
      · right
        unfold filterAddress at e
        split at e
        · cases e
        · next hll =>
          exact ⟨a, ha, fun h => hll ((linkLocal_iff _).2 h), (Option.some.inj e).symm⟩
      · left
        unfold filterRoute at e
        split at e
        · cases e
        · next hmar =>
          cases e
          simp at hmar
          exact ⟨hr, hmar.1, hmar.2⟩
    · rintro (⟨h1, h2, h3⟩ | ⟨a, ha, h1, rfl⟩)
      · right
        exact ⟨kr, h1, by unfold filterRoute; rw [h2, h3]; rfl⟩
      · left
        refine ⟨a, ha, ?_⟩
        unfold filterAddress
        rw [if_neg (fun h => h1 ((linkLocal_iff _).1 h))]
        rfl
  have e : checkKernel c s m addrs rts b = (step c s (.checkXroutes (addrs.filterMap filterAddress ++ rts.filterMap filterRoute) b),
      min ((addrs.filterMap filterAddress ++ rts.filterMap filterRoute).length + 8) MAXMAXROUTES) := by
    unfold checkKernel
    simp only [hz]
    rfl
  rw [e]
  obtain ⟨h1, h2, -⟩ := C34_table h (addrs.filterMap filterAddress ++ rts.filterMap filterRoute) b
  refine ⟨?_, ?_, ?_⟩
  · intro x hx
    obtain ⟨kr, hkr, hw, e1, e2, e3, -⟩ := h1 x hx
    exact ⟨kr, (hk kr).1 hkr, hw, e1, e2, e3⟩
  · intro kr hkr hw
    exact h2 kr ((hk kr).2 hkr) hw
  · show 8 ≤ min (_ + 8) MAXMAXROUTES
    unfold MAXMAXROUTES; omega

theorem tableSize_none {n : Nat} (h : MAXMAXROUTES ≤ n) : ∀ fuel m, m ≤ MAXMAXROUTES → tableSize n fuel m = none := by
  intro fuel
  induction fuel with
  | zero => intro m _; rfl
  | succ fuel ih =>
    intro m hm
    unfold tableSize
    rw [if_pos (by omega)]
    split
    · rfl
    · exact ih _ (Nat.min_le_left ..)

/-- C34: if there are more, nothing is changed. -/
theorem C34_limit (c : Cfg) (s : St) {m : Nat} (hm : m ≤ 262144) (addrs : List KAddr) (rts : List KRoute) (b : Bool)
    (ha : ∀ a ∈ addrs, ¬ linkLocalAddr a.addr)
    (hr : ∀ r ∈ rts, martianPrefix r.key.prefix_ r.key.plen = false ∧ martianPrefix r.key.srcPrefix r.key.srcPlen = false)
    (hn : 262144 ≤ addrs.length + rts.length) : checkKernel c s m addrs rts b = (s, 262144) := by
  have e1 : (addrs.filterMap filterAddress).length = addrs.length := by
    clear hn
    induction addrs with
    | nil => rfl
    | cons a l ih =>
      rw [List.filterMap_cons]
      have : filterAddress a ≠ none := by
        unfold filterAddress
        rw [if_neg (fun h => ha a (List.mem_cons_self ..) ((linkLocal_iff _).1 h))]
        nofun
      cases hf : filterAddress a with
      | none => exact absurd hf this
      | some x => simp only [List.length_cons]; rw [ih fun y hy => ha y (List.mem_cons_of_mem _ hy)]
  have e2 : rts.filterMap filterRoute = rts := by
    clear hn
    induction rts with
    | nil => rfl
    | cons a l ih =>
      rw [List.filterMap_cons]
      have : filterRoute a = some a := by
        unfold filterRoute
        rw [(hr a (List.mem_cons_self ..)).1, (hr a (List.mem_cons_self ..)).2]
        rfl
      rw [this]
      simp only
      rw [ih fun y hy => hr y (List.mem_cons_of_mem _ hy)]
  unfold checkKernel
  simp only
  rw [tableSize_none (by rw [List.length_append, e1, e2]; exact hn) 20 m hm]
  rfl

/-- C34: the effect on the table of a notification that a kernel route was added or changed: exactly that
destination is added, or its metric and protocol are changed. -/
theorem C34_added {c : Cfg} {s : St} (h : Reachable c s) (kr : KRoute) (k : PKey) :
    exported (step c s (.kernelRoute true kr)) k =
      if k = exportKey c kr ∧ Wanted c kr then
        some ⟨k, exportMetric c kr, ((exported s k).map (·.ifindex)).getD kr.ifindex, kr.proto⟩
      else exported s k := by
  show exported (kernelRouteNotify c s true kr) k = _
  unfold kernelRouteNotify Wanted
  rw [redistribute_eq]
  simp only [if_true]
  by_cases hm : exportMetric c kr ≥ INFINITY
  · rw [if_pos hm, if_neg (by omega)]
  · rw [if_neg hm]
    have hm' : exportMetric c kr < INFINITY := by omega
    have hok : ∀ x ∈ s.xroutes, _ := h.inv.xr.ok
    cases hx : findXroute s (exportKey c kr) with
    | some x =>
      obtain ⟨hx1, hx2⟩ := (findXroute_iff h.inv.xr).1 hx
      simp only
      rw [exported_modify h.inv.xr hx1, hx2]
      have hmar := (hok x hx1).2
      rw [hx2] at hmar
      by_cases e : k = exportKey c kr
      · subst e
        rw [if_pos rfl, if_pos ⟨rfl, hm', hmar⟩, exported_eq, hx]
        rfl
      · rw [if_neg e, if_neg (fun h => e h.1)]
    | none =>
      simp only [Bool.not_true, Bool.false_eq_true, if_false]
      by_cases hmar : martianPrefix (exportKey c kr).prefix_ (exportKey c kr).plen = true
      · rw [if_pos hmar, if_neg (fun h => by rw [hmar] at h; exact absurd h.2.2 (by simp))]
      · have hmar' : martianPrefix (exportKey c kr).prefix_ (exportKey c kr).plen = false := by simpa using hmar
        rw [if_neg hmar, exported_add hx]
        simp only
        by_cases e : k = exportKey c kr
        · subst e
          rw [if_pos rfl, if_pos ⟨rfl, hm', hmar'⟩, exported_eq, hx]
          rfl
        · rw [if_neg e, if_neg (fun h => e h.1)]

/-- C34: the effect on the table of a notification that a kernel route was removed: that destination is
withdrawn if the filter accepts the route. -/
theorem C34_removed {c : Cfg} {s : St} (h : Reachable c s) (kr : KRoute) (k : PKey) :
    exported (step c s (.kernelRoute false kr)) k =
      if k = exportKey c kr ∧ exportMetric c kr < INFINITY then none else exported s k := by
  show exported (kernelRouteNotify c s false kr) k = _
  unfold kernelRouteNotify
  rw [redistribute_eq]
  simp only [Bool.false_eq_true, if_false]
  by_cases hm : exportMetric c kr ≥ INFINITY
  · rw [if_pos hm, if_neg (by omega)]
  · rw [if_neg hm]
    have hm' : exportMetric c kr < INFINITY := by omega
    cases hx : findXroute s (exportKey c kr) with
    | some x =>
      obtain ⟨hx1, hx2⟩ := (findXroute_iff h.inv.xr).1 hx
      simp only
      rw [exported_flush, hx2]
      by_cases e : k = exportKey c kr
      · rw [if_pos e, if_pos ⟨e, hm'⟩]
      · rw [if_neg e, if_neg (fun h => e h.1)]
    | none =>
      simp only [Bool.not_false, if_true]
      by_cases e : k = exportKey c kr
      · rw [if_pos ⟨e, hm'⟩, exported_eq, e, hx]
      · rw [if_neg (fun h => e h.1)]

/-- C34: additions and changes found by a synchronisation are announced on every interface, and what is
known of the other destinations stays up to date, except for those that are withdrawn. -/
theorem C34_announced {c : Cfg} {s : St} (h : Reachable c s) (krs : List KRoute) (i : IfId) (k : PKey) :
    (exported (step c s (.checkXroutes krs true)) k ≠ none →
      exported (step c s (.checkXroutes krs true)) k ≠ exported s k → UpToDate c (step c s (.checkXroutes krs true)) i k) ∧
    (UpToDate c s i k → (exported s k ≠ none → exported (step c s (.checkXroutes krs true)) k ≠ none) →
      UpToDate c (step c s (.checkXroutes krs true)) i k) := by
  have hi := h.inv
  obtain ⟨ht1, ht2, -⟩ := C34_table h krs true
  have hx' := (h.step (.checkXroutes krs true)).inv.xr
  have hmem : ∀ kr', kr' ∈ sortBy kernelRouteCompare (krs.map (redistribute c)) ↔ ∃ kr ∈ krs, redistribute c kr = kr' := by
    intro kr'; rw [mem_sortBy, List.mem_map]
  refine ⟨fun h1 h2 => ?_, fun hu h1 => ?_⟩
  · refine merge_told _ _ 0 hi (.inl ⟨?_, .inr (fun e => h2 e.symm)⟩)
    exact Option.isSome_iff_ne_none.2 h1
  · cases e : exported (step c s (.checkXroutes krs true)) k with
    | some x =>
      refine merge_told _ _ 0 hi (.inl ⟨?_, .inl hu⟩)
      show (exported (step c s (.checkXroutes krs true)) k).isSome
      rw [e]; rfl
    | none =>
      refine merge_told _ _ 0 hi (.inr ⟨?_, hu, ?_⟩)
      · exact Classical.byContradiction fun hc => h1 hc e
      · intro kr' hkr' hk
        obtain ⟨kr, hkr, rfl⟩ := (hmem _).1 hkr'
        rw [redistribute_eq] at hk ⊢
        simp only at hk ⊢
        subst hk
        by_cases hm : INFINITY ≤ exportMetric c kr
        · exact .inl hm
        · right
          cases hmar : martianPrefix (exportKey c kr).prefix_ (exportKey c kr).plen with
          | true => rfl
          | false =>
            exfalso
            obtain ⟨x, hx, ex⟩ := ht2 kr hkr ⟨by omega, hmar⟩
            have : exported (step c s (.checkXroutes krs true)) (exportKey c kr) = some x := (findXroute_iff hx').2 ⟨hx, ex⟩
            rw [e] at this; cases this

/-- C34: the addition or change of a kernel route is announced on every interface, and what is known of the
other destinations stays up to date. -/
theorem C34_announced_add {c : Cfg} {s : St} (h : Reachable c s) (kr : KRoute) (i : IfId) (k : PKey) :
    (exported (step c s (.kernelRoute true kr)) k ≠ exported s k → UpToDate c (step c s (.kernelRoute true kr)) i k) ∧
    (UpToDate c s i k → UpToDate c (step c s (.kernelRoute true kr)) i k) := by
  show (exported (kernelRouteNotify c s true kr) k ≠ exported s k → UpToDate c (kernelRouteNotify c s true kr) i k) ∧
    (UpToDate c s i k → UpToDate c (kernelRouteNotify c s true kr) i k)
  unfold kernelRouteNotify
  rw [redistribute_eq]
  simp only [if_true]
  by_cases hm : exportMetric c kr ≥ INFINITY
  · rw [if_pos hm]; exact ⟨fun h => absurd rfl h, id⟩
  · rw [if_neg hm]
    have hm' : exportMetric c kr < INFINITY := by omega
    cases hx : findXroute s (exportKey c kr) with
    | some x =>
      obtain ⟨hx1, hx2⟩ := (findXroute_iff h.inv.xr).1 hx
      simp only
      obtain ⟨g1, g2⟩ := modify_told (kr := ⟨exportKey c kr, exportMetric c kr, kr.ifindex, kr.proto⟩) h.inv hx1 hm'
      by_cases e : k = x.key
      · rcases g1 with ⟨-, -, e2⟩ | g1
        · rw [e2]; exact ⟨fun h => absurd rfl h, id⟩
        · rw [e]; exact ⟨fun _ => g1 i, fun _ => g1 i⟩
      · refine ⟨fun hne => ?_, g2 i k e⟩
        rw [exported_modify h.inv.xr hx1, if_neg e] at hne
        exact absurd rfl hne
    | none =>
      simp only [Bool.not_true, Bool.false_eq_true, if_false]
      by_cases hmar : martianPrefix (exportKey c kr).prefix_ (exportKey c kr).plen = true
      · rw [if_pos hmar]; exact ⟨fun h => absurd rfl h, id⟩
      · have hmar' : martianPrefix (exportKey c kr).prefix_ (exportKey c kr).plen = false := by simpa using hmar
        rw [if_neg hmar]
        obtain ⟨g1, g2⟩ := add_told (kr := ⟨exportKey c kr, exportMetric c kr, kr.ifindex, kr.proto⟩) h.inv hm' hmar'
        by_cases e : k = exportKey c kr
        · rcases g1 with ⟨g1, -⟩ | ⟨-, g1⟩
          · exfalso
            simp only [hx] at g1
            cases g1
          · rw [e]; exact ⟨fun _ => g1 i, fun _ => g1 i⟩
        · refine ⟨fun hne => ?_, g2 i k e⟩
          rw [exported_add hx, if_neg e] at hne
          exact absurd rfl hne

/-- The routes selected do not depend on the queues. -/
theorem selected_of_core {a b : St} (e : b.routes.map Route.core = a.routes.map Route.core) (k : PKey) (n : NeighId) :
    Selected b k n ↔ Selected a k n := by
  have aux : ∀ {a b : St}, b.routes.map Route.core = a.routes.map Route.core → Selected a k n → Selected b k n := by
    rintro a b e ⟨r, hr, h1, h2, h3⟩
    have : r.core ∈ b.routes.map Route.core := by rw [e]; exact List.mem_map_of_mem hr
    obtain ⟨r', hr', e⟩ := List.mem_map.1 this
    exact ⟨r', hr', (core_key e).trans h1, (core_neigh e).trans h2, (core_installed e).trans h3⟩
  exact ⟨aux e.symm, aux e⟩

/-- Unselecting a route unselects it, and nothing else. -/
theorem selected_uninstall {c : Cfg} {s : St} {k : PKey} {n : NeighId} (k' : PKey) (n' : NeighId) :
    Selected (uninstallRoute c s k n) k' n' ↔ Selected s k' n' ∧ ¬ (k' = k ∧ n' = n ∧ ∃ r, findRoute s k n = some r ∧ r.installed = true) := by
  cases hr : findRoute s k n with
  | none => rw [uninstallRoute_noop (by simp [hr])]; simp
  | some r =>
    cases hi : r.installed with
    | false =>
      rw [uninstallRoute_noop (by rw [hr]; simp [hi])]
      simp [hi]
    | true =>
      have e : (uninstallRoute c s k n).routes = flatModify s.routes k n (fun r => { r with installed := false }) := by
        rcases uninstallRoute_routes c s k n with ⟨-, h⟩ | h
        · rw [h r hr] at hi; cases hi
        · exact h
      unfold Selected
      rw [e]
      constructor
      · rintro ⟨x, hx, h1, h2, h3⟩
        rcases mem_flatModify hx with ⟨y, -, -, -, rfl⟩ | ⟨hx', hne⟩
        · cases h3
        · refine ⟨⟨x, hx', h1, h2, h3⟩, ?_⟩
          rintro ⟨rfl, rfl, -⟩
          exact hne ⟨h1, h2⟩
      · rintro ⟨⟨x, hx, h1, h2, h3⟩, hne⟩
        refine ⟨x, ?_, h1, h2, h3⟩
        unfold flatModify
        refine List.mem_map.2 ⟨x, hx, ?_⟩
        rw [if_neg]
        intro hc
        simp only [Bool.and_eq_true, beq_iff_eq] at hc
        exact hne ⟨h1.symm.trans hc.1, h2.symm.trans hc.2, r, rfl, hi⟩

/-- C34: a newly redistributed route displaces the selected route to the same destination, unless duplicates are
allowed for metrics like its own; the selection for the other destinations does not change. -/
theorem C34_displaced {c : Cfg} {s : St} (h : Reachable c s) {kr : KRoute} (hw : Wanted c kr)
    (hnew : exported s (exportKey c kr) = none) (k : PKey) (n : NeighId) :
    Selected (step c s (.kernelRoute true kr)) k n ↔
      Selected s k n ∧ (k = exportKey c kr → ∃ a, c.allowDup = some a ∧ a ≤ exportMetric c kr) := by
  show Selected (kernelRouteNotify c s true kr) k n ↔ _
  obtain ⟨hw1, hw2⟩ := hw
  rw [exported_eq] at hnew
  unfold kernelRouteNotify
  rw [redistribute_eq]
  simp only
  rw [if_neg (by omega), hnew]
  simp only [Bool.not_true, Bool.false_eq_true, if_false]
  rw [hw2]
  simp only [Bool.false_eq_true, if_false]
  unfold addAndAnnounce addXroute
  simp only
  rw [hnew]
  simp only [if_true]
  rw [selected_of_core (qms_sendUpdate c _ false _).same.routes]
  unfold flushDuplicateRoute
  generalize hs1 : emit _ _ = s1
  have hro : s1.routes = s.routes := by rw [← hs1]; rfl
  have hl : LInv c s1.routes := by rw [hro]; exact h.inv.lst
  have hsel : ∀ k n, Selected s1 k n ↔ Selected s k n := fun k n => by unfold Selected; rw [hro]
  cases hf : findInstalled s1 (exportKey c kr) with
  | none =>
    simp only
    rw [hsel]
    refine ⟨fun hs => ⟨hs, fun e => ?_⟩, fun hs => hs.1⟩
    obtain ⟨r, hr, h1, h2, h3⟩ := (hsel k n).2 hs
    rw [(findInstalled_iff hl).2 ⟨hr, h1.trans e, h3⟩] at hf
    cases hf
  | some r =>
    obtain ⟨hr, hk, hi⟩ := findInstalled_mem hf
    have hfr : findRoute s1 (exportKey c kr) r.neigh = some r := by rw [← hk]; exact findRoute_of_mem hl hr
    simp only
    by_cases hd : displaces c (exportMetric c kr) = true
    · rw [if_pos hd, selected_uninstall, hsel]
      have hd' : ¬ ∃ a, c.allowDup = some a ∧ a ≤ exportMetric c kr := by
        rintro ⟨a, ha, hle⟩
        unfold displaces at hd
        rw [ha] at hd
        simp only [decide_eq_true_eq] at hd
        omega
      refine and_congr_right fun hs => ⟨fun hne e => ?_, fun hne he => ?_⟩
      · obtain ⟨r', hr', h1, h2, h3⟩ := (hsel k n).2 hs
        have := (findInstalled_iff hl).2 ⟨hr', h1.trans e, h3⟩
        rw [hf] at this
        cases this
        exact absurd ⟨e, h2.symm, r, hfr, hi⟩ hne
      · exact hd' (hne he.1)
    · rw [if_neg hd, hsel]
      refine ⟨fun hs => ⟨hs, fun _ => ?_⟩, fun hs => hs.1⟩
      unfold displaces at hd
      cases ha : c.allowDup with
      | none => rw [ha] at hd; simp at hd
      | some a =>
        rw [ha] at hd
        simp only [decide_eq_true_eq] at hd
        exact ⟨a, rfl, by omega⟩

/-! ### Withdrawals -/

/-- Installing a route that nothing stands in the way of selects it. -/
theorem installRoute_selects {c : Cfg} {s : St} {k : PKey} {n : NeighId} {r : Route} (hr : findRoute s k n = some r)
    (hi : r.installed = false) (hf : routeFeasible s r = true) (hno : findInstalled s k = none)
    (hok : Installable c r) (hk : s.kres 0 ≠ .fail) : Selected (installRoute c s k n) k n := by
  obtain ⟨o1, o2, o3⟩ := hok
  have hadd : (changeAdd c s r (metricToKernel c (routeMetric r))).1 ≠ .fail := by
    unfold changeAdd kernelAdd
    rw [if_neg (by omega), o2, o3]
    simp only [Bool.not_true, Bool.or_self, Bool.false_eq_true, if_false]
    split
    · simp
    · unfold popK
      simp only
      split
      · simp
      · exact hk
  rcases installRoute_cases (c := c) hr hi hf with ⟨h1, -⟩ | ⟨-, h1, -⟩ | ⟨-, -, e⟩
  · rw [hno] at h1; cases h1
  · exact absurd h1 hadd
  · rw [e]
    have hr' : findRoute (changeAdd c s r (metricToKernel c (routeMetric r))).2 k n = some r := by
      unfold findRoute; rw [(konly_changeAdd ..).routes]; exact hr
    obtain ⟨hm, hk, hn⟩ := findInstalled_mem (mark_installed (old := none) hr')
    refine ⟨_, ?_, hk, (findRoute_mem hr).2.2, hn⟩
    have e2 : (notifyRoute (markInstalled (changeAdd c s r (metricToKernel c (routeMetric r))).2 k n none) .change k n).routes =
        (markInstalled (changeAdd c s r (metricToKernel c (routeMetric r))).2 k n none).routes := by
      unfold notifyRoute; split <;> rfl
    rw [e2]
    exact hm

theorem Installable.core {c : Cfg} {r r' : Route} (h : r'.core = r.core) (hi : Installable c r) : Installable c r' := by
  unfold Installable at *
  rw [core_eq h]
  exact hi

theorem Quiet.selected {c : Cfg} {s s' : St} (h : Quiet c s s') {k : PKey} {n : NeighId} (hs : Selected s k n) : Selected s' k n := by
  obtain ⟨r, hr, h1, h2, h3⟩ := hs
  have : r.core ∈ s'.routes.map Route.core := by rw [h.ann.routes]; exact List.mem_map_of_mem hr
  obtain ⟨r', hr', e⟩ := List.mem_map.1 this
  exact ⟨r', hr', (core_key e).trans h1, (core_neigh e).trans h2, (core_installed e).trans h3⟩

theorem Frame.acceptable {s s' : St} (h : Frame s s') {r r' : Route} (e : r'.core = r.core) (fe : Bool) (ex : Option NeighId) :
    routeAcceptable s' r' fe ex = routeAcceptable s r fe ex := by
  unfold routeAcceptable
  rw [h.expired e, h.feasible e, core_neigh e]

/-- The withdrawn destination gets a route if there is a usable one. -/
theorem flushXroute_fallback {c : Cfg} {s : St} (hi : Inv c s []) {x : Xroute} (hx : x ∈ s.xroutes)
    (hno : ∀ r ∈ s.routes, r.key = flushXrouteKey s x → r.installed = false) (hk : ∀ i, s.kres i ≠ .fail)
    (hall : ∀ r ∈ s.routes, r.key = flushXrouteKey s x → Usable s true none r → routeMetric r < INFINITY ∧ Installable c r)
    {r0 : Route} (hr0 : r0 ∈ s.routes) (hk0 : r0.key = flushXrouteKey s x) (hu0 : Usable s true none r0) :
    ∃ n, Selected (flushXroute c s x true) (flushXrouteKey s x) n := by
  have hl := hi.lst
  generalize ek : flushXrouteKey s x = k at *
  let t : St := { emit s (.notifyXroute .flush x) with
    xroutes := (emit s (.notifyXroute .flush x)).xroutes.filter (fun y => !(y.key == x.key)) }
  have hbest := findBest_best c t k true none
  have hfr : Frame t (findBest c t k true none).2 := frame_findBest ..
  obtain ⟨rs, g, hpure, -⟩ := C28_search_is_pure c t k true none
  have h0 : findRoute t k r0.neigh = some r0 := by rw [← hk0]; exact findRoute_of_mem hl hr0
  obtain ⟨r0', h0', e0⟩ := hfr.route h0
  have hacc0 : routeAcceptable t r0 true none = true := (usable_iff ..).2 hu0
  have hacc0' : routeAcceptable (findBest c t k true none).2 r0' true none = true :=
    (hfr.acceptable e0 true none).trans hacc0
  obtain ⟨n, hn, -⟩ := hbest.2 r0.neigh (mem_slot_of_find h0) ⟨r0', h0', hacc0'⟩
  obtain ⟨rb, hrb, hab⟩ := hbest.1 n hn
  obtain ⟨rb0, hrb0, eb⟩ := hfr.route_inv hrb
  have hub : Usable s true none rb0 := by
    exact (usable_iff s true none rb0).1 ((hfr.acceptable eb true none).symm.trans hab)
  obtain ⟨m1, m2, m3⟩ := findRoute_mem hrb0
  obtain ⟨hm, hins⟩ := hall rb0 m1 m2 hub
  have hmb : routeMetric rb < INFINITY := by
    have : routeMetric rb = routeMetric rb0 := by rw [core_eq eb]; rfl
    rw [this]; exact hm
  have hfeas : routeFeasible (findBest c t k true none).2 rb = true := by
    unfold routeAcceptable at hab
    simp at hab
    exact hab.2
  have hsel : Selected (installRoute c (findBest c t k true none).2 k n) k n := by
    refine installRoute_selects hrb ?_ hfeas ?_ (Installable.core eb hins) ?_
    · rw [core_installed eb]; exact hno _ m1 m2
    · apply hfr.installed_none
      cases e : findInstalled t k with
      | none => rfl
      | some r =>
        obtain ⟨a1, a2, a3⟩ := findInstalled_mem e
        rw [hno r a1 a2] at a3; cases a3
    · rw [hpure]; exact hk 0
  have he : flushXroute c s x false = installRoute c (findBest c t k true none).2 k n ∧
      flushXroute c s x true = sendUpdate c (installRoute c (findBest c t k true none).2 k n) false k := by
    unfold flushXroute
    simp only [ek, Bool.false_eq_true, if_false, if_true]
    have e1 : (findBest c t k true none).1.bind (findRoute (findBest c t k true none).2 k) = some rb := by
      rw [hn]; exact hrb
    have hn' := (findRoute_mem hrb).2.2
    constructor
    · show (match (findBest c t k true none).1.bind (findRoute (findBest c t k true none).2 k) with | some r => _ | none => _) = _
      rw [e1]
      simp only
      rw [if_pos ⟨hmb, hfeas⟩, hn']
    · show (match (findBest c t k true none).1.bind (findRoute (findBest c t k true none).2 k) with | some r => _ | none => _) = _
      rw [e1]
      simp only
      rw [if_pos ⟨hmb, hfeas⟩, hn']
  have hl2 : LInv c (installRoute c (findBest c t k true none).2 k n).routes := by
    rw [← he.1]
    exact ((flushXroute_ms c xrAllow [] s x false hx trivial).inv hi).lst
  rw [he.2]
  exact ⟨n, (quiet_sendUpdate hl2 false k).1.selected hsel⟩

/-- C35, partial.  Missing: the hypothesis that the first entry of the table has the same prefix length and
source prefix as the withdrawn route; without it the claim is false (`C35_false`).  When a redistributed route is withdrawn, its
destination is announced on every interface as it now stands; what was announced of the other destinations stays up to date; the
selection of routes to other destinations does not change; and if there are usable routes to the destination, all of them
reachable and admitted by the filters and the kernel, then one of them is selected. -/
theorem C35_partial {c : Cfg} {s : St} (h : Reachable c s) {kr : KRoute} {x : Xroute} (hx : exported s (exportKey c kr) = some x)
    (hm : exportMetric c kr < INFINITY)
    (hfirst : ∀ y, s.xroutes.head? = some y → y.key.plen = x.key.plen ∧ y.key.srcPrefix = x.key.srcPrefix) :
    (∀ i, UpToDate c (step c s (.kernelRoute false kr)) i (exportKey c kr)) ∧
    (∀ i k, k ≠ exportKey c kr → UpToDate c s i k → UpToDate c (step c s (.kernelRoute false kr)) i k) ∧
    (∀ k n, k ≠ exportKey c kr → (Selected (step c s (.kernelRoute false kr)) k n ↔ Selected s k n)) ∧
    ((∀ n, ¬ Selected s (exportKey c kr) n) → (∀ i, s.kres i ≠ .fail) →
      (∃ r ∈ s.routes, r.key = exportKey c kr ∧ Usable s true none r) →
      (∀ r ∈ s.routes, r.key = exportKey c kr → Usable s true none r → routeMetric r < INFINITY ∧ Installable c r) →
      ∃ n, Selected (step c s (.kernelRoute false kr)) (exportKey c kr) n) := by
  obtain ⟨hx1, hx2⟩ := (findXroute_iff h.inv.xr).1 hx
  have ek : flushXrouteKey s x = exportKey c kr := by
    unfold flushXrouteKey
    cases hl : s.xroutes with
    | nil => rw [hl] at hx1; cases hx1
    | cons y l =>
      obtain ⟨e1, e2⟩ := hfirst y (by rw [hl]; rfl)
      simp only [List.headD_cons]
      rw [e1, e2, ← hx2]
  have es : step c s (.kernelRoute false kr) = flushXroute c s x true := by
    show kernelRouteNotify c s false kr = _
    unfold kernelRouteNotify
    rw [redistribute_eq]
    simp only
    rw [exported_eq] at hx
    rw [if_neg (by omega), hx]
    rfl
  rw [es]
  obtain ⟨g1, g2⟩ := flush_told h.inv hx1
  rw [ek] at g1 g2
  refine ⟨g1, fun i k e hu => g2 i k e (by rw [hx2]; exact e) hu, fun k n e => ?_, fun a1 a2 ⟨r0, b1, b2, b3⟩ a4 => ?_⟩
  · obtain ⟨t, o1, o2⟩ := flushXroute_only (c := c) s x
    rw [ek] at o2
    rw [hx2] at o1
    have o := o1.trans o2
    have hl := ((flushXroute_ms c xrAllow [] s x false hx1 trivial).inv h.inv).lst
    have hq : Quiet c (flushXroute c s x false) (flushXroute c s x true) := by
      rcases flushXroute_told (c := c) s x with e | e
      · rw [e]; exact (quiet_sendUpdate hl ..).1
      · rw [e]; exact (quiet_sendUpdateResend hl ..).1
    have aux : ∀ {a b : St}, (slotOf b.routes k).map Route.core = (slotOf a.routes k).map Route.core →
        Selected a k n → Selected b k n := by
      rintro a b e ⟨r, hr, h1, h2, h3⟩
      have : r.core ∈ (slotOf b.routes k).map Route.core := by
        rw [e]
        exact List.mem_map_of_mem (List.mem_filter.2 ⟨hr, by simp [h1]⟩)
      obtain ⟨r', hr', e⟩ := List.mem_map.1 this
      exact ⟨r', (List.mem_filter.1 hr').1, (core_key e).trans h1, (core_neigh e).trans h2, (core_installed e).trans h3⟩
    constructor
    · intro hs
      refine aux (o.slots k e).symm ?_
      obtain ⟨r, hr, h1, h2, h3⟩ := hs
      have : r.core ∈ (flushXroute c s x false).routes.map Route.core := by
        rw [← hq.ann.routes]; exact List.mem_map_of_mem hr
      obtain ⟨r', hr', e⟩ := List.mem_map.1 this
      exact ⟨r', hr', (core_key e).trans h1, (core_neigh e).trans h2, (core_installed e).trans h3⟩
    · intro hs
      exact hq.selected (aux (o.slots k e) hs)
  · rw [← ek]
    refine flushXroute_fallback h.inv hx1 ?_ a2 ?_ b1 (b2.trans ek.symm) b3
    · intro r hr e
      cases hi : r.installed with
      | false => rfl
      | true => exact absurd ⟨r, hr, e.trans ek, rfl, hi⟩ (a1 r.neigh)
    · intro r hr e
      exact a4 r hr (e.trans ek)

/-! ### Examples -/

namespace XDemo
open Demo

/-- 2001:db8::/32 and 2001:db8::/48, in the kernel. -/
def net (l : Nat) : KRoute :=
  ⟨⟨[0x20, 0x01, 0x0d, 0xb8, 0, 0, 0, 0, 0, 0, 0, 0, 0, 0, 0, 0], l, List.replicate 16 0, 0⟩, 100, 10, 3⟩

/-- Both are redistributed and announced, and neighbour 2 announces both as well. -/
def before : St := run cfg start
  [.checkXroutes [net 48, net 32] true, .update (some (rid 9)) (net 32).key 7 150 400 2 (some (ll 2)),
   .update (some (rid 9)) (net 48).key 7 150 400 2 (some (ll 2)), .flushUpdates 10, .flushUpdates 20]

def after48 : St := step cfg before (.kernelRoute false (net 48))

/-- The first is withdrawn. -/
def after32 : St := step cfg before (.kernelRoute false (net 32))

theorem before_reachable : Reachable cfg before := Demo.reachable_run (.init ..) _

end XDemo

/-- Not vacuous: the table after a synchronisation, with a martian route and addresses. -/
example : ((checkKernel Demo.cfg Demo.start 8 [⟨Demo.ll 5, 10⟩, ⟨(Demo.key 5).prefix_, 10⟩]
      [XDemo.net 48, XDemo.net 32, ⟨⟨Demo.ll 0, 10, List.replicate 16 0, 0⟩, 0, 10, 3⟩] true).1.xroutes.map
        (fun x => (x.key.prefix_[5]?, x.key.plen, x.metric, x.proto))) =
      [(some 0, 32, 0, 3), (some 0, 48, 0, 3), (some 5, 128, 0, -2)] := by decide +kernel

/-- A selected route is displaced by a route of the kernel, unless duplicates are allowed. -/
example : (let s := run Demo.cfg Demo.start [.update (some (Demo.rid 9)) (XDemo.net 32).key 7 150 400 2 (some (Demo.ll 2))]
    (s.routes.map (·.installed), exported s (XDemo.net 32).key,
     (step Demo.cfg s (.kernelRoute true (XDemo.net 32))).routes.map (·.installed))) = ([true], none, [false]) ∧
    (let c := { Demo.cfg with allowDup := some 0 }
     let s := run c Demo.start [.update (some (Demo.rid 9)) (XDemo.net 32).key 7 150 400 2 (some (Demo.ll 2))]
     (step c s (.kernelRoute true (XDemo.net 32))).routes.map (·.installed)) = [true] := by decide +kernel

/-- C35 does not hold in general: 2001:db8::/48 is withdrawn while 2001:db8::/32 is still redistributed.  The
withdrawn destination is neither announced on any interface nor about to be, the usable route to it is not selected; instead the
learnt route to the other destination, which is still redistributed, is selected. -/
theorem C35_false : Reachable Demo.cfg XDemo.before ∧
    exported XDemo.before (XDemo.net 48).key ≠ none ∧ exported XDemo.after48 (XDemo.net 48).key = none ∧
    exported XDemo.after48 (XDemo.net 32).key ≠ none ∧
    ¬ UpToDate Demo.cfg XDemo.after48 10 (XDemo.net 48).key ∧
    (∀ n, ¬ Selected XDemo.after48 (XDemo.net 48).key n) ∧
    Selected XDemo.after48 (XDemo.net 32).key 2 ∧ ¬ Selected XDemo.before (XDemo.net 32).key 2 := by
  refine ⟨XDemo.before_reachable, by decide +kernel, by decide +kernel, by decide +kernel, ?_, ?_, ?_, ?_⟩
  · intro h
    have key : ∃ ifp, getIf XDemo.after48 10 = some ifp ∧ ifp.up = true ∧ (XDemo.net 48).key ∉ ifp.queue ∧
        ∃ o, announcement Demo.cfg XDemo.after48 ifp (XDemo.net 48).key = some o ∧
          lastUpdate 10 (XDemo.net 48).key XDemo.after48.out ≠ some o := by
      refine ⟨(getIf XDemo.after48 10).getD default, by decide +kernel, by decide +kernel, by decide +kernel,
        (announcement Demo.cfg XDemo.after48 ((getIf XDemo.after48 10).getD default) (XDemo.net 48).key).getD default,
        by decide +kernel, by decide +kernel⟩
    obtain ⟨ifp, h1, h2, h3, o, h4, h5⟩ := key
    rcases h ifp h1 h2 with h | h
    · exact h3 h
    · exact h5 (h o h4)
  · intro n ⟨r, hr, h1, h2, h3⟩
    have : ∀ r ∈ XDemo.after48.routes, r.key = (XDemo.net 48).key → r.installed = false := by decide +kernel
    rw [this r hr h1] at h3; cases h3
  · have : ∃ r ∈ XDemo.after48.routes, r.key = (XDemo.net 32).key ∧ r.neigh = 2 ∧ r.installed = true := by decide +kernel
    exact this
  · intro ⟨r, hr, h1, h2, h3⟩
    have : ∀ r ∈ XDemo.before.routes, r.installed = false := by decide +kernel
    rw [this r hr] at h3; cases h3

/-- The hypotheses of `C35_partial` are met when the first entry is withdrawn, and then the route through
neighbour 2 is selected and its announcement queued. -/
example : (XDemo.before.xroutes.map (·.key.plen)) = [32, 48] ∧
    (XDemo.after32.routes.map (fun r => (r.key.plen, r.neigh, r.installed))) = [(32, 2, true), (48, 2, false)] ∧
    (XDemo.after32.ifaces.map (fun i => i.queue.map (·.plen))) = [[32], [32]] ∧
    (XDemo.after32.xroutes.map (·.key.plen)) = [48] := by decide +kernel

/-- Notifications: an addition is queued on the two interfaces, a second notification with the same metric is not, and a
martian is ignored. -/
example : ((step Demo.cfg Demo.start (.kernelRoute true (XDemo.net 48))).ifaces.map (fun i => i.queue.map (·.plen))) = [[48], [48]] ∧
    ((run Demo.cfg Demo.start [.kernelRoute true (XDemo.net 48), .flushUpdates 10, .kernelRoute true (XDemo.net 48)]).ifaces.map
      (fun i => i.queue.map (·.plen))) = [[], [48]] ∧
    ((step Demo.cfg Demo.start (.kernelRoute true ⟨⟨Demo.ll 0, 10, List.replicate 16 0, 0⟩, 0, 10, 3⟩)).xroutes) = [] := by
  decide +kernel

end Babel
