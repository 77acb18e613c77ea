import Verif.Lemmas.Dup
import Verif.Lemmas.Told
import Verif.Lemmas.Fib
import Verif.Lemmas.Outs
import Verif.Lemmas.Net
import Verif.Lemmas.Settle
import Verif.Spec.NewRoute
/-
What an update for an unknown route does.
-/
set_option linter.unusedSimpArgs false
set_option linter.unusedVariables false
set_option linter.unusedSectionVars false
namespace Babel
open Spec

/-- The state when the new route is considered. -/
def withNew (s : St) (r : Route) : St :=
  notifyRoute { retainSource s r.skey with routes := flatInsert (retainSource s r.skey).routes r } .add r.key r.neigh

theorem withNew_routes (s : St) (r : Route) : (withNew s r).routes = s.routes ++ [r] := by
  unfold withNew; rw [notifyRoute_routes]; rfl

theorem withNew_find {s : St} {r : Route} (h : findRoute s r.key r.neigh = none) :
    findRoute (withNew s r) r.key r.neigh = some r := by
  unfold findRoute
  rw [withNew_routes]
  show flatFind (flatInsert s.routes r) _ _ = _
  rw [flatFind_insert h, if_pos ⟨rfl, rfl⟩]

theorem withNew_installed {s : St} {r : Route} (hr : r.installed = false) (k : PKey) :
    findInstalled (withNew s r) k = findInstalled s k := by
  unfold findInstalled
  rw [withNew_routes]
  unfold slotOf
  rw [List.filter_append]
  cases hl : s.routes.filter (fun r => r.key == k) with
  | nil =>
    simp only [List.nil_append]
    by_cases hk : (r.key == k) = true
    · simp [List.filter, hk, hr]
    · simp [List.filter, hk]
  | cons a l => rfl

theorem withNew_source (s : St) (r : Route) (k : SKey) :
    findSource (withNew s r) k = (findSource s k).map (fun x => if x.skey == r.skey then { x with routeCount := x.routeCount + 1 } else x) := by
  unfold withNew findSource
  rw [notifyRoute_sources]
  show ((retainSource s r.skey).sources).find? _ = _
  rw [retain_sources, List.find?_map]
  congr 1
  congr 1
  funext x
  simp only [Function.comp]
  split <;> rfl

theorem withNew_fields (s : St) (r : Route) : (withNew s r).now = s.now ∧ (withNew s r).kres = s.kres ∧
    (withNew s r).xroutes = s.xroutes ∧ (withNew s r).ifaces = s.ifaces ∧ (withNew s r).rand = s.rand := by
  unfold withNew
  rw [notifyRoute_eq]
  exact ⟨rfl, rfl, rfl, rfl, rfl⟩

theorem withNew_feasible (s : St) (r : Route) :
    routeFeasible (withNew s r) r = updateFeasible s (findSource s r.skey) r.seqno r.refmetric := by
  unfold routeFeasible updateFeasible
  rw [withNew_source, (withNew_fields s r).1]
  cases findSource s r.skey with
  | none => rfl
  | some x =>
    simp only [Option.map_some]
    split <;> rfl

theorem updateNew_eq (c : Cfg) (s : St) (k : PKey) (n : NeighId) (id : Bytes) (q : UInt16) (refm add hold : Nat) (nh : Bytes) :
    updateNew c s k n id q refm add hold (some nh) =
      (let s1 := if updateFeasible s (findSource s ⟨id, k⟩) q refm then s
        else sendUnfeasibleRequest c s n false q (min (refm + s.ncost n + add) INFINITY) ⟨id, k⟩
       considerRoute c (withNew s1 (newRoute s1 k n id q refm add hold nh)) k n) := by
  unfold updateNew
  simp only
  cases updateFeasible s (findSource s ⟨id, k⟩) q refm <;> rfl

theorem ensure_fields (s : St) (k : SKey) (q : UInt16) : (ensureSource s k q).now = s.now ∧ (ensureSource s k q).kres = s.kres ∧
    (ensureSource s k q).xroutes = s.xroutes ∧ (ensureSource s k q).ifaces = s.ifaces ∧ (ensureSource s k q).routes = s.routes ∧
    (ensureSource s k q).ncost = s.ncost ∧ (ensureSource s k q).rand = s.rand ∧ (ensureSource s k q).out = s.out := by
  unfold ensureSource; split <;> exact ⟨rfl, rfl, rfl, rfl, rfl, rfl, rfl, rfl⟩

theorem ensure_find (s : St) (k : SKey) (q : UInt16) : findSource (ensureSource s k q) k =
    some ((findSource s k).getD ⟨k, q, INFINITY, 0, s.now.sec⟩) := by
  unfold ensureSource
  cases h : findSource s k with
  | some x => simp [h]
  | none =>
    simp only [Option.getD_none]
    unfold findSource at h ⊢
    simp only [List.find?_append, h, Option.none_or]
    simp [List.find?]

theorem ensure_feasible (s : St) (k : SKey) (q : UInt16) {refm : Nat} (hm : refm < INFINITY) :
    updateFeasible (ensureSource s k q) (findSource (ensureSource s k q) k) q refm = updateFeasible s (findSource s k) q refm := by
  have e : updateFeasible (ensureSource s k q) = updateFeasible s := by
    funext a b d; unfold updateFeasible; rw [(ensure_fields s k q).1]
  rw [e, ensure_find]
  cases h : findSource s k with
  | some x => rfl
  | none =>
    have h1 : updateFeasible s none q refm = true := updateFeasible_iff.2 (.inr trivial)
    have h2 : updateFeasible s (some ⟨k, q, INFINITY, 0, s.now.sec⟩) q refm = true :=
      updateFeasible_iff.2 (.inr (.inr (.inr ⟨rfl, hm⟩)))
    rw [h1]; exact h2

theorem sourceFor_none (s : St) (k : SKey) (q : UInt16) : sourceFor s none k q = ensureSource s k q := by
  unfold sourceFor; simp

theorem newRoute_received (c : Cfg) (s : St) (k : PKey) (n : NeighId) (id : Bytes) (q : UInt16) (refm int : Nat) (nh : Bytes) :
    newRoute s k n id q refm (c.inputFilter (some id) k (some n) (c.ifOf n)) (holdTimeOf int) nh = received c s id k q refm int n nh := rfl

/-- The state after an update for an unknown route. -/
theorem step_new {c : Cfg} {s : St} {id : Bytes} {k : PKey} {q : UInt16} {refm int : Nat} {n : NeighId} {nh : Bytes}
    (hi : ¬ Ignored c (some id) k refm n) (hm : refm < INFINITY) (hn : findRoute s k n = none) :
    step c s (.update (some id) k q refm int n (some nh)) =
      (let s1 := ensureSource s ⟨id, k⟩ q
       let s2 := if updateFeasible s (findSource s ⟨id, k⟩) q refm then s1
        else sendUnfeasibleRequest c s1 n false q (routeMetric (received c s id k q refm int n nh)) ⟨id, k⟩
       considerRoute c (withNew s2 (received c s id k q refm int n nh)) k n) := by
  show updateRoute c s (some id) k q refm int n (some nh) = _
  unfold updateRoute
  rw [if_neg (fun h => hi ((refused_iff ..).1 h)), hn]
  simp only
  rw [if_neg (by omega), sourceFor_none, updateNew_eq, ensure_feasible _ _ _ hm]
  simp only
  have hq : QMs c s (if updateFeasible s (findSource s ⟨id, k⟩) q refm = true then s else s) := by
    split <;> exact .refl s
  have e : ∀ s2, QSame (ensureSource s ⟨id, k⟩ q) s2 →
      newRoute s2 k n id q refm (c.inputFilter (some id) k (some n) (c.ifOf n)) (holdTimeOf int) nh =
        received c s id k q refm int n nh := by
    intro s2 h2
    rw [← newRoute_received]
    obtain ⟨g1, -, -, -, -, g2, -⟩ := ensure_fields s ⟨id, k⟩ q
    unfold newRoute
    rw [h2.ncost, h2.now, g1, g2]
  have e2 : min (refm + (ensureSource s ⟨id, k⟩ q).ncost n + c.inputFilter (some id) k (some n) (c.ifOf n)) INFINITY =
      routeMetric (received c s id k q refm int n nh) := by
    obtain ⟨-, -, -, -, -, g2, -⟩ := ensure_fields s ⟨id, k⟩ q
    rw [g2]; rfl
  rw [e2]
  split
  · rw [e _ (.refl _)]
  · rw [e _ (qms_sendUnfeasible ..).same]

/-- An unfeasible route is not considered. -/
theorem considerRoute_unfeasible {c : Cfg} {s : St} {k : PKey} {n : NeighId} {r : Route} (hr : findRoute s k n = some r)
    (hf : routeFeasible s r = false) : considerRoute c s k n = s := by
  unfold considerRoute
  rw [hr]
  simp [hf]

theorem shadowed_iff (c : Cfg) (s : St) (k : PKey) : xrouteBlocks c s k = true ↔ Shadowed c s k := by
  unfold xrouteBlocks Shadowed
  show (match exported s k with | none => false | some x => _) = true ↔ _
  cases exported s k with
  | none => simp
  | some x =>
    cases c.allowDup with
    | none => simp
    | some a => simp

theorem expressible_iff (c : Cfg) (k : PKey) (nh : Bytes) :
    (familyOk k nh = true ∧ srcUnsupported c k = false) ↔ Expressible c k nh := by
  unfold familyOk srcUnsupported Expressible PKey.isV4
  have h1 : (if (decide (k.plen ≥ 96) && v4mapped k.prefix_) = true then v4mapped k.srcPrefix
      else !(v4mapped nh || v4mapped k.srcPrefix)) = true ↔
      if 96 ≤ k.plen ∧ v4mapped k.prefix_ = true then v4mapped k.srcPrefix = true
      else v4mapped nh = false ∧ v4mapped k.srcPrefix = false := by
    by_cases h : 96 ≤ k.plen ∧ v4mapped k.prefix_ = true
    · rw [if_pos h, if_pos (by simpa using h)]
    · rw [if_neg h, if_neg (by simpa using h)]; simp
  rw [h1]
  refine and_congr_right (fun _ => ?_)
  cases k.isSS <;> simp

theorem kreq_entry (c : Cfg) (r : Route) :
    skippedDefault r.key (metricToKernel c (routeMetric r)) = true ↔ entry c r = none := by
  have h1 : entry c r = none ↔ Unreachable c r ∧ IsDefault r.key := by
    unfold entry
    split
    · split <;> simp_all
    · simp_all
  have h2 : metricToKernel c (routeMetric r) ≥ KERNEL_INFINITY ↔ Unreachable c r := by
    unfold metricToKernel Unreachable priority KERNEL_INFINITY
    have : INFINITY = 65535 := rfl
    by_cases h1 : routeMetric r ≥ INFINITY
    · rw [if_pos h1]; simp [h1]
    · rw [if_neg h1]
      by_cases hc : c.reflect = true
      · rw [if_pos hc, if_pos hc]; omega
      · rw [if_neg hc, if_neg hc]; omega
  rw [h1]
  unfold skippedDefault IsDefault
  rw [Bool.and_eq_true, decide_eq_true_iff, h2]
  simp

theorem changeAdd_takes (c : Cfg) (s : St) (r : Route) :
    (changeAdd c s r (metricToKernel c (routeMetric r))).1 ≠ .fail ↔
      ¬ Denies c r.id r.key (c.ifOf r.neigh) ∧ KernelTakes c s r := by
  unfold changeAdd Denies KernelTakes
  by_cases hd : (c.installFilter r.id r.key (c.ifOf r.neigh)).1 ≥ INFINITY
  · rw [if_pos hd]; simp [hd]
  · rw [if_neg hd, ← expressible_iff, ← kreq_entry]
    simp only [ge_iff_le] at hd
    simp only [hd, not_false_eq_true, true_and]
    unfold kernelAdd
    by_cases h1 : familyOk r.key r.nexthop = true ∧ srcUnsupported c r.key = false
    · rw [if_neg (by simp [h1])]
      by_cases h2 : skippedDefault r.key (metricToKernel c (routeMetric r)) = true
      · rw [if_pos h2]; simp [h1, h2]
      · rw [if_neg h2]
        simp only [h1, h2, and_self, true_and, false_or]
        show (if s.kres 0 = .ok then _ else _ : KRes × St).1 ≠ _ ↔ _
        split
        · next h => simp [h]
        · simp [popK]
    · rw [if_pos (by
        have : ¬ (familyOk r.key r.nexthop = true ∧ srcUnsupported c r.key = false) := h1
        cases h3 : familyOk r.key r.nexthop <;> cases h4 : srcUnsupported c r.key <;> simp_all)]
      simp [h1]

theorem sel_mark {l : List Route} {k : PKey} {n : NeighId} {r : Route} (h : flatFind l k n = some r) :
    Sel (flatMove (flatModify l k n (fun r => { r with installed := true })) k n) k n := by
  have h1 : flatFind (flatModify l k n (fun r => { r with installed := true })) k n = some { r with installed := true } := by
    rw [flatFind_modify _ _ _ _ _ _ (keepsId_installed true), h]; simp
  unfold flatMove
  rw [h1]
  obtain ⟨-, e1, e2⟩ := flatFind_mem h
  exact ⟨_, List.mem_cons_self .., e1, e2, rfl⟩

/-- A feasible route for a destination without selected route. -/
theorem considerRoute_first {c : Cfg} {s : St} {k : PKey} {n : NeighId} {r : Route} (hr : findRoute s k n = some r)
    (hi : r.installed = false) (hf : routeFeasible s r = true) (ho : findInstalled s k = none) :
    Sel (considerRoute c s k n).routes k n ↔ Sel s.routes k n ∨
      (¬ Shadowed c s k ∧ ¬ Denies c r.id r.key (c.ifOf r.neigh) ∧ KernelTakes c s r) := by
  rw [← changeAdd_takes, ← shadowed_iff]
  unfold considerRoute
  rw [hr]
  simp only [hi, hf, Bool.not_true, Bool.false_eq_true, if_false, ho]
  by_cases hb : xrouteBlocks c s k = true
  · rw [if_pos hb]; simp [hb]
  · rw [if_neg hb]
    show Sel (sendUpdate c (installRoute c s k n) true k).routes k n ↔ _
    have hq := (qms_sendUpdate c (installRoute c s k n) true k).same
    have e1 : Sel (sendUpdate c (installRoute c s k n) true k).routes k n ↔ Sel (installRoute c s k n).routes k n :=
      ⟨fun h => h.core hq.routes, fun h => h.core hq.routes.symm⟩
    rw [e1]
    rcases installRoute_cases (c := c) hr hi hf with ⟨h1, -⟩ | ⟨-, h1, e⟩ | ⟨-, h1, e⟩
    · rw [ho] at h1; cases h1
    · rw [e, (konly_changeAdd ..).routes]
      simp [h1]
    · rw [e, notifyRoute_routes]
      constructor
      · intro _; exact .inr ⟨hb, h1⟩
      · intro _
        have : flatFind (changeAdd c s r (metricToKernel c (routeMetric r))).2.routes k n = some r := by
          rw [(konly_changeAdd ..).routes]; exact hr
        exact sel_mark this

theorem changeModify_takes {c : Cfg} {s : St} {o : Route} {nh : Bytes} (hk : ∀ i, s.kres i ≠ .fail)
    (ho : Expressible c o.key o.nexthop) (hr : Expressible c o.key nh) (m : Nat) (i : IfId) (m' : Nat) :
    (changeModify c s o m nh i m').1 = true := by
  obtain ⟨h1, -⟩ := (expressible_iff ..).2 ho
  obtain ⟨h3, h4⟩ := (expressible_iff ..).2 hr
  unfold changeModify kernelModify
  rw [if_neg (by simp [h1])]
  split
  · rfl
  · simp only [decide_eq_true_eq]
    refine kernelAdd_notFail ?_ _ _ _ h3 h4
    intro j
    obtain ⟨j', e⟩ := (ksub_flush c s (routeTable c o) o.key o.nexthop (c.ifOf o.neigh) m).sub j
    rw [e]; exact hk j'

/-- A feasible route for a destination with a selected route. -/
theorem considerRoute_other {c : Cfg} {s : St} {k : PKey} {n : NeighId} {r o : Route} (hr : findRoute s k n = some r)
    (hi : r.installed = false) (hs : ¬ Sel s.routes k n) (hf : routeFeasible s r = true) (ho : findInstalled s k = some o) (hk : ∀ i, s.kres i ≠ .fail)
    (h1 : Expressible c k o.nexthop) (h2 : Expressible c k r.nexthop) :
    Sel (considerRoute c s k n).routes k n ↔ ¬ Shadowed c s k ∧ (shouldSwitch c s r (some o)).1 = true := by
  rw [← shadowed_iff]
  unfold considerRoute
  rw [hr]
  simp only [hi, hf, Bool.not_true, Bool.false_eq_true, if_false, ho]
  by_cases hb : xrouteBlocks c s k = true
  · rw [if_pos hb]; simp [hb, hs]
  · rw [if_neg hb]
    have hfr := frame_shouldSwitch c s r (some o)
    have hn : ∀ l, QMs c s l → ¬ Sel l.routes k n := fun l hl h => hs (h.core hl.same.routes)
    generalize shouldSwitch c s r (some o) = d at hfr
    obtain ⟨b, s1⟩ := d
    simp only at hfr ⊢
    cases b with
    | false =>
      simp only [Bool.false_eq_true, if_false, and_false, iff_false]
      exact fun h => hs (h.core hfr.routes)
    | true =>
      simp only [if_true, hb, Bool.false_eq_true, not_false_eq_true, and_self, iff_true]
      obtain ⟨r1, hr1, e1⟩ := hfr.route hr
      have hf1 : routeFeasible s1 r1 = true := by rw [hfr.feasible e1]; exact hf
      obtain ⟨o1, ho1, eo⟩ := hfr.installed ho
      obtain ⟨-, hok, hoi⟩ := findInstalled_mem ho1
      have hfo := findInstalled_findRoute ho1
      unfold considerInstall
      simp only
      rw [← core_neigh eo]
      have hko : o1.nexthop = o.nexthop := by rw [core_eq eo]
      have hkr : r1.nexthop = r.nexthop := by rw [core_eq e1]
      have hsel : Sel (switchRoutes c s1 k o1.neigh n).routes k n := by
        rcases switchRoutes_cases (c := c) hfo hr1 hf1 with ⟨g, -⟩ | ⟨-, g, -⟩ | ⟨-, -, e⟩
        · rw [hoi] at g; cases g
        · rw [changeModify_takes (by rw [hfr.kres]; exact hk) (by rw [hok, hko]; exact h1) (by rw [hok, hkr]; exact h2)] at g
          cases g
        · rw [e, notifyRoute_routes, notifyRoute_routes]
          have : flatFind (modRoute (changeModify c s1 o1 (metricToKernel c (routeMetric o1)) r1.nexthop (c.ifOf r1.neigh)
              (metricToKernel c (routeMetric r1))).2 k o1.neigh (fun r => { r with installed := false })).routes k n =
              some (if n = o1.neigh then { r1 with installed := false } else r1) := by
            show flatFind (flatModify _ _ _ _) _ _ = _
            rw [flatFind_modify _ _ _ _ _ _ (keepsId_installed false), (konly_changeModify ..).routes]
            rw [show flatFind s1.routes k n = some r1 from hr1]
            by_cases hnn : n = o1.neigh
            · simp only [hnn, true_and, if_true]
              rw [← hnn, show flatFind s1.routes k n = some r1 from hr1]
              rfl
            · simp [hnn]
          exact sel_mark this
      split
      · exact hsel
      · split
        · have hq := (qms_sendTriggered c (switchRoutes c s1 k o1.neigh n) k n o.skey (routeMetric o)).same
          exact hsel.core hq.routes.symm
        · have hq := (qms_sendUpdate c (switchRoutes c s1 k o1.neigh n) true k).same
          exact hsel.core hq.routes.symm

/-- The smoothed metric of a new route. -/
theorem smoothed_new (hl : Nat) (now : Int) (rnd : Nat → Nat) {r : Route} (ht : r.smoothedTime = now)
    (hs : r.smoothed = max (routeMetric r) 32767) : (smoothedMetric hl now rnd r).1 =
      if hl = 0 ∨ 32763 < routeMetric r then routeMetric r else 32767 := by
  unfold smoothedMetric
  simp only
  split
  · next h =>
    by_cases h0 : hl = 0 ∨ 32763 < routeMetric r
    · rw [if_pos h0]
    · rw [if_neg h0]
      have : INFINITY = 65535 := rfl
      simp only
      omega
  · next h =>
    rw [ht, show (now - now).toNat = 0 by omega]
    unfold smoothLoop smoothSnap
    simp only
    by_cases h0 : hl = 0 ∨ 32763 < routeMetric r
    · rw [if_pos h0]
      split <;> omega
    · rw [if_neg h0, if_neg (by omega)]
      omega

theorem shouldSwitch_new {c : Cfg} {s : St} {k : PKey} {n : NeighId} {r o : Route} (hr : findRoute s k n = some r)
    (ho : findRoute s k o.neigh = some o) (hne : o.neigh ≠ n) (ht : r.smoothedTime = s.now.sec) (hs : r.smoothed = max (routeMetric r) 32767) :
    (shouldSwitch c s r (some o)).1 = true ↔ routeMetric r < INFINITY ∧ (INFINITY ≤ routeMetric o ∨ (routeMetric r ≤ routeMetric o ∧
      (if c.halfLife = 0 ∨ 32763 < routeMetric r then routeMetric r else 32767) < (smoothedMetric c.halfLife s.now.sec s.rand o).1)) := by
  obtain ⟨-, hk, hn⟩ := findRoute_mem hr
  unfold shouldSwitch
  simp only
  by_cases h1 : routeMetric r ≥ INFINITY
  · rw [if_pos h1]; simp; omega
  · rw [if_neg h1]
    by_cases h2 : routeMetric o ≥ INFINITY
    · rw [if_pos h2]; simp; omega
    · rw [if_neg h2]
      by_cases h3 : routeMetric o ≥ routeMetric r
      · rw [if_pos h3]
        simp only [decide_eq_true_eq]
        rw [hk, hn, smoothRoute_val ho]
        have hr' : findRoute (smoothRoute c s k o.neigh).2 k n = some r := by
          rw [findRoute_smooth, hr]
          simp [hn]
          intro h; exact absurd h.symm hne
        rw [smoothRoute_val hr', smoothed_new _ _ _ ?_ hs]
        · omega
        · rw [ht]
          unfold smoothRoute
          rw [ho]
          rfl
      · rw [if_neg h3]; simp; omega

end Babel
