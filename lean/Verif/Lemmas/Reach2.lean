import Verif.Spec.Kernel
import Verif.Lemmas.Reach
import Verif.Lemmas.Fib
/-
The kernel table in runs with an obliging kernel; requests for the node's own routes.
-/
set_option linter.unusedSimpArgs false
set_option linter.unusedVariables false
namespace Babel
open Spec

theorem routeTable_eq (c : Cfg) (r : Route) : routeTable c r = tableOf c r := by
  unfold routeTable tableOf
  simp only
  by_cases h : (c.installFilter r.id r.key (c.ifOf r.neigh)).2 = 0 <;> simp [h]

theorem unreachable_iff (c : Cfg) (r : Route) :
    KERNEL_INFINITY ≤ metricToKernel c (routeMetric r) ↔ Unreachable c r := by
  unfold metricToKernel Unreachable priority KERNEL_INFINITY
  by_cases h1 : INFINITY ≤ routeMetric r
  · simp [h1]
  · rw [if_neg h1]
    split <;> simp only [h1, false_or] <;> omega

theorem priority_eq {c : Cfg} {r : Route} (h : ¬ Unreachable c r) :
    metricToKernel c (routeMetric r) = priority c r := by
  unfold Unreachable priority at h
  unfold metricToKernel priority KERNEL_INFINITY
  rw [if_neg (by omega)]
  split <;> simp_all <;> omega

theorem kentry_entry (c : Cfg) (r : Route) : kentry c r = entry c r := by
  have hu := unreachable_iff c r
  unfold kentry entry skippedDefault kernelEntry
  rw [routeTable_eq]
  simp only
  by_cases h : Unreachable c r
  · have h2 := hu.2 h
    have h3 : decide (metricToKernel c (routeMetric r) ≥ KERNEL_INFINITY) = true := by simpa using h2
    rw [if_pos h, h3, if_neg (show ¬ metricToKernel c (routeMetric r) < KERNEL_INFINITY by omega)]
    by_cases hd : IsDefault r.key
    · rw [if_pos hd, if_pos (by unfold IsDefault at hd; simpa using hd)]
    · rw [if_neg hd, if_neg (by unfold IsDefault at hd; simpa using hd)]
  · have h2 := mt hu.1 h
    have h3 : decide (metricToKernel c (routeMetric r) ≥ KERNEL_INFINITY) = false := by simpa using h2
    rw [if_neg h, h3, if_pos (show metricToKernel c (routeMetric r) < KERNEL_INFINITY by omega),
      priority_eq h]
    simp

theorem tableByKey_of {c : Cfg} (h : TablePerDestination c) : TableByKey c := by
  intro a b hab
  rw [routeTable_eq, routeTable_eq]; exact h a b hab

theorem fib_run {c : Cfg} (ht : TablePerDestination c) (now : Timeval) (q : UInt16) (ifs : List Iface)
    (nc : NeighId → Nat) (rnd : Nat → Nat) (evs : List Ev) (hg : ∀ ev ∈ evs, SaneNexthop ev) :
    FibInv c (run c (St.init now q ifs nc rnd (fun _ => .ok)) evs) := by
  have h0 : FibInv c (St.init now q ifs nc rnd (fun _ => .ok)) :=
    ⟨fun _ => rfl, by simp [St.init], by simp [St.init], by simp [St.init, wantOf, selOf]⟩
  have hi := Inv.init c now q ifs nc rnd (fun _ => .ok)
  generalize St.init now q ifs nc rnd (fun _ => .ok) = s at h0 hi
  unfold run
  induction evs generalizing s with
  | nil => exact h0
  | cons ev evs ih =>
    refine ih (fun e he => hg e (List.mem_cons_of_mem _ he)) _ ?_ (hi.step ev)
    refine (run_ms c hi ev).fib (tableByKey_of ht) ?_ hi h0
    have hs := hg ev (List.mem_cons_self ..)
    intro k g hk ha
    cases ev with
    | update id k' q' refm i n nh =>
      obtain ⟨rfl, rfl⟩ := ha
      unfold familyOk PKey.isV4
      obtain ⟨-, -, h3⟩ := hk
      rcases hs with ⟨h1, h2⟩ | ⟨h1, h2⟩
      · simp [← h3, h1, h2]
      · simp [h1, h2, h3]
    | _ => exact ha.elim

theorem preferred_iff {c : Cfg} {s : St} (h : Inv c s []) {k : PKey} {x : Xroute} :
    preferredXroute c s k = some x ↔ x ∈ s.xroutes ∧ x.key = k ∧
      ((∀ m, ¬ Selected s k m) ∨ x.metric ≤ c.kernelMetric) := by
  have hsel : findInstalled s k = none ↔ ∀ m, ¬ Selected s k m := by
    constructor
    · rintro e m ⟨r, h1, h2, h3, h4⟩
      rw [(findInstalled_iff h.lst).2 ⟨h1, h2, h4⟩] at e; simp at e
    · intro hm
      cases e : findInstalled s k with
      | none => rfl
      | some r =>
        have := (findInstalled_iff h.lst).1 e
        exact absurd ⟨r, this.1, this.2.1, rfl, this.2.2⟩ (hm r.neigh)
  unfold preferredXroute
  constructor
  · intro e
    split at e
    · simp at e
    · next y hy =>
      split at e
      · next hc =>
        cases e
        have := (findXroute_iff h.xr).1 hy
        exact ⟨this.1, this.2, by rw [← hsel]; exact hc⟩
      · simp at e
  · rintro ⟨h1, h2, h3⟩
    rw [(findXroute_iff h.xr).2 ⟨h1, h2⟩]
    simp only
    rw [if_pos (by rw [hsel]; exact h3)]

theorem seqno_demand (a b : UInt16) : (seqnoCompare a b > 0 ∧ ¬ seqnoMinus a b > 100) ↔
    (0 < (a - b).toNat ∧ (a - b).toNat ≤ 100 ∨ (a - b).toNat = 32768) := by
  rw [seqnoCompare_pos]
  unfold NewerEq seqnoMinus toShort
  have := (a - b).toNat_lt
  split <;> omega

theorem handleRequest_quiet (c : Cfg) (s : St) (n : NeighId) (k : PKey) (hop : Nat)
    (q : UInt16) (id : Bytes) (h : preferredXroute c s k = none) :
    Ms c {} s [] (handleRequest c s n k hop q id) [] := by
  unfold handleRequest
  rw [h]
  exact handleRequest_other ..

end Babel
