import Verif.Lemmas.Newer
import Verif.Lemmas.Demo
/-
C61 requests for newer sequence numbers, sent when an unfeasible route is received.
-/
set_option linter.unusedSimpArgs false
set_option linter.unusedVariables false
namespace Babel
open Spec

variable {c : Cfg}

theorem unfeasible_near {s : St} {id : Bytes} {k : PKey} {q : UInt16} {refm : Nat}
    (hf : updateFeasible s (findSource s ⟨id, k⟩) q refm = false) (src : Source) (hs : findSource s ⟨id, k⟩ = some src) :
    (src.seqno - q).toNat < 32768 := by
  have h : ¬ Feasible (findSource s ⟨id, k⟩) s.now.sec (q, refm) := fun h => by
    rw [updateFeasible_iff.2 h] at hf; cases hf
  rw [hs] at h
  unfold Feasible NewerEq at h
  simp only [not_or, Classical.not_and_iff_not_or_not] at h
  obtain ⟨-, -, h, -⟩ := h
  rw [UInt16.toNat_sub] at h ⊢
  have := src.seqno.toNat_lt
  have := q.toNat_lt
  omega

theorem mem_mhs {s : St} {o : Out} : o ∈ mhs s ↔ o ∈ s.out ∧ Spec.Out.IsSeqnoRequest o := by
  unfold mhs
  rw [List.mem_filter, isMh_iff]

theorem Called.request {s : St} {id : Bytes} {k : PKey} {q : UInt16} {m : Nat} {n : NeighId} {o : Out}
    (h : Called c s id k q m n o) : Spec.Out.IsSeqnoRequest o := by
  obtain ⟨src, -, -, -, -, e⟩ := h
  exact ⟨_, _, _, _, _, _, e⟩

/-- C61: the requests for sequence numbers sent when an update for an unknown route is received: none if the route is
feasible; otherwise one exactly if it is called for. -/
theorem C61_new {s : St} (h : Reachable c s) {id : Bytes} {k : PKey} {q : UInt16} {refm int : Nat} {n : NeighId}
    {nh : Bytes} (hi : ¬ Ignored c (some id) k refm n) (hm : refm < INFINITY)
    (hn : ∀ r ∈ s.routes, ¬ (r.key = k ∧ r.neigh = n)) (o : Out) :
    (o ∈ sent c s (.update (some id) k q refm int n (some nh)) ∧ Spec.Out.IsSeqnoRequest o) ↔
      ¬ Feasible (s.sources.find? (·.skey == ⟨id, k⟩)) s.now.sec (q, refm) ∧
      Called c s id k q (min (refm + s.ncost n + c.inputFilter (some id) k (some n) (c.ifOf n)) INFINITY) n o := by
  have hn0 : findRoute { s with out := [] } k n = none := by
    cases e : findRoute { s with out := [] } k n with
    | none => rfl
    | some r =>
      obtain ⟨h1, h2⟩ := findRoute_mem e
      exact absurd h2 (hn r h1)
  obtain ⟨t, ht⟩ : ∃ t, t = { s with out := [] } := ⟨_, rfl⟩
  have hl : LInv c t.routes := by rw [ht]; exact h.inv.lst
  have ht0 : mhs t = [] := by rw [ht]; rfl
  have hcalled : ∀ m, Called c t id k q m n o ↔ Called c s id k q m n o := fun m => by rw [ht]; exact Iff.rfl
  have hfeas : updateFeasible t (findSource t ⟨id, k⟩) q refm = true ↔
      Feasible (s.sources.find? (·.skey == ⟨id, k⟩)) s.now.sec (q, refm) := by
    rw [updateFeasible_iff, ht]; exact Iff.rfl
  have hmet : routeMetric (received c t id k q refm int n nh) =
      min (refm + s.ncost n + c.inputFilter (some id) k (some n) (c.ifOf n)) INFINITY := by rw [ht]; rfl
  show (o ∈ (after c s _).out ∧ _) ↔ _
  rw [← mem_mhs]
  unfold after
  rw [← ht] at hn0 ⊢
  rw [step_new hi hm hn0, ← hfeas, ← hmet, ← hcalled]
  simp only
  have hns : ∀ (u : St) (r : Route), mhs (withNew u r) = mhs u := fun u r => by
    unfold withNew
    rw [hard_mhs (hard_notify ..)]
    rfl
  rw [softs_mhs (soft_consider (w := none) ..), hns]
  cases hf : updateFeasible t (findSource t ⟨id, k⟩) q refm with
  | true =>
    simp only [if_true, not_true, false_and, iff_false]
    rw [hard_mhs (hard_ensure ..), ht0]
    simp
  | false =>
    have hen : ensureSource t ⟨id, k⟩ q = t := by
      unfold ensureSource
      cases e : findSource t ⟨id, k⟩ with
      | some x => rfl
      | none =>
        rw [e] at hf
        have : updateFeasible t none q refm = true := updateFeasible_iff.2 (.inr trivial)
        rw [hf] at this; cases this
    simp only [Bool.false_eq_true, if_false, not_false_eq_true, true_and]
    rw [hen, unfeasible_mhs _ _ _ _ _ _ (unfeasible_near hf), ht0, called_iff hl]
    simp

/-- C61: the same for an update for a known route that is not selected. -/
theorem C61_known {s : St} (h : Reachable c s) {id : Bytes} {q : UInt16} {refm int : Nat} {r : Route} {nh : Option Bytes}
    (hi : ¬ Ignored c (some id) r.key refm r.neigh) (hm : refm < INFINITY) (hr : r ∈ s.routes) (hri : r.installed = false) (o : Out) :
    (o ∈ sent c s (.update (some id) r.key q refm int r.neigh nh) ∧ Spec.Out.IsSeqnoRequest o) ↔
      ¬ Feasible (s.sources.find? (·.skey == ⟨id, r.key⟩)) s.now.sec (q, refm) ∧
      Called c s id r.key q (min (refm + s.ncost r.neigh + c.inputFilter (some id) r.key (some r.neigh) (c.ifOf r.neigh)) INFINITY) r.neigh o := by
  obtain ⟨t, ht⟩ : ∃ t, t = { s with out := [] } := ⟨_, rfl⟩
  have hl : LInv c t.routes := by rw [ht]; exact h.inv.lst
  have hrt : findRoute t r.key r.neigh = some r := findRoute_of_mem hl (by rw [ht]; exact hr)
  have ht0 : mhs t = [] := by rw [ht]; rfl
  have hcalled : ∀ m, Called c t id r.key q m r.neigh o ↔ Called c s id r.key q m r.neigh o := fun m => by rw [ht]; exact Iff.rfl
  have hfeas : updateFeasible t (findSource t ⟨id, r.key⟩) q refm = true ↔
      Feasible (s.sources.find? (·.skey == ⟨id, r.key⟩)) s.now.sec (q, refm) := by
    rw [updateFeasible_iff, ht]; exact Iff.rfl
  have hncost : s.ncost = t.ncost := by rw [ht]
  show (o ∈ (after c s _).out ∧ _) ↔ _
  rw [← mem_mhs]
  unfold after
  rw [← ht, ← hfeas, ← hcalled, hncost]
  show o ∈ mhs (updateRoute c t (some id) r.key q refm int r.neigh nh) ↔ _
  unfold updateRoute
  rw [if_neg (fun h => hi ((refused_iff ..).1 h)), hrt]
  simp only [Option.getD_some]
  generalize c.inputFilter (some id) r.key (some r.neigh) (c.ifOf r.neigh) = add
  -- the source
  obtain ⟨t1, ht1⟩ : ∃ t1, t1 = sourceFor t (some r) ⟨id, r.key⟩ q := ⟨_, rfl⟩
  have hh1 : Hard t t1 := by rw [ht1]; exact hard_sourceFor ..
  have hf1 : updateFeasible t1 (findSource t1 ⟨id, r.key⟩) q refm = updateFeasible t (findSource t ⟨id, r.key⟩) q refm := by
    rw [ht1]; unfold sourceFor
    split
    · rfl
    · exact ensure_feasible _ _ _ hm
  have hr1 : t1.routes = t.routes := by rw [ht1]; exact sourceFor_routes ..
  have hnc1 : t1.ncost = t.ncost := by
    rw [ht1]; unfold sourceFor; split
    · rfl
    · exact (ensure_fields ..).2.2.2.2.2.1
  have hs1 : updateFeasible t (findSource t ⟨id, r.key⟩) q refm = false → t1 = t := by
    intro hf
    rw [ht1]; unfold sourceFor; split
    · rfl
    · unfold ensureSource
      cases e : findSource t ⟨id, r.key⟩ with
      | some x => rfl
      | none =>
        rw [e] at hf
        have : updateFeasible t none q refm = true := updateFeasible_iff.2 (.inr trivial)
        rw [hf] at this; cases this
  rw [← ht1]
  have hrt1 : findRoute t1 r.key r.neigh = some r := by unfold findRoute; rw [hr1]; exact hrt
  unfold updateExisting
  simp only [hri, Bool.and_false, Bool.false_and, Bool.or_false, Bool.false_eq_true, if_false, hf1, hnc1]
  generalize holdTimeOf int = hold
  obtain ⟨s5, hs5⟩ : ∃ s5, s5 = applyUpdate c t1 r.key r.neigh id q refm add hold false := ⟨_, rfl⟩
  have h5 : AtOnly r.key r.neigh t1 s5 := by rw [hs5]; exact atOnly_apply hrt1 hri ..
  have hh5 : Hard t1 s5 := by rw [hs5]; exact hard_apply ..
  rw [← hs5]
  have hmh : mhs s5 = [] := by rw [hard_mhs hh5, hard_mhs hh1, ht0]
  have hrel : ∀ (u : St) (sk : SKey), mhs (releaseSource u sk) = mhs u := fun _ _ => rfl
  rw [hrel]
  obtain ⟨r5, hr5, hi5⟩ := h5.find hrt1
  rw [hri] at hi5
  obtain ⟨r5', hr5', hst⟩ := applyUpdate_stored (c := c) id q refm add hold false hrt1
  rw [← hs5, hr5] at hr5'
  cases hr5'
  have hf5 : routeFeasible s5 r5 = updateFeasible t (findSource t ⟨id, r.key⟩) q refm := by
    unfold routeFeasible
    rw [show r5.skey = ⟨id, r.key⟩ by unfold Route.skey; rw [hst.id, hst.key], hst.seqno, h5.feasible]
    rcases hst.metric with ⟨e, -⟩ | ⟨e, -⟩
    · rw [e, hf1]
    · rw [hri] at e; cases e
  have hch : routeChanged c s5 r.key r.neigh r.skey (routeMetric r) = considerRoute c s5 r.key r.neigh := by
    unfold routeChanged routeChangedBetter
    rw [hr5]
    simp only [hi5, Bool.false_eq_true, if_false, hr5]
  rw [hch]
  cases hf : updateFeasible t (findSource t ⟨id, r.key⟩) q refm with
  | true =>
    simp only [Bool.not_true, Bool.false_eq_true, if_false, not_true, false_and, iff_false]
    rw [softs_mhs (soft_consider (w := none) ..), hmh]
    simp
  | false =>
    rw [considerRoute_unfeasible hr5 (by rw [hf5, hf])]
    have ho : routeOld s5 r5 = false := by
      unfold routeOld
      rw [hst.time, if_pos hm, h5.now]
      simp
      omega
    rw [hs1 hf] at h5 hrt1 hf1
    simp only [Bool.not_false, if_true, hr5, ho, Bool.false_eq_true, not_false_eq_true, true_and]
    rw [unfeasible_mhs, hmh, h5.called hrt1 hri, called_iff hl]
    · simp
    · refine unfeasible_near (refm := refm) ?_
      rw [h5.feasible, hf]

namespace Demo

/-- Neighbour 1's route is selected and announced, so the feasibility distance is (7, 296).  Then neighbour 1's route
expires. -/
def alone : St := run cfg start
  [.update (some (rid 9)) (key 1) 7 200 400 1 (some (ll 1)), .flushUpdates 10, .flushUpdates 20, .tick ⟨1100, 0⟩, .expireRoutes 9]

/-- Neighbour 2 announces the destination with a larger metric: it is asked for sequence number 8, unless the sequence number is
too old.  If neighbour 1's route is still selected, then nobody is asked. -/
example : alone.routes = [] ∧
    (sent cfg alone (.update (some (rid 9)) (key 1) 7 300 400 2 (some (ll 2)))).filter Out.isMh =
      [.mhRequest 20 (some 2) (key 1) 8 (rid 9) 127] ∧
    (sent cfg alone (.update (some (rid 9)) (key 1) 65443 300 400 2 (some (ll 2)))).filter Out.isMh =
      [.mhRequest 20 (some 2) (key 1) 8 (rid 9) 127] ∧
    (sent cfg alone (.update (some (rid 9)) (key 1) 65442 300 400 2 (some (ll 2)))).filter Out.isMh = [] ∧
    (sent cfg alone (.update (some (rid 9)) (key 1) 8 300 400 2 (some (ll 2)))).filter Out.isMh = [] ∧
    (sent cfg (run cfg start (evs ++ [.flushUpdates 20])) (.update (some (rid 9)) (key 1) 7 300 400 3 (some (ll 3)))).filter Out.isMh = [] := by
  decide +kernel

/-- The same for a known route. -/
example : let s := step cfg alone (.update (some (rid 9)) (key 1) 7 300 400 2 (some (ll 2)))
    s.routes.map (·.installed) = [false] ∧
    (sent cfg s (.update (some (rid 9)) (key 1) 7 310 400 2 (some (ll 2)))).filter Out.isMh =
      [.mhRequest 20 (some 2) (key 1) 8 (rid 9) 127] ∧
    (sent cfg s (.update (some (rid 9)) (key 1) 8 310 400 2 (some (ll 2)))).filter Out.isMh = [] := by
  decide +kernel

/-- Neighbour 1's route is selected and announced with metric 296; it is the only route. -/
def only1 : St := run cfg start
  [.update (some (rid 9)) (key 1) 7 200 400 1 (some (ll 1)), .flushUpdates 10, .flushUpdates 20]

/-- Neighbour 1 announces the destination with the same sequence number and metric 300. -/
def worse : Ev := .update (some (rid 9)) (key 1) 7 300 400 1 (some (ll 1))

end Demo

/-- C61: no request is sent when the unfeasible update is for the selected route: the route stays selected, although it is
not feasible. -/
theorem C61_selected_false : ∃ (c : Cfg) (s : St) (id : Bytes) (k : PKey) (q : UInt16) (refm int : Nat) (n : NeighId) (nh : Bytes),
    Reachable c s ∧ Selected s k n ∧ ¬ Feasible (s.sources.find? (·.skey == ⟨id, k⟩)) s.now.sec (q, refm) ∧
    Selected (after c s (.update (some id) k q refm int n (some nh))) k n ∧
    (∀ r ∈ (after c s (.update (some id) k q refm int n (some nh))).routes,
      r.refmetric = refm ∧ ¬ Feasible (s.sources.find? (·.skey == ⟨id, k⟩)) s.now.sec (r.seqno, r.refmetric)) ∧
    ∀ o ∈ sent c s (.update (some id) k q refm int n (some nh)), ¬ Spec.Out.IsSeqnoRequest o := by
  have hnf : ∀ {q refm}, updateFeasible Demo.only1 (findSource Demo.only1 ⟨Demo.rid 9, Demo.key 1⟩) q refm = false →
      ¬ Feasible (Demo.only1.sources.find? (·.skey == ⟨Demo.rid 9, Demo.key 1⟩)) Demo.only1.now.sec (q, refm) := by
    intro q refm h g
    have g' : updateFeasible Demo.only1 (findSource Demo.only1 ⟨Demo.rid 9, Demo.key 1⟩) q refm = true := updateFeasible_iff.2 g
    rw [h] at g'; cases g'
  refine ⟨Demo.cfg, Demo.only1, Demo.rid 9, Demo.key 1, 7, 300, 400, 1, Demo.ll 1, Demo.reachable_run (.init ..) _, ?_, ?_, ?_, ?_, ?_⟩
  · have : ∃ r ∈ Demo.only1.routes, r.key = Demo.key 1 ∧ r.neigh = 1 ∧ r.installed = true := by decide +kernel
    exact this
  · exact hnf (by decide +kernel)
  · have : ∃ r ∈ (after Demo.cfg Demo.only1 Demo.worse).routes, r.key = Demo.key 1 ∧ r.neigh = 1 ∧ r.installed = true := by
      decide +kernel
    exact this
  · intro r hr
    have : ∀ r ∈ (after Demo.cfg Demo.only1 Demo.worse).routes, r.refmetric = 300 ∧ r.seqno = 7 := by decide +kernel
    obtain ⟨h1, h2⟩ := this r hr
    rw [h1, h2]
    exact ⟨rfl, hnf (by decide +kernel)⟩
  · intro o ho h
    have : ∀ o ∈ (sent Demo.cfg Demo.only1 Demo.worse), Out.isMh o = false := by decide +kernel
    have := this o ho
    rw [(isMh_iff o).2 h] at this
    cases this

end Babel
