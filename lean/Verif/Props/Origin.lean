import Verif.Lemmas.Origin2
import Verif.Props.DNet
/-
C71: routes lead back to where they come from.
-/
set_option linter.unusedVariables false
set_option linter.unusedSectionVars false
namespace Babel
open Spec

variable {Node : Type} [DecidableEq Node]

/-- What a router announces with a finite metric can be traced back to a router that redistributes the destination. -/
theorem C71_announced {N : DNet Node} {X : Node → PKey → Prop} (hN : DNetOk N X) {D : Node → Daemon} (h : DNetAny N X D) {a : Node} {i : IfId}
    {o : Bytes} {k : PKey} {q : UInt16} {m : Nat} (ho : Out.update i o k q m ∈ (D a).st.out) (hm : m < INFINITY) : Traced N D o k q a m := by
  obtain ⟨s0, h⟩ := dnetAny_inv hN h
  exact h.traced m hm ho

/-- And so can the routes in the table of a router that have not been retracted, whether selected or not. -/
theorem C71_routes {N : DNet Node} {X : Node → PKey → Prop} (hN : DNetOk N X) {D : Node → Daemon} (h : DNetAny N X D) {a : Node} {r : Route}
    (hr : r ∈ (D a).st.routes) (hm : r.refmetric < INFINITY) : Traced N D r.id r.key r.seqno (N.peer a r.neigh) r.refmetric := by
  obtain ⟨s0, h⟩ := dnetAny_inv hN h
  obtain ⟨i, hi⟩ := ((h.origin a).routes r hr).told hm
  exact h.traced _ hm hi

/-- At the other end is a router with the router-id of the route, which has announced it with this sequence number. -/
theorem C71_origin {N : DNet Node} {D : Node → Daemon} {o : Bytes} {k : PKey} {q : UInt16} {a : Node} {m : Nat} (h : Traced N D o k q a m) :
    ∃ b i m' x, m' ≤ m ∧ (N.cfg b).node.myid = o ∧ Out.update i o k q m' ∈ (D b).st.out ∧ Out.notifyXroute .add x ∈ (D b).st.out ∧ x.key = k := by
  induction h with
  | own h1 h2 h3 h4 => exact ⟨_, _, _, _, Nat.le_refl _, h2, h1, h3, h4⟩
  | via n h1 h2 h3 ih =>
    obtain ⟨b, i, m', x, h4, h5⟩ := ih
    exact ⟨b, i, m', x, by omega, h5⟩

/-- Nothing fails. -/
theorem C71_runs {N : DNet Node} {X : Node → PKey → Prop} (hN : DNetOk N X) {D : Node → Daemon} (h : DNetAny N X D) {a : Node} {ev : DEv}
    (ha : Delivers N X D a ev) : ∃ d, dstep (N.cfg a) (D a) ev = some d := by
  obtain ⟨s0, h⟩ := dnetAny_inv hN h
  obtain ⟨d, e, _⟩ := onet_step hN h ha
  exact ⟨d, e⟩

/-- The histories of C65 are among those considered here. -/
theorem reachable_any {N : DNet Node} {o : Bytes} {k : PKey} {b : UInt16} {X : Node → PKey → Prop}
    {R : DCfg → Daemon → NeighId → Bytes → Nat → Bytes → Prop} {D : Node → Daemon} (h : DNetReachable N o k b X R D) : DNetAny N X D := by
  induction h with
  | init D h1 h2 h3 => exact .init D h1 h2 h3
  | step a ev d hr hw ha hs ih =>
    refine .step a ev d ih ?_ hs
    cases ev with
    | packet n buf len dst => exact ⟨ha.1, ha.2.1, ha.2.2.imp id fun h => h.1⟩
    | node ev =>
      cases ev with
      | tick t => exact ⟨ha.1, ha.2.1⟩
      | _ => exact ha
    | _ => exact ha

/-- Kernels must accept the requests for this to be true.  A neighbour announces a destination with the sequence number 7, and then retracts it with the
sequence number 8.  The kernel refuses to change the route, and the router keeps it with its old metric but the new sequence number, and announces a
route with a sequence number which nobody has announced. -/
theorem C71_refused : ∃ (s : St) (evs : List Ev), s = St.init ⟨1000, 0⟩ 5 [Demo.iface 10, Demo.iface 20] (fun _ => 96) (fun i => i) (fun i => if i = 0 then .ok else .fail) ∧
    evs = [.update (some (Demo.rid 9)) (Demo.key 1) 7 200 400 1 (some (Demo.ll 1)), .update (some (Demo.rid 9)) (Demo.key 1) 8 INFINITY 400 1 (some (Demo.ll 1)),
      .fullUpdate 20 false, .flushUpdates 20] ∧
    Out.update 20 (Demo.rid 9) (Demo.key 1) 8 296 ∈ (run Demo.cfg s evs).out ∧ Demo.cfg.myid ≠ Demo.rid 9 :=
  ⟨_, _, rfl, rfl, by decide +kernel, by decide⟩

namespace DDemo

/-- The loop of C65: router 1 forwards to router 2, by a route with router-id 9 and metric 192, and router 2 to router 1; router 0 has redistributed the destination. -/
example : ∃ D, DNetAny dnet (fun _ => (· = Demo.key 1)) D ∧ DNetOk dnet (fun _ => (· = Demo.key 1)) ∧
    ∃ r ∈ (D 1).st.routes, r.neigh = 2 ∧ r.installed = true ∧ r.key = Demo.key 1 ∧ r.refmetric < INFINITY := by
  have h : (Three.start.tell false loops).any (fun t => t.d1.st.routes.any fun r => r.neigh == 2 && r.installed && r.key == Demo.key 1 &&
      decide (r.refmetric < INFINITY)) = true := by decide +kernel
  rw [Option.any_eq_true] at h
  obtain ⟨t, h1, h2⟩ := h
  have := tell_reachable loops start_reachable h1
  obtain ⟨r, h3, h4⟩ := List.any_eq_true.1 h2
  simp only [Bool.and_eq_true, beq_iff_eq, decide_eq_true_eq] at h4
  exact ⟨t.get, reachable_any this, dnetOk, r, h3, h4.1.1.1, h4.1.1.2, h4.1.2, h4.2⟩

end DDemo

end Babel
