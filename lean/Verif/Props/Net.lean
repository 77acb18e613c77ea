import Verif.Lemmas.Net3
import Verif.Lemmas.Demo
/-
C29: routing loops.
-/
set_option linter.unusedSimpArgs false
set_option linter.unusedVariables false
namespace Babel
open Spec

/-- There are no routing loops, whatever the number of routers, the links between them, and the loss,
duplication, delay and reordering of updates, provided that no selected route that was retracted is
revived by an unfeasible update.

Missing: without that proviso the property is false of the code (`C29_false`). -/
theorem C29_partial {Node : Type} [DecidableEq Node] {N : Net Node} {o : Bytes} {k : PKey} {b : UInt16}
    {S : Node → St} (h : NetReachable N o k b (NoRevival o k) S) (a : Node) : ¬ Hops N o k S a a := by
  intro hp
  obtain ⟨h1, f, h2, h3⟩ := h.inv.hops hp
  rcases h3 with h3 | ⟨g, h3, h4⟩
  · exact h1 h3
  · rw [h2] at h3; cases h3; omega

namespace Demo

/-- Three routers in a line: 0 — 1 — 2.  Router 1 reaches router 0 as its neighbour 1, on interface 10,
and router 2 as its neighbour 2, on interface 20.  The router-id of router 0 is `rid 9`. -/
def net : Net (Fin 3) where
  cfg a := { cfg with myid := rid (if a = 0 then 9 else if a = 1 then 1 else 2) }
  peer a n := if a = 1 then (if n = 1 then 0 else 2) else 1

def netRun (l : List (Fin 3 × Ev)) : Fin 3 → St := l.foldl (fun S e => net.step S e.1 e.2) (fun _ => start)

/-- Router 0 announces `key 1` to router 1, which announces it to router 2, which announces it back. -/
def spread : List (Fin 3 × Ev) :=
  [(0, .kernelRoute true ⟨key 1, 0, 30, 4⟩), (0, .flushUpdates 10),
   (1, .update (some (rid 9)) (key 1) 5 0 400 1 (some (ll 1))), (1, .flushUpdates 20),
   (2, .update (some (rid 9)) (key 1) 5 96 400 1 (some (ll 1))), (2, .flushUpdates 10),
   (1, .update (some (rid 9)) (key 1) 5 192 400 2 (some (ll 2)))]

/-- Router 2 loses its neighbour for a while, and retracts the route.  Router 1 loses router 0; the
retracted route through router 2 becomes its selected route.  Router 2 receives a duplicate of the
update it had received from router 1, and announces the route again. -/
def loop : List (Fin 3 × Ev) := spread ++
  [(2, .flushNeigh 1), (2, .flushUpdates 10),
   (1, .update (some (rid 9)) (key 1) 5 INFINITY 400 2 (some (ll 2))),
   (1, .flushNeigh 1),
   (2, .update (some (rid 9)) (key 1) 5 96 400 1 (some (ll 1))), (2, .flushUpdates 10),
   (1, .update (some (rid 9)) (key 1) 5 192 400 2 (some (ll 2)))]

/-- The assumptions on the events of these examples, in a form that can be computed. -/
def genuine (S : Fin 3 → St) (a : Fin 3) : Ev → Bool
  | .update _ _ q refm _ n _ => decide ((q - 0).toNat < 32768) &&
      (decide (INFINITY ≤ refm) || (List.any [10, 20] fun i =>
        (S (net.peer a n)).out.contains (Out.update i (rid 9) (key 1) q refm)))
  | .setCost .. | .tick _ => false
  | _ => true

def genuineAll (x : (Fin 3 → St) → Fin 3 → Ev → Bool) (S : Fin 3 → St) : List (Fin 3 × Ev) → Bool
  | [] => true
  | e :: l => genuine S e.1 e.2 && x S e.1 e.2 && genuineAll x (net.step S e.1 e.2) l

/-- No selected route of the router that is to process an event has been retracted. -/
def noneRetracted (S : Fin 3 → St) (a : Fin 3) (_ : Ev) : Bool :=
  (S a).routes.all fun r => !(r.installed && decide (INFINITY ≤ r.refmetric))

theorem noRevival_of {S : Fin 3 → St} {a : Fin 3} {ev : Ev} (h : noneRetracted S a ev = true) :
    NoRevival (rid 9) (key 1) S a ev := by
  cases ev with
  | update id k' q refm i n nh =>
    intro _ _ _ ⟨r, hr, _, _, _, h1, h2⟩
    simp only [noneRetracted, List.all_eq_true] at h
    have := h r hr
    rw [h1, decide_eq_true h2] at this
    simp at this
  | _ => trivial

theorem genuine_of {S : Fin 3 → St} {a : Fin 3} {ev : Ev} (h : genuine S a ev = true) :
    Genuine net (rid 9) (key 1) 0 S a ev := by
  cases ev with
  | update id k' q refm i n nh =>
    intro _ _
    simp only [genuine, Bool.and_eq_true, Bool.or_eq_true, decide_eq_true_eq, List.any_eq_true] at h
    refine ⟨h.1, fun hm => ?_⟩
    rcases h.2 with h2 | ⟨j, _, h2⟩
    · omega
    · exact ⟨j, by simpa using h2⟩
  | tick t => simp [genuine] at h
  | setCost n v => simp [genuine] at h
  | _ => trivial

theorem netReachable_of {X : (Fin 3 → St) → Fin 3 → Ev → Prop} {x : (Fin 3 → St) → Fin 3 → Ev → Bool}
    (hx : ∀ S a ev, x S a ev = true → X S a ev) {S : Fin 3 → St}
    (hS : NetReachable net (rid 9) (key 1) 0 X S) : ∀ (l : List (Fin 3 × Ev)), genuineAll x S l = true →
    NetReachable net (rid 9) (key 1) 0 X (l.foldl (fun S e => net.step S e.1 e.2) S) := by
  intro l
  induction l generalizing S with
  | nil => intro _; exact hS
  | cons e l ih =>
    intro h
    simp only [genuineAll, Bool.and_eq_true] at h
    exact ih (hS.step e.1 e.2 (genuine_of h.1.1) (hx S _ _ h.1.2)) h.2

theorem netStart {X : (Fin 3 → St) → Fin 3 → Ev → Prop} :
    NetReachable net (rid 9) (key 1) 0 X (fun _ => start) :=
  .init (fun _ => ⟨1000, 0⟩) (fun _ => 5) (fun _ => [iface 10, iface 20]) (fun _ _ => 96) (fun _ i => i)
    (fun _ _ => .ok) (fun _ _ => by decide) (fun _ _ => by decide)

def forwards (S : Fin 3 → St) (a d : Fin 3) : Bool :=
  (S a).routes.any fun r => decide (r.key = key 1 ∧ r.id = rid 9 ∧ r.installed = true ∧ routeMetric r < INFINITY ∧
    net.peer a r.neigh = d)

theorem forwards_of {S : Fin 3 → St} {a d : Fin 3} (h : forwards S a d = true) :
    Forwards net (rid 9) (key 1) S a d := by
  simp only [forwards, List.any_eq_true, decide_eq_true_eq] at h
  exact h

end Demo

/-- A network that meets the assumptions of `C29_partial`, in which a packet takes two hops. -/
example : ∃ S, NetReachable Demo.net (Demo.rid 9) (Demo.key 1) 0 (NoRevival (Demo.rid 9) (Demo.key 1)) S ∧
    Hops Demo.net (Demo.rid 9) (Demo.key 1) S 2 0 := by
  refine ⟨Demo.netRun Demo.spread, Demo.netReachable_of (fun _ _ _ => Demo.noRevival_of) Demo.netStart _ ?_,
    .more (d := 1) (Demo.forwards_of ?_) (.one (Demo.forwards_of ?_))⟩
  · decide +kernel
  · decide +kernel
  · decide +kernel

/-- A routing loop. -/
theorem C29_false : ∃ S, NetReachable Demo.net (Demo.rid 9) (Demo.key 1) 0 (fun _ _ _ => True) S ∧
    Hops Demo.net (Demo.rid 9) (Demo.key 1) S 1 1 := by
  refine ⟨Demo.netRun Demo.loop, Demo.netReachable_of (x := fun _ _ _ => true) (fun _ _ _ _ => trivial) Demo.netStart _ ?_,
    .more (d := 2) (Demo.forwards_of ?_) (.one (Demo.forwards_of ?_))⟩
  · decide +kernel
  · decide +kernel
  · decide +kernel

end Babel
