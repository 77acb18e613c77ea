import Verif.Spec.Node
/-
Networks of daemons that exchange updates.
-/
namespace Babel.Spec

/-- A network: the configuration of every router, and the router at the other end of every entry of
its neighbour table. -/
structure Net (Node : Type) where
  cfg : Node → Cfg
  peer : Node → NeighId → Node

variable {Node : Type} [DecidableEq Node]

/-- The router `a` processes the event `ev`; the others do nothing. -/
def Net.step (N : Net Node) (S : Node → St) (a : Node) (ev : Ev) : Node → St :=
  fun x => if x = a then Babel.step (N.cfg a) (S a) ev else S x

/-- What is assumed of an event at the router `a`, concerning the routes to `k` originated by `o`.
* An update with a finite metric was sent at some time in the past, on some interface, by the
  neighbour it is received from.  Hence updates may be lost, duplicated, delayed and reordered.  Nothing
  is assumed of retractions, of updates about other destinations or originators, nor of requests.
* The sequence numbers are in the half of the number space that starts at `b`.
* Every link costs something.
* The clock does not advance so much that the feasibility distance becomes stale. -/
def Genuine (N : Net Node) (o : Bytes) (k : PKey) (b : UInt16) (S : Node → St) (a : Node) : Ev → Prop
  | .update id k' q refm _ n _ => id = some o → k' = k → (q - b).toNat < 32768 ∧
      (refm < INFINITY → ∃ i, Out.update i o k q refm ∈ (S (N.peer a n)).out)
  | .setCost _ v => 1 ≤ v
  | .tick t => ∀ x ∈ (S a).sources, x.skey = ⟨o, k⟩ → t.sec - 200 ≤ x.time
  | _ => True

/-- No selected route that had been retracted is revived by an unfeasible update from the same
originator. -/
def NoRevival (o : Bytes) (k : PKey) (S : Node → St) (a : Node) : Ev → Prop
  | .update id k' q refm _ n _ => id = some o → k' = k → refm < INFINITY →
      (∃ r ∈ (S a).routes, r.key = k ∧ r.neigh = n ∧ r.id = o ∧ r.installed = true ∧ INFINITY ≤ r.refmetric) →
      Feasible ((S a).sources.find? (·.skey == ⟨o, k⟩)) (S a).now.sec (q, refm)
  | _ => True

/-- The states of a network in which the kernels accept all requests, after any history of genuine
events which satisfy `X`. -/
inductive NetReachable (N : Net Node) (o : Bytes) (k : PKey) (b : UInt16)
    (X : (Node → St) → Node → Ev → Prop) : (Node → St) → Prop
  | init (now : Node → Timeval) (q : Node → UInt16) (ifs : Node → List Iface) (nc : Node → NeighId → Nat)
      (rand : Node → Nat → Nat) (kres : Node → Nat → KRes) : (∀ a n, 1 ≤ nc a n) → (∀ a i, kres a i ≠ .fail) →
      NetReachable N o k b X (fun a => St.init (now a) (q a) (ifs a) (nc a) (rand a) (kres a))
  | step {S} (a : Node) (ev : Ev) : NetReachable N o k b X S → Genuine N o k b S a ev → X S a ev →
      NetReachable N o k b X (N.step S a ev)

/-- The router `a` forwards packets for `k` to the router `d`, by a selected route that was originated
by `o`. -/
def Forwards (N : Net Node) (o : Bytes) (k : PKey) (S : Node → St) (a d : Node) : Prop :=
  ∃ r ∈ (S a).routes, r.key = k ∧ r.id = o ∧ r.installed = true ∧ routeMetric r < INFINITY ∧
    N.peer a r.neigh = d

/-- A packet for `k` at `a` may get to `d`, in one or more hops. -/
inductive Hops (N : Net Node) (o : Bytes) (k : PKey) (S : Node → St) : Node → Node → Prop
  | one {a d} : Forwards N o k S a d → Hops N o k S a d
  | more {a d e} : Forwards N o k S a d → Hops N o k S d e → Hops N o k S a e

end Babel.Spec
