import Verif.Spec.DNet
/-
Where the routes in a network of daemons come from.
-/
namespace Babel.Spec

variable {Node : Type} [DecidableEq Node]

/-- What is assumed of an event at the router `a`.
* A packet is unsigned, and the interface has a key, or it was sent at some time in the past by the neighbour it is
  received from, on any interface, to everyone or to any neighbour.  Hence packets may be lost, duplicated, delayed, reordered and
  forged.
* The clock is well formed.
* The destinations of redistributed routes are in `X a`.
* The receive costs in IHUs are not 0.
* Interfaces without a key may go down if no update has been written to their buffer since it was last flushed. -/
def Delivers (N : DNet Node) (X : Node → PKey → Prop) (D : Node → Daemon) (a : Node) : DEv → Prop
  | .packet n buf len dst => 4 ≤ buf.length ∧ len ≤ buf.length ∧ (Unsigned (N.cfg a) n buf len dst ∨
      ∃ i p, p ∈ ((D (N.peer a n)).link i).out ∧ p.2 = buf.take len)
  | .checkNbr _ => True
  | .node (.tick t) => TvOk t ∧ 0 < micros t
  | .node (.kernelRoute _ kr) => X a (redistribute (N.cfg a).node kr).key
  | .node (.checkXroutes krs _) => ∀ kr ∈ krs, X a (redistribute (N.cfg a).node kr).key
  | .node _ => True
  | .say _ _ op => SndOk op ∧ ∀ r i x t, op = .ihu r i x t → 1 ≤ r
  | .down i => ((N.cfg a).ifs i).key = none ∧ (ifUp (D a).st i = true → Unprimed (((D a).link i).bufs 0))
  | .up _ mtu _ _ => mtu ≤ 65536

/-- The states of a network in which the kernels accept all requests, after any history of such events. -/
inductive DNetAny (N : DNet Node) (X : Node → PKey → Prop) : (Node → Daemon) → Prop
  | init (D) : (∀ a, DStart (D a)) → (∀ a n, 1 ≤ (D a).st.ncost n) → (∀ a i, (D a).st.kres i ≠ .fail) → DNetAny N X D
  | step {D} (a : Node) (ev : DEv) (d : Daemon) : DNetAny N X D → Delivers N X D a ev →
      dstep (N.cfg a) (D a) ev = some d → DNetAny N X (fun x => if x = a then d else D x)

/-- The router `a` has announced the destination `k`, with the router-id `o`, the sequence number `q` and the metric `m`, and
* it is the router with this router-id, and has told its local clients that it redistributes `k`; or
* a neighbour has announced it with a smaller metric, and so on. -/
inductive Traced (N : DNet Node) (D : Node → Daemon) (o : Bytes) (k : PKey) (q : UInt16) : Node → Nat → Prop
  | own {a i m x} : Out.update i o k q m ∈ (D a).st.out → (N.cfg a).node.myid = o →
      Out.notifyXroute .add x ∈ (D a).st.out → x.key = k → Traced N D o k q a m
  | via {a i m m'} (n : NeighId) : Out.update i o k q m ∈ (D a).st.out → Traced N D o k q (N.peer a n) m' → m' < m →
      Traced N D o k q a m

end Babel.Spec
