import Verif.Spec.Daemon
import Verif.Spec.Net
/-
Networks of daemons that exchange packets.
-/
namespace Babel.Spec

/-- A network: the configuration of every router, and the router at the other end of every entry of its
neighbour table. -/
structure DNet (Node : Type) where
  cfg : Node → DCfg
  peer : Node → NeighId → Node

variable {Node : Type} [DecidableEq Node]

/-- The network, as far as routing is concerned. -/
def DNet.net (N : DNet Node) : Net Node := ⟨fun a => (N.cfg a).node, N.peer⟩

/-- When the updates in the packet are processed, none of them revives a selected route to `k` originated by `o` that
had been retracted, unless it is feasible. -/
def NoneRevived (o : Bytes) (k : PKey) (e : DCfg) (d : Daemon) (n : NeighId) (buf : Bytes) (len : Nat) (dst : Bytes) : Prop :=
  ∀ d1 eff pre id k' q m iv nh post d2, d.accept e n buf len dst = some (d1, eff) →
    eff.items = pre ++ Item.update id k' q m iv nh :: post → d1.items e n pre = some d2 →
    NoRevival o k (fun _ : Unit => d2.st) () (.update id k' (UInt16.ofNat q) m iv n nh)

/-- What is assumed of an event at the router `a`.
* A packet is unsigned, and the interface has a key, or it was sent at some time in the past by the neighbour it is
  received from, on any interface, to everyone or to any neighbour.  Hence packets may be lost, duplicated, delayed, reordered and
  forged.
* A packet that is not unsigned satisfies `R`.
* The clock does not advance so much that the feasibility distance becomes stale.
* The destinations of redistributed routes are in `X a`.
* The receive costs in IHUs are not 0.
* Interfaces without a key may go down if no update has been written to their buffer since it was last flushed. -/
def Arrives (N : DNet Node) (o : Bytes) (k : PKey) (X : Node → PKey → Prop)
    (R : DCfg → Daemon → NeighId → Bytes → Nat → Bytes → Prop) (D : Node → Daemon) (a : Node) : DEv → Prop
  | .packet n buf len dst => 4 ≤ buf.length ∧ len ≤ buf.length ∧ (Unsigned (N.cfg a) n buf len dst ∨
      (∃ i p, p ∈ ((D (N.peer a n)).link i).out ∧ p.2 = buf.take len) ∧ R (N.cfg a) (D a) n buf len dst)
  | .checkNbr _ => True
  | .node (.tick t) => TvOk t ∧ 0 < micros t ∧ ∀ x ∈ (D a).st.sources, x.skey = ⟨o, k⟩ → t.sec - 200 ≤ x.time
  | .node (.kernelRoute _ kr) => X a (redistribute (N.cfg a).node kr).key
  | .node (.checkXroutes krs _) => ∀ kr ∈ krs, X a (redistribute (N.cfg a).node kr).key
  | .node _ => True
  | .say _ _ op => SndOk op ∧ ∀ r i x t, op = .ihu r i x t → 1 ≤ r
  | .down i => ((N.cfg a).ifs i).key = none ∧ (ifUp (D a).st i = true → Unprimed (((D a).link i).bufs 0))
  | .up _ mtu _ _ => mtu ≤ 65536

/-- The states of a network in which the kernels accept all requests, after any history of such events, as long as the
sequence numbers with which `o` announces `k` are in the half of the number space that starts at `b`. -/
inductive DNetReachable (N : DNet Node) (o : Bytes) (k : PKey) (b : UInt16) (X : Node → PKey → Prop)
    (R : DCfg → Daemon → NeighId → Bytes → Nat → Bytes → Prop) : (Node → Daemon) → Prop
  | init (D) : (∀ a, DStart (D a)) → (∀ a n, 1 ≤ (D a).st.ncost n) → (∀ a i, (D a).st.kres i ≠ .fail) → DNetReachable N o k b X R D
  | step {D} (a : Node) (ev : DEv) (d : Daemon) : DNetReachable N o k b X R D →
      (∀ x i q m, Out.update i o k q m ∈ (D x).st.out → (q - b).toNat < 32768) → Arrives N o k X R D a ev →
      dstep (N.cfg a) (D a) ev = some d → DNetReachable N o k b X R (fun x => if x = a then d else D x)

/-- What is assumed of the network: no router is its own neighbour, neighbours have link-local addresses, and the destinations of redistributed routes are
proper, also when those of two routes of a router are mixed. -/
structure DNetOk (N : DNet Node) (X : Node → PKey → Prop) : Prop where
  cfg : ∀ a, DCfgOk (N.cfg a)
  peer : ∀ a n, N.peer a n ≠ a
  addr : ∀ a n, linklocal ((N.cfg a).addr n) = true
  mix : ∀ a x y, X a x → X a y → Proper ⟨x.prefix_, y.plen, y.srcPrefix, x.srcPlen⟩

end Babel.Spec
