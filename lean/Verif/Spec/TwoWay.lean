import Verif.Spec.Hello
import Verif.Spec.DNet
/-
Histories of a network in which routers exchange hellos and IHUs.
-/
namespace Babel.Spec

variable {Node : Type} [DecidableEq Node]

/-- What is assumed of an event at the router `a`.
* The requests in packets are for proper destinations, and so are the redistributed routes.
* Interfaces neither go down nor come up.
* A packet is unsigned, and the interface has a key, or it was sent at some time in the past by the neighbour it is
  received from, on any interface, to everyone or to any neighbour.  Hence packets may be lost, duplicated, delayed, reordered and
  forged. -/
def Overheard (N : DNet Node) (X : Node → PKey → Prop) (T : Node → Talk) (a : Node) (ev : TEv) : Prop :=
  TEvOk (N.cfg a) (X a) ev ∧ (∀ i, Staying i ev) ∧ ∀ n buf len dst, ev = .ev (.packet n buf len dst) →
    Unsigned (N.cfg a) n buf len dst ∨ ∃ i p, p ∈ ((T (N.peer a n)).d.link i).out ∧ p.2 = buf.take len

/-- The histories of a network: the list of its states, newest first. -/
inductive History (N : DNet Node) (X : Node → PKey → Prop) : List (Node → Talk) → Prop
  | init (T) : (∀ a, DStart (T a).d) → History N X [T]
  | step {T H} (a : Node) (ev : TEv) (t : Talk) : History N X (T :: H) → Overheard N X T a ev →
      tstep (N.cfg a) (T a) ev = some t → History N X ((fun x => if x = a then t else T x) :: T :: H)

/-- The cost, for router `b`, of receiving from its neighbour `m`, which has the state `y`. -/
def receiveCost (N : DNet Node) (T : Node → Talk) (b : Node) (m : NeighId) (y : DNbr) : Nat :=
  rxcost (T b).d.st.now (linkCfgOf (N.cfg b) (T b).d.st ((N.cfg b).node.ifOf m)) y.link

/-- The router `b` has sent a hello, to everyone or (`u`) to one neighbour, that `E` can read. -/
def HasSaidHello (T : Node → Talk) (b : Node) (E : PEnv) (u : Bool) : Prop :=
  ∃ i p q v, p ∈ ((T b).d.link i).out ∧ Item.hello u q v none ∈ heard E p.2

end Babel.Spec
