import Verif.Spec.Update
import Verif.Spec.Kernel
import Verif.Spec.Deny
import Verif.Spec.Queue
/-
Which new routes are taken into use.
-/
namespace Babel.Spec

/-- The route described by an update received from neighbour `n`, when it is new. -/
def received (c : Cfg) (s : St) (id : Bytes) (k : PKey) (q : UInt16) (refm int : Nat) (n : NeighId) (nh : Bytes) : Route :=
  let add := c.inputFilter (some id) k (some n) (c.ifOf n)
  ⟨id, k, refm, s.ncost n, add, q, n, nh, s.now.sec, holdTime int, max (min (refm + s.ncost n + add) INFINITY) 32767, s.now.sec, false⟩

/-- The destination is redistributed, and that forbids the use of other routes: no duplicates are allowed, or the metric is not
below the configured value. -/
def Shadowed (c : Cfg) (s : St) (k : PKey) : Prop :=
  ∃ x, exported s k = some x ∧ ∀ a, c.allowDup = some a → a ≤ x.metric

/-- The kernel can express the route: the next hop and the source prefix are of the family of the destination (an IPv4
destination may have an IPv6 next hop), and source-specific routes are supported. -/
def Expressible (c : Cfg) (k : PKey) (nh : Bytes) : Prop :=
  (if 96 ≤ k.plen ∧ v4mapped k.prefix_ = true then v4mapped k.srcPrefix = true
   else v4mapped nh = false ∧ v4mapped k.srcPrefix = false) ∧
  (k.isSS = true → v4mapped k.prefix_ = false ∧ c.subtrees = true)

/-- The kernel takes the route: it can express it, and either nothing is to be put in the kernel or its next answer is not
an error. -/
def KernelTakes (c : Cfg) (s : St) (r : Route) : Prop :=
  Expressible c r.key r.nexthop ∧ (entry c r = none ∨ s.kres 0 ≠ .fail)

end Babel.Spec
