import Verif.Spec.Node
/-
What the kernel forwarding table should contain.
-/
namespace Babel.Spec

/-- ::/0 or 0.0.0.0/0. -/
def IsDefault (k : PKey) : Prop := k.plen = 0 ∨ (v4mapped k.prefix_ = true ∧ k.plen = 96)

instance (k : PKey) : Decidable (IsDefault k) := inferInstanceAs (Decidable (_ ∨ _))

/-- The kernel priority of a reachable route: the configured metric, to which the route's metric is
added if metrics are reflected. -/
def priority (c : Cfg) (r : Route) : Nat :=
  if c.reflect then c.kernelMetric + routeMetric r else c.kernelMetric

/-- Too large priorities cannot be expressed and mean unreachable. -/
def Unreachable (c : Cfg) (r : Route) : Prop := INFINITY ≤ routeMetric r ∨ 65535 ≤ priority c r

instance (c : Cfg) (r : Route) : Decidable (Unreachable c r) := inferInstanceAs (Decidable (_ ∨ _))

/-- The table named by the install filter, or else the configured one. -/
def tableOf (c : Cfg) (r : Route) : Nat :=
  let t := (c.installFilter r.id r.key (c.ifOf r.neigh)).2
  if t = 0 then c.exportTable else t

/-- The entry a selected route must have in the kernel: through the neighbour's next hop and
interface, or unreachable; an unreachable default route has no entry. -/
def entry (c : Cfg) (r : Route) : Option KEntry :=
  if Unreachable c r then
    if IsDefault r.key then none else some ⟨tableOf c r, r.key, none⟩
  else some ⟨tableOf c r, r.key, some (r.nexthop, c.ifOf r.neigh, priority c r)⟩

/-- The install filter chooses the kernel table by destination only. -/
def TablePerDestination (c : Cfg) : Prop :=
  ∀ a b : Route, a.key = b.key → tableOf c a = tableOf c b

/-- Updates for IPv6 destinations come with an IPv6 next hop and source prefix. -/
def SaneNexthop : Ev → Prop
  | .update _ k _ _ _ _ (some nh) =>
    (v4mapped k.prefix_ = true ∧ 96 ≤ k.plen) ∨ (v4mapped nh = false ∧ v4mapped k.srcPrefix = false)
  | _ => True

end Babel.Spec
