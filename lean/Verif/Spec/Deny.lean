import Verif.Spec.Node
/-
The install filter.
-/
namespace Babel.Spec

/-- The install filter denies the destination `k` announced by the router `id` through the interface
`i`: the metric it yields is infinite. -/
def Denies (c : Cfg) (id : Bytes) (k : PKey) (i : IfId) : Prop := INFINITY ≤ (c.installFilter id k i).1

/-- The install filter denies the route. -/
def Denied (c : Cfg) (r : Route) : Prop := Denies c r.id r.key (c.ifOf r.neigh)

/-- Whether a route is denied depends on its destination only, i.e. no rule of the install filter that
denies mentions a router-id or an interface. -/
def DeniesByDestination (c : Cfg) : Prop :=
  ∀ id id' k i i', Denies c id k i → Denies c id' k i'

end Babel.Spec
