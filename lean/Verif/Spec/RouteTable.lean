import Verif.Model.RouteTable
import Verif.Spec.Table
/-
Properties of the flat view of the route table: one list of routes; the routes to
one destination, in order, are the sublist with that key.
-/
namespace Babel.Spec

/-- A destination's list has at most one route per neighbour. -/
def OnePerNeigh (l : List Route) : Prop :=
  l.Pairwise (fun a b => ¬ (a.key = b.key ∧ a.neigh = b.neigh))

end Babel.Spec
