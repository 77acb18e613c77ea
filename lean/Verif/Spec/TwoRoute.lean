import Verif.Spec.TwoWay
/-
What makes a router believe that a link works in both directions.
-/
namespace Babel.Spec

variable {Node : Type} [DecidableEq Node]

/-- In the states `H` of the past, the link of router `a` to its neighbour `n`, router `b`, has worked in both directions:
* `b` has sent a hello that `a` can read;
* `b` has had a cost of receiving from `a` that is finite and at most `c`, and before that `a` has sent a hello that `b` can read. -/
def HasWorked (N : DNet Node) (H : List (Node → Talk)) (a b : Node) (n : NeighId) (c : Nat) : Prop :=
  (∃ T ∈ H, ∃ u, HasSaidHello T b (penvOf (N.cfg a) n) u) ∧
  ∃ T H' m y, T :: H' <:+ H ∧ (T b).d.nbr m = some y ∧ N.peer b m = a ∧ receiveCost N T b m y < INFINITY ∧ receiveCost N T b m y ≤ c ∧
    ∃ T' ∈ H', ∃ u, HasSaidHello T' a (penvOf (N.cfg b) m) u

end Babel.Spec
