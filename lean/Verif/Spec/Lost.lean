import Verif.Spec.Told
/-
Whether a destination can be reached, and whether the neighbours have been told otherwise.
-/
namespace Babel.Spec

/-- The router that originates the route in use to `k`; `none` if `k` cannot be reached. -/
def origin (s : St) (k : PKey) : Option Bytes :=
  match selectedRoute s k with
  | some r => if routeMetric r < INFINITY then some r.id else none
  | none => none

/-- The originator given in an update; `none` for a retraction. -/
def originOf : Out → Option Bytes
  | .update _ id _ _ m => if m < INFINITY then some id else none
  | _ => none

/-- What the neighbours on interface `i` have last been told about `k`: the originator of the route, or `none`
if it was retracted or never announced. -/
def advertised (i : IfId) (k : PKey) (out : List Out) : Option Bytes := (lastUpdate i k out).bind originOf

/-- `k` can be announced on the interface: nothing about it is barred, and if split horizon is on then there is
no route to `k` through the interface itself. -/
structure Announceable (c : Cfg) (s : St) (i : IfId) (k : PKey) : Prop where
  free : ∀ ifp, getIf s i = some ifp → ∀ id, Barred c ifp id k = false
  horizon : ∀ ifp, getIf s i = some ifp → ifp.splitHorizon = true → ∀ r ∈ s.routes, r.key = k → c.ifOf r.neigh ≠ i

/-- Events that concern redistribution, shutdown, and activation of interface `i`. -/
def Ev.outOfScope (i : IfId) : Ev → Prop
  | .kernelRoute .. => True
  | .checkXroutes .. => True
  | .flushAll => True
  | .ifUp j _ => j = i
  | _ => False

/-- An update about `k` by a neighbour on interface `i`. -/
def Ev.heardOn (c : Cfg) (i : IfId) (k : PKey) : Ev → Prop
  | .update _ k' _ _ _ n _ => k' = k ∧ c.ifOf n = i
  | _ => False

end Babel.Spec
