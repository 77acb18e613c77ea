import Verif.Model.Table
/-
The data structures of source.h, route.h, xroute.h.
-/
namespace Babel

/-- Identity of a `struct neighbour` (its address in C). -/
abbrev NeighId := Nat
/-- Identity of a `struct interface`; we use its ifindex. -/
abbrev IfId := Nat

/-- source.h:25-35 `struct source`.  `time` is in seconds. -/
structure Source where
  skey : SKey
  seqno : UInt16
  metric : Nat
  routeCount : Nat
  time : Int
deriving DecidableEq, Repr, Inhabited

/-- route.h:23-37 `struct babel_route`, without the `next` pointer.  The `src` pointer is
represented by the key (router-id, prefixes) of the source it points to. -/
structure Route where
  id : Bytes
  key : PKey
  refmetric : Nat
  cost : Nat
  addMetric : Nat
  seqno : UInt16
  neigh : NeighId
  nexthop : Bytes
  time : Int
  holdTime : Nat
  smoothed : Nat
  smoothedTime : Int
  installed : Bool
deriving DecidableEq, Repr, Inhabited

/-- The source a route points to. -/
def Route.skey (r : Route) : SKey := ⟨r.id, r.key⟩

/-- route.h:47-52 `route_metric`. -/
def routeMetric (r : Route) : Nat := min (r.refmetric + r.cost + r.addMetric) INFINITY

/-- xroute.h:23-31 `struct xroute`. -/
structure Xroute where
  key : PKey
  metric : Nat
  ifindex : IfId
  proto : Int
deriving DecidableEq, Repr, Inhabited

end Babel
