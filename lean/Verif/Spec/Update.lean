import Verif.Spec.Node
/-
What a received update does to the route table, and what expiry and removal do.
-/
namespace Babel.Spec

/-- The same route: same destination, neighbour, next hop, originator, time of the last refresh and
hold time. -/
structure SameRoute (r r' : Route) : Prop where
  key : r'.key = r.key
  neigh : r'.neigh = r.neigh
  nexthop : r'.nexthop = r.nexthop
  id : r'.id = r.id
  time : r'.time = r.time
  hold : r'.holdTime = r.holdTime

/-- From the routes `l`, exactly those satisfying `P` have been removed. -/
structure Removed (P : Route → Prop) (l l' : List Route) : Prop where
  gone : ∀ r' ∈ l', ¬ P r' ∧ ∃ r ∈ l, SameRoute r r'
  kept : ∀ r ∈ l, ¬ P r → ∃ r' ∈ l', SameRoute r r'

/-- The same route with the same metrics and sequence number; it may have been selected or deselected,
and its smoothed metric may have been recomputed. -/
structure SameContent (r r' : Route) : Prop extends SameRoute r r' where
  seqno : r'.seqno = r.seqno
  refmetric : r'.refmetric = r.refmetric
  cost : r'.cost = r.cost
  add : r'.addMetric = r.addMetric

/-- Updates that must be ignored: an update without a router-id that is not a retraction, an update
with our own router-id, a martian destination or source prefix, prefixes of different families, and
what the input filter denies. -/
def Ignored (c : Cfg) (id : Option Bytes) (k : PKey) (refmetric : Nat) (n : NeighId) : Prop :=
  (id = none ∧ refmetric < INFINITY) ∨ id = some c.myid ∨
  martianPrefix k.prefix_ k.plen = true ∨ martianPrefix k.srcPrefix k.srcPlen = true ∨
  v4mapped k.prefix_ ≠ v4mapped k.srcPrefix ∨ INFINITY ≤ c.inputFilter id k (some n) (c.ifOf n)

/-- Hold time in seconds for an update interval in centiseconds: six intervals (the two
terms are rounded down separately), at least 15 s. -/
def holdTime (interval : Nat) : Nat := max (4 * interval / 100 + interval / 50) 15

/-- The fields of a known route `r` after an update. -/
structure Stored (r r' : Route) (now : Int) (id : Bytes) (q : UInt16) (refmetric cost add hold : Nat) :
    Prop where
  id : r'.id = id
  key : r'.key = r.key
  neigh : r'.neigh = r.neigh
  nexthop : r'.nexthop = r.nexthop
  seqno : r'.seqno = q
  time : r'.time = if refmetric < INFINITY then now else r.time
  hold : r'.holdTime = hold
  /-- The metrics are the new ones, unless the route was selected and the kernel refused the
  change. -/
  metric : (r'.refmetric = refmetric ∧ r'.cost = cost ∧ r'.addMetric = add) ∨
    (r.installed = true ∧ r'.refmetric = r.refmetric ∧ r'.cost = r.cost ∧ r'.addMetric = r.addMetric)

end Babel.Spec
