import Verif.Spec.Node
/-
What a router announces to the neighbours on an interface.
-/
namespace Babel.Spec

/-- The redistributed route to `k`. -/
def exported (s : St) (k : PKey) : Option Xroute := s.xroutes.find? (fun x => x.key == k)

/-- The selected route to `k`. -/
def selectedRoute (s : St) (k : PKey) : Option Route :=
  s.routes.find? (fun r => r.key == k && r.installed)

/-- The redistributed route to `k`, provided that it takes precedence over the selected route: there is
no selected route, or the metric is not larger than the kernel metric of selected routes. -/
def ownRoute (c : Cfg) (s : St) (k : PKey) : Option Xroute :=
  (exported s k).filter (fun x => (selectedRoute s k).isNone || decide (x.metric ≤ c.kernelMetric))

/-- Split horizon is on for interface `i`, and `r` goes through that interface. -/
def splitHorizon (c : Cfg) (ifp : Iface) (r : Route) : Bool :=
  ifp.splitHorizon && c.ifOf r.neigh == ifp.ifindex

/-- What should be said about `k` on an interface: router-id, sequence number, metric. -/
def news (c : Cfg) (s : St) (ifp : Iface) (k : PKey) : Option (Bytes × UInt16 × Nat) :=
  match ownRoute c s k, selectedRoute s k with
  | some x, _ => some (c.myid, s.myseqno, x.metric)
  | none, some r => if splitHorizon c ifp r then none else some (r.id, r.seqno, routeMetric r)
  | none, none => some (c.myid, s.myseqno, INFINITY)

/-- Announcements that may not be sent on an interface: source-specific ones if it uses the old protocol,
what the output filter denies, IPv4 destinations if it has no IPv4 address and cannot
announce an IPv6 next hop. -/
def Barred (c : Cfg) (ifp : Iface) (id : Bytes) (k : PKey) : Bool :=
  (!isDefault k.srcPrefix k.srcPlen && ifp.rfc6126) ||
  decide (INFINITY ≤ c.outputFilter (some id) k ifp.ifindex) ||
  (decide (96 ≤ k.plen) && v4mapped k.prefix_ && !ifp.hasV4 && !ifp.v4viav6)

/-- The message that should be sent about `k` on an interface, if any; the output filter adds to the
metric. -/
def announcement (c : Cfg) (s : St) (ifp : Iface) (k : PKey) : Option Out :=
  match news c s ifp k with
  | none => none
  | some (id, q, m) =>
    if Barred c ifp id k then none
    else some (.update ifp.ifindex id k q (min (m + c.outputFilter (some id) k ifp.ifindex) INFINITY))

/-- A destination about which there is something to say other than a retraction. -/
def Known (c : Cfg) (s : St) (ifp : Iface) (k : PKey) : Prop :=
  (ownRoute c s k).isSome ∨ ∃ r, selectedRoute s k = some r ∧ splitHorizon c ifp r = false

end Babel.Spec
