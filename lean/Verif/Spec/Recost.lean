import Verif.Spec.Update
/-
What a change of the cost of a link does to the routes through it.
-/
namespace Babel.Spec

/-- The route `r` with the current cost of the link and the current addition of the input filter; unless it was
selected and the kernel refused the change, in which case the metric is the old one. -/
structure Recosted (r r' : Route) (cost add : Nat) : Prop extends SameRoute r r' where
  seqno : r'.seqno = r.seqno
  refmetric : r'.refmetric = r.refmetric
  metric : (r'.cost = cost ∧ r'.addMetric = add) ∨
    (r.installed = true ∧ r'.cost = r.cost ∧ r'.addMetric = r.addMetric)

/-- The route `r`, retracted, with sequence number `q`; unless it was selected and the kernel refused the change, in
which case the metric is the old one. -/
structure Withdrawn (r r' : Route) (q : UInt16) : Prop extends SameRoute r r' where
  seqno : r'.seqno = q
  metric : r'.refmetric = INFINITY ∨
    (r.installed = true ∧ r'.refmetric = r.refmetric ∧ r'.cost = r.cost ∧ r'.addMetric = r.addMetric)

/-- What must happen to a route through a link whose cost has changed: it gets the current cost; if it is past its
hold time it is retracted instead. -/
def Refreshed (c : Cfg) (s : St) (r r' : Route) : Prop :=
  (s.now.sec ≤ r.time + r.holdTime →
    Recosted r r' (s.ncost r.neigh) (c.inputFilter (some r.id) r.key (some r.neigh) (c.ifOf r.neigh))) ∧
  (r.time + r.holdTime < s.now.sec → r.refmetric < INFINITY → ∃ q, Withdrawn r r' q) ∧
  (r.time + r.holdTime < s.now.sec → INFINITY ≤ r.refmetric → SameContent r r')

theorem SameRoute.trans {a b d : Route} (h : SameRoute a b) (g : SameRoute b d) : SameRoute a d :=
  ⟨g.key.trans h.key, g.neigh.trans h.neigh, g.nexthop.trans h.nexthop, g.id.trans h.id, g.time.trans h.time,
   g.hold.trans h.hold⟩

theorem Withdrawn.content {r a b : Route} {q : UInt16} (h : Withdrawn r a q) (g : SameContent a b) : Withdrawn r b q :=
  ⟨h.toSameRoute.trans g.toSameRoute, g.seqno.trans h.seqno, by
    rw [g.refmetric, g.cost, g.add]; exact h.metric⟩

theorem Recosted.content {r a b : Route} {x y : Nat} (h : Recosted r a x y) (g : SameContent a b) : Recosted r b x y :=
  ⟨h.toSameRoute.trans g.toSameRoute, g.seqno.trans h.seqno, g.refmetric.trans h.refmetric, by
    rw [g.cost, g.add]; exact h.metric⟩

end Babel.Spec
