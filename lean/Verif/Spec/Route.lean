import Verif.Spec.Util
import Verif.Model.State
/-
Vocabulary for the properties of the routing tables.
-/
namespace Babel.Spec

/-- `a` is a more recent sequence number than `b`: less than half the number space ahead. -/
def Newer (a b : UInt16) : Prop := 0 < (a - b).toNat ∧ (a - b).toNat < 32768

/-- A feasibility distance: sequence number and metric. -/
abbrev Dist := UInt16 × Nat

/-- `d` is a strictly better distance than `e`. -/
def Better (d e : Dist) : Prop := Newer d.1 e.1 ∨ (d.1 = e.1 ∧ d.2 < e.2)

/-- `d` is reached from `e` by a chain of improvements (possibly none).  Since sequence
numbers are compared modulo 2^16, `Better` itself is not transitive. -/
inductive Improves : Dist → Dist → Prop
  | refl (e) : Improves e e
  | step {d d' e} : Improves d e → Better d' d → Improves d' e

/-- When sequence numbers are the low bits of unbounded counters and all improvements stay in a
half-window, improving means the usual order: larger counter, or same counter and smaller or equal
metric. -/
def LeDist (a : Nat × Nat) (b : Nat × Nat) : Prop := b.1 < a.1 ∨ (a.1 = b.1 ∧ a.2 ≤ b.2)

/-- The recorded distance of a source. -/
def distOf (x : Source) : Dist := (x.seqno, x.metric)

/-- The source entry was refreshed during the last 200 seconds. -/
def Fresh (s : St) (x : Source) : Prop := s.now.sec - 200 ≤ x.time

/-- `a` compares as more recent than `b`: at most half the number space ahead.  (At exactly half the
space each number compares as more recent than the other.) -/
def NewerEq (a b : UInt16) : Prop := 0 < (a - b).toNat ∧ (a - b).toNat ≤ 32768

/-- The feasibility condition for a route announced with distance `d` by its source, when `fd` is the
remembered entry of that source: retractions and routes from unknown or stale sources are feasible,
other routes must be strictly better than the feasibility distance. -/
def Feasible (fd : Option Source) (now : Int) (d : Dist) : Prop :=
  INFINITY ≤ d.2 ∨ match fd with
  | none => True
  | some x => x.time < now - 200 ∨ NewerEq d.1 x.seqno ∨ (d.1 = x.seqno ∧ d.2 < x.metric)

/-- What must hold when a route becomes the selected route: it is feasible and, unless it is
unreachable, it has not expired.  If it replaces another route, then it is reachable and the other
route is not, or its metric is not larger and its smoothed metric is smaller. -/
def SelectionOk : Out → Prop
  | .selected r fd now old => Feasible fd now (r.seqno, r.refmetric) ∧
      (routeMetric r < INFINITY → now ≤ r.time + r.holdTime) ∧
      ∀ o, old = some o → routeMetric r < INFINITY ∧ (INFINITY ≤ routeMetric o ∨
        (routeMetric r ≤ routeMetric o ∧ r.smoothed < o.smoothed))
  | _ => True

/-- A candidate for selection: not past its hold time, feasible if that is required, and not through the
excluded neighbour.  (Its metric may be infinite.) -/
def Usable (s : St) (feasible : Bool) (exclude : Option NeighId) (r : Route) : Prop :=
  s.now.sec ≤ r.time + r.holdTime ∧
  (feasible = true → Feasible (s.sources.find? (·.skey == r.skey)) s.now.sec (r.seqno, r.refmetric)) ∧
  exclude ≠ some r.neigh

end Babel.Spec
