import Verif.Model.Node
/-
A client that has asked for `monitor` is told about every route.  It keeps a table of the routes it has been told about.
-/
namespace Babel.Spec

/-- What a line about a route says, apart from which route (destination and neighbour) it is about. -/
structure RouteLine where
  installed : Bool
  id : Bytes
  metric : Nat
  refmetric : Nat
deriving DecidableEq, Repr

def lineOf (r : Route) : RouteLine := ⟨r.installed, r.id, routeMetric r, r.refmetric⟩

/-- The client's table of routes, and its table of redistributed routes (metrics). -/
structure Picture where
  routes : PKey → NeighId → Option RouteLine
  xroutes : PKey → Option Nat

/-- Before the first line. -/
def Picture.empty : Picture := ⟨fun _ _ => none, fun _ => none⟩

/-- What the client does when it reads a line: the first word is `add`, `change` or `flush`. -/
def Picture.read (p : Picture) : Out → Picture
  | .notifyRoute kind r => { p with routes := fun k n =>
      if k = r.key ∧ n = r.neigh then (if kind = .flush then none else some (lineOf r)) else p.routes k n }
  | .notifyXroute kind x => { p with xroutes := fun k =>
      if k = x.key then (if kind = .flush then none else some x.metric) else p.xroutes k }
  | _ => p

/-- What the client knows after the given lines, the last of them first. -/
def picture : List Out → Picture
  | [] => .empty
  | o :: before => (picture before).read o

/-- The line makes sense to a client that knows `p`: only what is unknown is added, only what is known is changed or removed. -/
def MakesSense (p : Picture) : Out → Prop
  | .notifyRoute kind r => if kind = .add then p.routes r.key r.neigh = none else (p.routes r.key r.neigh).isSome
  | .notifyXroute kind x => if kind = .add then p.xroutes x.key = none else (p.xroutes x.key).isSome
  | _ => True

/-- Every line makes sense after those before it. -/
def AllMakeSense : List Out → Prop
  | [] => True
  | o :: before => MakesSense (picture before) o ∧ AllMakeSense before

/-- The lines that a monitoring client gets. -/
def isLine : Out → Bool
  | .notifyRoute .. => true
  | .notifyXroute .. => true
  | _ => false

/-- What a client is sent at once when it asks for `monitor`, the last line first. -/
def greeting (s : St) : List Out := s.routes.reverse.map (.notifyRoute .add) ++ s.xroutes.reverse.map (.notifyXroute .add)

end Babel.Spec
