import Verif.Model.Teardown
/-
References between routes, neighbours, interfaces and pending requests.
-/
namespace Babel.Spec

/-- The states of a daemon started with any interfaces, after any history. -/
inductive WReachable (c : Cfg) : World → Prop
  | init (now q ifs nc rand kres) : WReachable c (World.init now q ifs nc rand kres)
  | step {w} (ev : WEv) : WReachable c w → WReachable c (w.step c ev)

/-- The interface exists. -/
def InTable (w : World) (i : IfId) : Prop := ∃ x ∈ w.st.ifaces, x.ifindex = i

/-- Some route refers to the neighbour. -/
def RouteTo (w : World) (n : NeighId) : Prop := ∃ r ∈ w.st.routes, r.neigh = n

/-- Some known neighbour refers to the interface. -/
def NeighbourOn (c : Cfg) (w : World) (i : IfId) : Prop := ∃ n ∈ w.neighs, c.ifOf n = i

/-- Some pending request refers to the interface. -/
def PendingOn (w : World) (i : IfId) : Prop := ∃ r ∈ w.st.resends, r.ifp = some i

/-- In the history, interfaces are only removed when no neighbour is known on them. -/
def Careful (c : Cfg) : World → List WEv → Prop
  | _, [] => True
  | w, ev :: evs => (∀ i, ev = .remove i → ¬ NeighbourOn c w i) ∧ Careful c (w.step c ev) evs

end Babel.Spec
