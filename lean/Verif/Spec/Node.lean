import Verif.Model.Node
import Verif.Spec.Route
/-
Runs of the daemon.
-/
namespace Babel.Spec

/-- The states a daemon with configuration `c` can be in after any history of events, started at any
time with any own sequence number, interfaces, link costs, random numbers and kernel answers.  At any
time the outputs produced so far may be taken away. -/
inductive Reachable (c : Cfg) : St → Prop
  | init (now q ifs nc rand kres) : Reachable c (St.init now q ifs nc rand kres)
  | step {s} (ev : Ev) : Reachable c s → Reachable c (step c s ev)
  | take {s} : Reachable c s → Reachable c { s with out := [] }

/-- The state after an event, when the earlier outputs have been taken away before it. -/
def after (c : Cfg) (s : St) (ev : Ev) : St := step c { s with out := [] } ev

/-- Everything sent while an event is processed. -/
def sent (c : Cfg) (s : St) (ev : Ev) : List Out := (after c s ev).out

/-- Selected: the route is the one in use for its destination. -/
def Selected (s : St) (k : PKey) (n : NeighId) : Prop :=
  ∃ r ∈ s.routes, r.key = k ∧ r.neigh = n ∧ r.installed = true

/-- At all times during the events `evs` from `s`, the entry of the source `k` is fresh. -/
def FreshDuring (c : Cfg) (s : St) (k : SKey) : List Ev → Prop
  | [] => ∀ x, findSource s k = some x → Fresh s x
  | ev :: evs => (∀ x, findSource s k = some x → Fresh s x) ∧ FreshDuring c (step c s ev) k evs

/-- Does not change the clock. -/
def Ev.isTick : Ev → Bool
  | .tick _ => true
  | _ => false

/-- A legitimate demand for a newer sequence number of this router: a seqno request for a
destination this router announces itself, which names this router and a seqno that is newer than the
current one, by at most 100 (or by exactly 2^15, which is an ambiguous comparison). -/
def Demanded (c : Cfg) (s : St) (ev : Ev) : Prop :=
  ∃ n k hop q x, ev = .seqnoRequest n k hop q c.myid ∧ 0 < hop ∧ x ∈ s.xroutes ∧ x.key = k ∧
    ((∀ m, ¬ Selected s k m) ∨ x.metric ≤ c.kernelMetric) ∧
    (0 < (q - s.myseqno).toNat ∧ (q - s.myseqno).toNat ≤ 100 ∨ (q - s.myseqno).toNat = 32768)

end Babel.Spec
