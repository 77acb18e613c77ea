import Verif.Spec.Request
/-
Changes of a selected route that are worth an update.
-/
namespace Babel.Spec

/-- A request for the destination of the route is pending, and the route answers it: it has another originator
than the one asked for, or a sequence number that is recent enough. -/
def Answers (s : St) (r : Route) : Prop :=
  ∃ q, pending s .request r.key = some q ∧ ¬ Lapsed s.now q ∧ (q.id ≠ r.id ∨ ¬ NewerEq q.seqno r.seqno)

/-- The neighbours must be told at once, since the old metric was `m` and the old source `src`: the source changed,
or the destination is lost, or the route became worse by 512 or more (from less than 1536), or a request is
answered. -/
def Pressing (s : St) (r : Route) (src : SKey) (m : Nat) : Prop :=
  r.skey ≠ src ∨ (m < INFINITY ∧ INFINITY ≤ routeMetric r) ∨ (m < 1536 ∧ m + 512 ≤ routeMetric r) ∨ Answers s r

/-- The neighbours must be told: the change is pressing, or the destination was unreachable and no longer is, or
the route became worse by 384 or more, or better by 1024 or more. -/
def Notable (s : St) (r : Route) (src : SKey) (m : Nat) : Prop :=
  Pressing s r src m ∨ (INFINITY ≤ m ∧ routeMetric r < INFINITY) ∨ m + 384 ≤ routeMetric r ∨ routeMetric r + 1024 ≤ m

/-- If an update about `k` is queued on interface `i`, it will be sent within 157 ms. -/
def SoonSent (s : St) (i : IfId) (k : PKey) : Prop :=
  ∀ ifp, getIf s i = some ifp → ifp.up = true → k ∈ ifp.queue → timevalMinusMsec ifp.updateFlush s.now ≤ 157

end Babel.Spec
