import Verif.Spec.Node
import Verif.Spec.Queue
/-
Requests for a newer sequence number.
-/
namespace Babel.Spec

/-- The request `o` is called for by an unfeasible update with sequence number `q` from neighbour `n` that yields a route to
`k` of the given metric: the sequence number in the table is at most 100 ahead of the one received, and
any selected route is worse by at least 512.  The neighbour is asked for the sequence number that makes its route
feasible. -/
def Called (c : Cfg) (s : St) (id : Bytes) (k : PKey) (q : UInt16) (metric : Nat) (n : NeighId) (o : Out) : Prop :=
  ∃ src, s.sources.find? (·.skey == ⟨id, k⟩) = some src ∧ (src.seqno - q).toNat ≤ 100 ∧
    (∀ x ∈ s.routes, x.key = k → x.installed = true → metric + 512 ≤ routeMetric x) ∧
    (∀ ifp, getIf s (c.ifOf n) = some ifp → (k.isSS && ifp.rfc6126) = false) ∧
    o = .mhRequest (c.ifOf n) (some n) k (if src.metric ≥ 65535 then src.seqno else src.seqno + 1) id 127

/-- A request for a sequence number. -/
def Out.IsSeqnoRequest (o : Out) : Prop := ∃ i to k q id hop, o = .mhRequest i to k q id hop

end Babel.Spec
