import Verif.Model.Node
/-
The queues of updates.
-/
namespace Babel.Spec

/-- On every interface the number of queued updates is at most the size of the array that holds them.  This size is zero if there is no
array, which is so if nothing is queued. -/
def Room (s : St) : Prop := ∀ i x, getIf s i = some x → x.queue.length ≤ x.queueCap ∧ (x.queue = [] → x.queueCap = 0)

/-- The destinations in use, in the order of the table. -/
def inUse (s : St) : List PKey := (s.routes.filter (·.installed)).map (·.key)

end Babel.Spec
