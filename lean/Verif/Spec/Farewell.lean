import Verif.Model.Farewell
import Verif.Spec.Buffer
/-
What the daemon says when it exits.
-/
namespace Babel.Spec

/-- The interface can sign packets, and its values fit in the types of the C arguments. -/
def LastOk (a tf : Bool) (x : LastIf) : Prop :=
  x.c.key.isSome = a ∧ x.c.timestamps = tf ∧ Signs x.c ∧ (∀ i, x.c.ipv4 = some i → i.length = 4) ∧
  x.myseqno < 65536 ∧ x.helloSeqno < 65536 ∧
  ∀ u ∈ x.queue, u.1.length = 8 ∧ KeyOk u.2.1 ∧ u.2.2.1 < 65536 ∧ u.2.2.2 < 65536

/-- What a receiver learns from the updates that were waiting in the queue. -/
def queued (e : PEnv) (x : LastIf) : List Item :=
  x.queue.flatMap fun u => told e x.c false (.update u.1 u.2.1 u.2.2.1 u.2.2.2)

end Babel.Spec
