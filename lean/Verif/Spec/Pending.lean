import Verif.Model.Node
import Verif.Spec.Util
/-
Updates that wait to be sent.
-/
namespace Babel.Spec

/-- The clock shows `t` at first, and does not go back. -/
def Forward : Timeval → List Ev → Prop
  | _, [] => True
  | t, .tick u :: l => TvOk u ∧ micros t ≤ micros u ∧ Forward u l
  | t, _ :: l => Forward t l

/-- If updates wait on interface `x`, the interface is up, and the timer at which they are sent is set and at most 6250 ms ahead. -/
def Pending (now : Timeval) (x : Iface) : Prop :=
  x.queue ≠ [] → x.up = true ∧ x.updateFlush.sec ≠ 0 ∧ micros x.updateFlush ≤ micros now + 6250000

end Babel.Spec
