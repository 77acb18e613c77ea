import Verif.Model.Signals
/-
Specification for C83.
-/
namespace Babel

/-- The number of steps of the loop, as opposed to signals, in a history. -/
def Spec.steps (l : List WatchAct) : Nat := l.countP fun a => match a with | .go _ _ => true | .sig _ => false

end Babel
