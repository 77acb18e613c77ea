import Verif.Model.Host
/-
What happens to the settings of the host, apart from the daemon.
-/
namespace Babel.Spec

/-- The settings as they would be without the daemon. -/
def own (val : Ctl → Option Nat) : HostEv → Ctl → Option Nat
  | .host c v => fun x => if x = c then v else val x
  | _ => val

/-- Assumptions about an event, in the state `h`.
* The host has at most 1024 interfaces, with names of at most 15 characters.
* Nobody else changes the four settings of the whole host, or that of an interface the daemon uses; but such an interface may disappear. -/
def FairHost (h : Host) : HostEv → Prop
  | .add name => name.length ≤ 15 ∧ h.ifs.length < 1024
  | .host c v => ∃ name, c = .rp name ∧ ((∃ f ∈ h.ifs, f.name = name ∧ f.up = true) → v = none)
  | _ => True

/-- And about a history. -/
def FairRun (h : Host) : List HostEv → Prop
  | [] => True
  | e :: es => FairHost h e ∧ ∀ h', hostStep false h e = some h' → FairRun h' es

end Babel.Spec
