import Verif.Model.IfParams
/-
What the manual (babeld.man, "Interface configuration") says about the parameters of interfaces.
-/
namespace Babel.Spec

/-- The interface is declared to be wireless; or its type is not declared, and the option `-w` is given or the
kernel says that it is wireless. -/
def Wireless (c : IfConf) (e : IfEnv) : Prop :=
  c.type = IF_TYPE_WIRELESS ∨ c.type = IF_TYPE_DEFAULT ∧ (e.allWireless = true ∨ 0 < e.wireless)

/-- The interface exists and the host could be set up for it. -/
def HostReady (e : IfEnv) : Prop := e.ifindex ≠ 0 ∧ 0 ≤ e.setup

/-- Moreover it has a link-local address, and the multicast group could be joined. -/
def Succeeds (e : IfEnv) : Prop := e.ifindex ≠ 0 ∧ 0 ≤ e.setup ∧ 0 ≤ e.linkLocal ∧ 0 ≤ e.join

/-- The interface is up. -/
def IsUp (i : IfData) : Prop := flagTest i.flags IFB_UP = true

instance (i : IfData) : Decidable (IsUp i) := inferInstanceAs (Decidable (_ = _))
instance (e : IfEnv) : Decidable (Succeeds e) := inferInstanceAs (Decidable (_ ∧ _))
instance (e : IfEnv) : Decidable (HostReady e) := inferInstanceAs (Decidable (_ ∧ _))

end Babel.Spec
