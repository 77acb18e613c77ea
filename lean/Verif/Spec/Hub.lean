import Verif.Model.Hub
/-
Specification for C80: the connections of the local socket.
-/
namespace Babel.Spec

/-- The descriptors of the connections. -/
def Hub.fds (h : Hub) : List Nat := h.table.map (·.fd)

/-- There are at most four connections, with different descriptors, and their descriptors are exactly
the open ones, each open once. -/
structure HubOk (h : Hub) : Prop where
  room : h.table.length ≤ 4
  distinct : (Hub.fds h).Nodup
  opened : h.opened.Perm (Hub.fds h)

/-- The kernel returns a descriptor that is not open. -/
def FreshFd (h : Hub) (r : Round) : Prop :=
  ∀ fd g s w, r.accepted = some (.conn fd g s w) → fd ∉ h.opened

/-- The states that the table of connections can be in. -/
inductive HubReach (L : Libc) : Hub → Prop
  | init : HubReach L {}
  | step {h h' : Hub} {r : Round} {s s' : Conf} {l : List Nat} :
      HubReach L h → FreshFd h r → Hub.round L r s h = some (s', h', l) → HubReach L h'

end Babel.Spec
