import Verif.Model.Sockets
/-
What the sockets should be.
-/
namespace Babel.Spec

/-- The socket for Babel packets: only IPv6; packets do not leave the link, since routers do not forward those with a hop limit of 1; a host does not hear
itself; the destination address of received packets is known; reading and writing do not block; child processes do not get it. -/
structure ProtocolSock (port : Nat) (s : Socket) : Prop where
  kind : s.kind = .udp
  v6 : s.opt .v6only = some 1
  hops : s.opt .unicastHops = some 1 ∧ s.opt .multicastHops = some 1
  self : s.opt .multicastLoop = some 0
  dest : s.opt .recvPktinfo = some 1
  flags : s.nonblock = true ∧ s.cloexec = true
  bound : s.bound = some (.ip6 (List.replicate 16 0) port)

/-- A socket on which clients can connect, at address `a`. -/
structure ServerSock (a : SockAddr) (s : Socket) : Prop where
  flags : s.nonblock = true ∧ s.cloexec = true
  bound : s.bound = some a
  listening : s.listening = true

/-- A socket on which the kernel can be talked to. -/
structure KernelSock (groups : Nat) (s : Socket) : Prop where
  kind : s.kind = .netlink
  nonblock : s.nonblock = true
  bound : s.bound = some (.groups groups)

/-- Descriptors that are in use are not given out again. -/
def FdsOk (o : Os) : Prop := ∀ p ∈ o.socks, p.1 < o.next

/-- A socket with the property `P` has been opened, and nothing else has changed. -/
def Opened (o o' : Os) (P : Socket → Prop) (fd : Nat) : Prop :=
  (∀ p ∈ o.socks, p.1 ≠ fd) ∧ ∃ s, o'.socks = (fd, s) :: o.socks ∧ P s

/-- What is opened for the clients, as configured: nothing, or a socket that only hosts on this machine can reach. -/
def ServerOpened (o o' : Os) (sc : ServerConf) (r : Option Nat) : Prop :=
  match sc with
  | .off => r = none ∧ o'.socks = o.socks ∧ o'.files = o.files
  | .port n => ∃ fd, r = some fd ∧ Opened o o' (ServerSock (.ip6 (List.replicate 15 0 ++ [1]) n)) fd ∧ o'.files = o.files
  | .path p => ∃ fd, r = some fd ∧ Opened o o' (ServerSock (.path p)) fd ∧ o'.files = p :: o.files

/-- After `sendmsg` number `i` it should be tried again. -/
def TryAgain (v : SendEnv) (i : Nat) : Prop := v.outcome i = some .eintr ∨ (v.outcome i = some .eagain ∧ v.ready i = true)

end Babel.Spec
