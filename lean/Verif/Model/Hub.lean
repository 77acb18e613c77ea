import Verif.Model.Local
/-
Model of the table of connections of the local socket: local.c:422-454, babeld.c:862-910
`accept_local_connections`, and the parts of the main loop that wait for connections and serve them
(babeld.c:621-629, 678-694).  `local_read` with the loop around it is `serve` (Model/Local).
Descriptors are numbers; the kernel gives a number that is not in use.
-/
namespace Babel

/-- local.h:31-33 -/
def MAX_LOCAL_SOCKETS : Nat := 4

/-- local.h:37-42: a connection. -/
structure Client where
  fd : Nat
  sock : Sock
deriving DecidableEq, Repr

/-- `local_sockets`, and the descriptors of connections that are open. -/
structure Hub where
  table : List Client := []
  opened : List Nat := []
deriving DecidableEq, Repr

/-- What happens in `accept_local_connections`: `accept` fails; or there is a connection, and
`fcntl(F_GETFL)`, `fcntl(F_SETFL)` and the writing of the header succeed or not. -/
inductive Accepted
  | fail
  | conn (fd : Nat) (getfl setfl header : Bool)
deriving DecidableEq, Repr

/-- `close` of a connection. -/
def Hub.close (h : Hub) (fd : Nat) : Hub := { h with opened := h.opened.erase fd }

/-- babeld.c:862-910 `accept_local_connections`, local.c:422-433 `local_socket_create`, local.c:393-420
`local_header`. -/
def Hub.accept (h : Hub) : Accepted → Hub
  | .fail => h
  | .conn fd getfl setfl header =>
    let h := { h with opened := fd :: h.opened }
    if h.table.length ≥ MAX_LOCAL_SOCKETS then h.close fd
    else if !getfl then h.close fd
    else if !setfl then h.close fd
    else { h with table := h.table ++ [⟨fd, { shut := !header }⟩] }

/-- local.c:435-449 `local_socket_destroy`. -/
def Hub.destroy (h : Hub) (i : Nat) : Hub :=
  match h.table[i]? with
  | none => h
  | some c =>
    let h := h.close c.fd
    { h with table := (h.table.set i (h.table.getLast?.getD c)).dropLast }

/-- babeld.c:681-694: the loop over the connections from the `i`th on.  `ready` is the result of
`select`; `env` gives the results of `read` and `write` on each descriptor.  `none`: the loop does not end.
The descriptors that are served are recorded. -/
def Hub.read (L : Libc) (ready : Nat → Bool) (env : Nat → List (ReadRes × List Bool)) :
    Nat → Conf → Hub → Nat → Option (Conf × Hub × List Nat)
  | 0, s, h, _ => some (s, h, [])
  | fuel + 1, s, h, i =>
    match h.table[i]? with
    | none => some (s, h, [])
    | some c =>
      if ready c.fd then
        match serve L (env c.fd) s c.sock with
        | none => none
        | some (s, k, keep) =>
          let h := if keep then { h with table := h.table.set i ⟨c.fd, k⟩ } else h.destroy i
          (Hub.read L ready env fuel s h (i + 1)).map fun r => (r.1, r.2.1, c.fd :: r.2.2)
      else Hub.read L ready env fuel s h (i + 1)

/-- What happens in one turn of the main loop: whether there is a new connection and what becomes of
it, which descriptors are readable, and the results of `read` and `write`. -/
structure Round where
  accepted : Option Accepted
  ready : Nat → Bool
  env : Nat → List (ReadRes × List Bool)

/-- babeld.c:621-624: new connections are waited for if there is room for them. -/
def Hub.listens (h : Hub) : Bool := decide (h.table.length < MAX_LOCAL_SOCKETS)

/-- babeld.c:625-628: the descriptors of the connections in the set given to `select`. -/
def Hub.watched (h : Hub) (fd : Nat) : Bool := h.table.any (·.fd == fd)

/-- babeld.c:678-679: a new connection. -/
def Hub.accepts (h : Hub) (r : Round) : Hub :=
  match r.accepted with
  | some a => if h.listens then h.accept a else h
  | none => h

/-- babeld.c:621-629, 678-694: one turn of the main loop.  `select` only returns descriptors it was
given. -/
def Hub.round (L : Libc) (r : Round) (s : Conf) (h : Hub) : Option (Conf × Hub × List Nat) :=
  let h1 := h.accepts r
  Hub.read L (fun fd => r.ready fd && h.watched fd) r.env h1.table.length s h1 0

end Babel
