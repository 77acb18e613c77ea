import Verif.Model.Util
/-
Model of net.c, of `netlink_socket` and `kernel_setup_socket` (kernel_netlink.c), and of the use of the sockets in babeld.c.

The operating system is free to fail any call.  Simplifications: `close` does not fail; `inet_pton` of "::1" succeeds; the flags
returned by `F_GETFL` and `F_GETFD` are those of the socket, so that setting one flag keeps the other ones; the numbers of descriptors are not
used again.
-/
namespace Babel

inductive SysErr
  | eintr | eagain | edestaddrreq | eaddrinuse
  | other (n : Nat)
deriving DecidableEq, Repr

/-! ### Setting up sockets -/

inductive SockKind
  | udp | tcp | unixStream | netlink
deriving DecidableEq, Repr

/-- Options of sockets. -/
inductive SockOpt
  | v6only | reuseaddr | multicastLoop | unicastHops | multicastHops | tclass | recvPktinfo
  | rcvbufForce | rcvbuf | extAck | strictChk
deriving DecidableEq, Repr

inductive SockAddr
  /-- address and port -/
  | ip6 (addr : Bytes) (port : Nat)
  | path (p : Bytes)
  /-- multicast groups -/
  | groups (g : Nat)
deriving DecidableEq, Repr

structure Socket where
  kind : SockKind
  opt : SockOpt → Option Nat := fun _ => none
  nonblock : Bool := false
  cloexec : Bool := false
  bound : Option SockAddr := none
  listening : Bool := false

/-- The process and the system: open sockets, files of sockets, the outcomes of future calls (`none` is success) and `errno`. -/
structure Os where
  socks : List (Nat × Socket)
  files : List Bytes
  fate : Nat → Option SysErr
  /-- The descriptor the next `socket` will return. -/
  next : Nat
  errno : Option SysErr := none

/-- The calls made on a socket. -/
inductive Call
  | setopt (o : SockOpt) (v : Nat)
  | getfl | setNonblock | getfd | setCloexec
  | bind (a : SockAddr)
  | listen
  | getsockname

/-- What a successful call does to the socket. -/
def Call.apply (c : Call) (s : Socket) : Socket :=
  match c with
  | .setopt o v => { s with opt := fun x => if x = o then some v else s.opt x }
  | .setNonblock => { s with nonblock := true }
  | .setCloexec => { s with cloexec := true }
  | .bind a => { s with bound := some a }
  | .listen => { s with listening := true }
  | .getfl | .getfd | .getsockname => s

/-- Binding to a path creates a file, and fails if there is one already. -/
def Call.file : Call → Option Bytes
  | .bind (.path p) => some p
  | _ => none

def Os.pop (o : Os) : Option SysErr × Os := (o.fate 0, { o with fate := fun i => o.fate (i + 1) })

def Os.setSock (o : Os) (fd : Nat) (f : Socket → Socket) : Os :=
  { o with socks := o.socks.map fun p => if p.1 = fd then (p.1, f p.2) else p }

/-- One call on a socket; `true` if it succeeds. -/
def Os.call (o : Os) (fd : Nat) (c : Call) : Bool × Os :=
  match o.pop with
  | (some e, o) => (false, { o with errno := some e })
  | (none, o) =>
    match c.file with
    | none => (true, o.setSock fd c.apply)
    | some p =>
      if p ∈ o.files then (false, { o with errno := some .eaddrinuse })
      else (true, { o.setSock fd c.apply with files := p :: o.files })

/-- `socket`. -/
def Os.socket (o : Os) (k : SockKind) : Option Nat × Os :=
  match o.pop with
  | (some e, o) => (none, { o with errno := some e })
  | (none, o) => (some o.next, { o with socks := (o.next, { kind := k }) :: o.socks, next := o.next + 1 })

/-- `close`. -/
def Os.close (o : Os) (fd : Nat) : Os := { o with socks := o.socks.filter fun p => p.1 ≠ fd }

/-- A sequence of calls, each with a flag telling whether its failure is fatal (`if(rc < 0) goto fail`). -/
def Os.calls (o : Os) (fd : Nat) : List (Call × Bool) → Bool × Os
  | [] => (true, o)
  | (c, fatal) :: l =>
    match o.call fd c with
    | (true, o) => o.calls fd l
    | (false, o) => if fatal then (false, o) else o.calls fd l

/-- A socket set up by the given calls; on failure it is closed (net.c:122-126). -/
def Os.make (o : Os) (k : SockKind) (l : List (Call × Bool)) : Option Nat × Os :=
  match o.socket k with
  | (none, o) => (none, o)
  | (some fd, o) =>
    match o.calls fd l with
    | (true, o) => (some fd, o)
    | (false, o) => (none, o.close fd)

/-- The address `::`. -/
def anyAddr : Bytes := List.replicate 16 0

/-- The address `::1`. -/
def loopback : Bytes := List.replicate 15 0 ++ [1]

/-- net.c:48-127 `babel_socket`. -/
def babelCalls (port : Nat) : List (Call × Bool) :=
  [(.setopt .v6only 1, true), (.setopt .reuseaddr 1, true), (.setopt .multicastLoop 0, true), (.setopt .unicastHops 1, true),
   (.setopt .multicastHops 1, true), (.setopt .tclass 0xc0, false), (.setopt .recvPktinfo 1, true),
   (.getfl, true), (.setNonblock, true), (.getfd, true), (.setCloexec, true), (.bind (.ip6 anyAddr port), true)]

def babelSocket (o : Os) (port : Nat) : Option Nat × Os := o.make .udp (babelCalls port)

/-- net.c:234-284 `tcp_server_socket`. -/
def tcpCalls (port : Nat) (isLocal : Bool) : List (Call × Bool) :=
  [(.setopt .reuseaddr 1, true), (.getfl, true), (.setNonblock, true), (.getfd, true), (.setCloexec, true),
   (.bind (.ip6 (if isLocal then loopback else anyAddr) port), true), (.listen, true)]

def tcpServerSocket (o : Os) (port : Nat) (isLocal : Bool) : Option Nat × Os := o.make .tcp (tcpCalls port isLocal)

/-- net.c:286-339 `unix_server_socket`; `sun_path` has 108 bytes. -/
def unixServerSocket (o : Os) (path : Bytes) : Option Nat × Os :=
  if path.length ≥ 108 then (none, o)
  else
    match o.socket .unixStream with
    | (none, o) => (none, o)
    | (some fd, o) =>
      match o.calls fd [(.getfl, true), (.setNonblock, true), (.getfd, true), (.setCloexec, true), (.bind (.path path), true)] with
      | (false, o) => (none, o.close fd)
      | (true, o) =>
        match o.call fd .listen with
        | (false, o) => (none, { o with files := o.files.erase path }.close fd)
        | (true, o) => (some fd, o)

/-- kernel_netlink.c:290-351 `netlink_socket`: the size of the receive buffer is set by force or, if that fails, without. -/
def netlinkSocket (o : Os) (groups : Nat) : Option Nat × Os :=
  match o.socket .netlink with
  | (none, o) => (none, o)
  | (some fd, o) =>
    match o.calls fd [(.getfl, true), (.setNonblock, true)] with
    | (false, o) => (none, o.close fd)
    | (true, o) =>
      let o := match o.call fd (.setopt .rcvbufForce 524288) with
        | (true, o) => o
        | (false, o) => (o.call fd (.setopt .rcvbuf 524288)).2
      match o.calls fd [(.setopt .extAck 1, false), (.setopt .strictChk 1, false), (.bind (.groups groups), true), (.getsockname, true)] with
      | (false, o) => (none, o.close fd)
      | (true, o) => (some fd, o)

/-- The sockets of the daemon: `dgram_socket`, `nl_command.sock`, `nl_listen.sock`, `protocol_socket`, `local_server_socket`. -/
structure Socks where
  dgram : Option Nat := none
  command : Option Nat := none
  listen : Option Nat := none
  protocol : Option Nat := none
  server : Option Nat := none

/-- kernel_netlink.c:700-704 `rtnlgrp_to_mask`. -/
def groupMask (g : Nat) : Nat := if g = 0 then 0 else 1 <<< (g - 1)

/-- kernel_netlink.c:712-717: `RTNLGRP_IPV6_ROUTE`, `_IPV4_ROUTE`, `_LINK`, `_IPV4_IFADDR`, `_IPV6_IFADDR` (linux/rtnetlink.h). -/
def listenGroups : Nat := groupMask 11 ||| groupMask 7 ||| groupMask 1 ||| groupMask 5 ||| groupMask 9

/-- Which server is configured (babeld.c:513-526). -/
inductive ServerConf
  | off
  | port (n : Nat)
  | path (p : Bytes)

/-- babeld.c:513-526. -/
def openServer (o : Os) : ServerConf → Option (Option Nat) × Os
  | .off => (some none, o)
  | .port n => let r := tcpServerSocket o n true; (r.1.map some, r.2)
  | .path p => let r := unixServerSocket o p; (r.1.map some, r.2)

/-- babeld.c:417-526, the part that opens sockets; `none` if the daemon gives up, which ends the process.  The call of `socket` for `dgram_socket` is in
`kernel_setup` (kernel_netlink.c:639-647). -/
def openSockets (o : Os) (port : Nat) (sc : ServerConf) : Option Socks × Os :=
  match o.socket .udp with
  | (none, o) => (none, o)
  | (some dg, o) =>
    match netlinkSocket o 0 with
    | (none, o) => (none, o)
    | (some cmd, o) =>
      match netlinkSocket o listenGroups with
      | (none, o) => (none, o)
      | (some _, o) =>
        match babelSocket o port with
        | (none, o) => (none, o)
        | (some pr, o) =>
          match netlinkSocket o listenGroups with
          | (none, o) => (none, o)
          | (some l, o) =>
            match openServer o sc with
            | (none, o) => (none, o)
            | (some sv, o) => (some ⟨some dg, some cmd, some l, some pr, sv⟩, o)

/-! ### Sending -/

/-- What happens when a packet is sent: the outcome of each `sendmsg`, and whether the socket becomes writable within 5 ms after it. -/
structure SendEnv where
  outcome : Nat → Option SysErr
  ready : Nat → Bool

/-- What was done: the error returned, the number of calls of `sendmsg`, the number of waits and the datagrams sent. -/
structure SendOut where
  error : Option SysErr
  attempts : Nat
  waits : Nat
  sent : List Bytes
deriving DecidableEq, Repr

/-- net.c:208-231, from the label `again`; `count` calls have been made before. -/
def sendFrom (v : SendEnv) (data : Bytes) (count waits : Nat) : SendOut :=
  match v.outcome count with
  | none => ⟨none, count + 1, waits, [data]⟩
  | some .eintr => if count + 1 < 100 then sendFrom v data (count + 1) waits else ⟨some .eintr, count + 1, waits, []⟩
  | some .eagain =>
    if v.ready count then
      if count + 1 < 100 then sendFrom v data (count + 1) (waits + 1) else ⟨some .eagain, count + 1, waits + 1, []⟩
    else ⟨some .eagain, count + 1, waits + 1, []⟩
  | some e => ⟨some e, count + 1, waits, []⟩
termination_by 100 - count

/-- net.c:177-232 `babel_send`: the datagram consists of both buffers. -/
def babelSend (v : SendEnv) (buf1 buf2 : Bytes) : SendOut := sendFrom v (buf1 ++ buf2) 0 0

/-! ### Receiving -/

/-- A control message: its level and type, and its data (CMSG_DATA). -/
structure Cmsg where
  level : Nat
  type : Nat
  data : Bytes
deriving DecidableEq, Repr

/-- What `recvmsg` returns: an error, or the data, the source address and interface, and the control messages. -/
inductive Received
  | error (e : SysErr)
  | packet (data : Bytes) (src : Bytes) (scope : Nat) (cmsgs : List Cmsg)
deriving DecidableEq, Repr

/-- `IPPROTO_IPV6`, `IPV6_PKTINFO` (linux/in6.h). -/
def IPPROTO_IPV6 : Nat := 41
def IPV6_PKTINFO : Nat := 50

/-- net.c:129-175 `babel_recv`: the packet and the address it was sent to, or an error.  `size` is that of the buffer; the rest of a longer
datagram is lost. -/
def babelRecv (size : Nat) : Received → Except SysErr (Bytes × Bytes × Nat × Bytes)
  | .error e => .error e
  | .packet data src scope cmsgs =>
    match cmsgs.find? (fun c => c.level == IPPROTO_IPV6 && c.type == IPV6_PKTINFO) with
    | none => .error .edestaddrreq
    | some c => .ok (data.take size, src, scope, c.data.take 16)

/-- What the main loop does with the socket (babeld.c:654-678): nothing, a pause of a second, or the packet goes to `parse_packet`. -/
inductive Dispatch
  | nothing
  | pause
  | parse (i : Nat) (src : Bytes) (data : Bytes) (dst : Bytes)
deriving DecidableEq, Repr

/-- babeld.c:654-678; the interfaces with their indices and whether they are up. -/
def dispatch (ifs : List (Nat × Bool)) (size : Nat) (r : Received) : Dispatch :=
  match babelRecv size r with
  | .error .eagain => .nothing
  | .error .eintr => .nothing
  | .error _ => .pause
  | .ok (data, src, scope, dst) =>
    match ifs.find? (fun p => p.2 && p.1 == scope) with
    | none => .nothing
    | some p => .parse p.1 src data dst

/-- babeld.c:937-954 `resize_receive_buffer`; `none` if memory cannot be had. -/
def resizeReceive (size : Nat) (new : Nat) (mem : Bool) : Option Nat :=
  if new ≤ size then some size else if mem then some new else none

end Babel
