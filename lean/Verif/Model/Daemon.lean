import Verif.Model.Auth
import Verif.Model.Node
import Verif.Model.Neighbour
/-
The whole daemon, driven by the packets it receives: authentication and decoding (Model/Auth, Model/Wire),
link quality (Model/Neighbour), routing (Model/Node) and the send buffers (Model/Buffer).

Simplifications: an interface comes back with the parameters it had, except for its MTU; hellos and IHUs are sent, and
buffers flushed, at arbitrary times with arbitrary contents; on a unicast interface a message is written to the buffers of
the neighbours only; the outputs of one step of the routing part are written to the buffers after that step,
in order; the update queue and the buffers use separate random numbers.
-/
namespace Babel

/-- interface.h:82-155: the parameters of an interface that do not change while it is up. -/
structure DIf where
  key : Option Key
  acceptBad : Bool
  ll : List Bytes
  timestamps : Bool
  probe : Bool
  unicast : Bool
  ipv4 : Option Bytes
  lq : Bool
  cost : Nat
  rttDecay : Nat
  rttMin : Nat
  rttMax : Nat
  maxRttPenalty : Nat

/-- The configuration of a daemon.  A neighbour number stands for an interface (`node.ifOf`) and an
address on its link. -/
structure DCfg where
  node : Cfg
  ifs : IfId → DIf
  addr : NeighId → Bytes
  nonces : IfId → Nonces
  orc : IfId → Orc
  /-- Kernel support for v4-via-v6 routes. -/
  v4viav6 : Bool

/-- neighbour.h:32-60 `struct neighbour`: link quality, the timestamps of the last hello
(`hello_send_us`, `hello_rtt_receive_time`), and the number of its send buffer. -/
structure DNbr where
  link : Nbr
  sendUs : Nat := 0
  recvTime : Timeval := ⟨0, 0⟩
  buf : Nat

/-- The state of the daemon.  `nbrs` is the list `neighs`; a new neighbour gets buffer number
`fresh i`, which has not been used before. -/
structure Daemon where
  st : St
  nbrs : List (NeighId × DNbr)
  auth : IfId → AState
  /-- `ifp->last_update_time`. -/
  lastUpdate : IfId → Int
  link : IfId → Link
  fresh : IfId → Nat

/-- The circumstances of a write to a buffer of interface `i`.  The output filter has already been applied
(`reallySend` in Model/Queue).  An interface that is down has no addresses (interface.c:512-515). -/
def sifOf (e : DCfg) (s : St) (i : IfId) : SIf where
  up := ifUp s i
  key := (e.ifs i).key
  ll := if ifUp s i then (e.ifs i).ll else []
  timestamps := (e.ifs i).timestamps
  rfc6126 := match getIf s i with | some x => x.rfc6126 | none => false
  v4viav6 := match getIf s i with | some x => x.v4viav6 | none => false
  probe := (e.ifs i).probe
  ipv4 := (e.ifs i).ipv4
  updateInterval := match getIf s i with | some x => x.updateInterval | none => 0
  filter := fun _ _ => 0

/-- The parameters of interface `i` used in cost computation. -/
def linkCfgOf (e : DCfg) (s : St) (i : IfId) : LinkCfg :=
  ⟨ifUp s i, (e.ifs i).lq, (e.ifs i).cost, (e.ifs i).rttDecay, (e.ifs i).rttMin, (e.ifs i).rttMax,
    (e.ifs i).maxRttPenalty⟩

/-- What decoding a packet from neighbour `n` depends on. -/
def penvOf (e : DCfg) (n : NeighId) : PEnv :=
  ⟨e.addr n, fun a => (e.ifs (e.node.ifOf n)).ll.contains a, e.v4viav6⟩

/-- neighbour.c:46-56 `find_neighbour_nocreate`. -/
def Daemon.nbr (d : Daemon) (n : NeighId) : Option DNbr := (d.nbrs.find? (·.1 == n)).map (·.2)

/-- Assignment through a `struct neighbour *`. -/
def Daemon.setNbr (d : Daemon) (n : NeighId) (f : DNbr → DNbr) : Daemon :=
  { d with nbrs := d.nbrs.map fun p => if p.1 == n then (p.1, f p.2) else p }

/-- One operation on buffer `j` of interface `i`. -/
def Daemon.write (e : DCfg) (d : Daemon) (i : IfId) (j : Nat) (op : Snd) : Option Daemon := do
  let l ← (d.link i).step (e.orc i) (sifOf e d.st i) d.st.now j op
  return { d with link := fun x => if x = i then l else d.link x }

/-- The buffers a message on interface `i` is written to (message.c:1555-1569, 2132-2141, 2229-2243): that
of the neighbour it is for, or else those of all neighbours on a unicast interface, or that of
the interface.  Each is given by an interface and a number. -/
def Daemon.targets (e : DCfg) (d : Daemon) (i : IfId) (to : Option NeighId) : List (IfId × Nat) :=
  match to with
  | some n => (d.nbr n).toList.map fun x => (e.node.ifOf n, x.buf)
  | none =>
    if (e.ifs i).unicast then (d.nbrs.filter fun p => e.node.ifOf p.1 == i).map fun p => (i, p.2.buf) else [(i, 0)]

/-- The message with which an output of the routing part goes out. -/
def sndOf : Out → Option (IfId × Option NeighId × Snd)
  | .update i id k q m => some (i, none, .update id k q.toNat m)
  | .request i to k => some (i, to, .request k)
  | .mhRequest i to k q id h => some (i, to, .seqnoRequest k q.toNat id h)
  | _ => none

/-- An output of the routing part is written to the buffers; what is not meant for one neighbour is not sent on an
interface that is down (message.c:1553-1554, 2126-2127, 2225-2226). -/
def Daemon.post (e : DCfg) (d : Daemon) (o : Out) : Option Daemon :=
  match sndOf o with
  | some (i, to, op) =>
    if to = none ∧ ifUp d.st i = false then some d
    else (d.targets e i to).foldlM (fun d x => d.write e x.1 x.2 op) d
  | none => some d

/-- neighbour.c:342-370: the current link costs, seen by the routing part; `none` is a failed
assertion. -/
def Daemon.refresh (e : DCfg) (d : Daemon) : Option Daemon :=
  d.nbrs.foldlM (fun d p => do
    let v ← neighbourCost d.st.now (linkCfgOf e d.st (e.node.ifOf p.1)) p.2.link
    return { d with st := step e.node d.st (.setCost p.1 v) }) d

/-- message.c:1848 and interface.c:485-486: the time of the last full update. -/
def dumped (d : Daemon) (ev : Ev) : IfId → Int :=
  match ev with
  | .fullUpdate i _ => fun x => if x = i ∧ ifUp d.st i then d.st.now.sec else d.lastUpdate x
  | .ifUp i full => fun x => if x = i ∧ full then d.st.now.sec else d.lastUpdate x
  | _ => d.lastUpdate

/-- One step of the routing part, with the messages it sends to the buffers as changed by `f`. -/
def Daemon.nodeAs (e : DCfg) (f : (IfId → Link) → IfId → Link) (d : Daemon) (ev : Ev) : Option Daemon := do
  let d ← d.refresh e
  let s := step e.node d.st ev
  let new := (s.out.take (s.out.length - d.st.out.length)).reverse
  new.foldlM (fun d o => d.post e o) { d with st := s, lastUpdate := dumped d ev, link := f d.link }

/-- One step of the routing part, with the messages it sends. -/
def Daemon.node (e : DCfg) (d : Daemon) (ev : Ev) : Option Daemon := d.nodeAs e (fun l => l) ev

/-- The interface's own buffer is changed. -/
def Link.own (f : Buf → Buf) (l : Link) : Link :=
  { l with bufs := fun j => if j = 0 then f (l.bufs 0) else l.bufs j }

/-- The buffer of interface `i` is changed. -/
def ownBuf (i : IfId) (f : Buf → Buf) (l : IfId → Link) : IfId → Link :=
  fun x => if x = i then (l i).own f else l x

/-- interface.c:489-515: the interface goes down.  The buffer is emptied before, not after, the routes are flushed;
nothing is written to it in between. -/
def Daemon.ifaceDown (e : DCfg) (d : Daemon) (i : IfId) : Option Daemon :=
  if ifUp d.st i then d.nodeAs e (ownBuf i Buf.down) (.ifDown i) else some d

/-- interface.c:263-488: the interface comes up, with the given MTU and `full` saying whether its IPv4 address is new.
The hello is left to `DEv.say`. -/
def Daemon.ifaceUp (e : DCfg) (d : Daemon) (i : IfId) (mtu flushInterval : Nat) (full : Bool) : Option Daemon :=
  if (getIf d.st i).isSome ∧ ifUp d.st i = false then
    d.nodeAs e (ownBuf i fun b => b.up b.dst mtu flushInterval) (.ifUp i full)
  else some d

/-- `update_neighbour_metric(neigh, changed)`, route.c:789-807. -/
def Daemon.recost (e : DCfg) (d : Daemon) (n : NeighId) (changed : Bool) : Option Daemon :=
  if changed then d.node e (.updNeigh (d.st.routes.length + 1) n) else some d

/-- The operations on a send buffer that hellos and IHUs consist of. -/
def isChatter : Snd → Bool
  | .hello _ _ _ _ => true
  | .ihu _ _ _ _ => true
  | .ensure _ => true
  | .flush => true
  | _ => false

/-- message.c:993-1001: the answer to a request for everything.  The IHU is left to `DEv.say`. -/
def Daemon.fullDump (e : DCfg) (d : Daemon) (i : IfId) : Option Daemon :=
  let hi := match getIf d.st i with | some x => x.helloInterval | none => 0
  if d.lastUpdate i < d.st.now.sec - (max (hi / 100) 1 : Nat) then d.node e (.fullUpdate i false) else some d

/-- message.c:669-1056: what a decoded message makes the daemon do. -/
def Daemon.item (e : DCfg) (n : NeighId) (d : Daemon) : Item → Option Daemon
  | .ackReq nonce interval =>
    match d.nbr n with
    | none => some d
    | some x => d.write e (e.node.ifOf n) x.buf (.ack nonce interval)
  | .hello u q iv ts =>
    match d.nbr n with
    | none => some d
    | some x => do
      let r := x.link.hearHello d.st.now u (UInt16.ofNat q) iv
      let d ← (d.setNbr n fun x => { x with link := r.1 }).recost e n r.2
      return match ts with
        | none => d
        | some t => d.setNbr n fun x => { x with sendUs := t, recvTime := d.st.now }
  | .ihu tx iv =>
    match d.nbr n with
    | none => some d
    | some x =>
      let r := x.link.hearIhu d.st.now tx iv
      (d.setNbr n fun x => { x with link := r.1 }).recost e n r.2
  | .retractAll => d.node e (.retractNeigh (d.st.routes.length + 1) n)
  | .update id k q m iv nh => d.node e (.update id k (UInt16.ofNat q) m iv n nh)
  | .requestAll => d.fullDump e (e.node.ifOf n)
  | .request k => d.node e (.routeRequest n k)
  | .seqnoRequest k h q id => d.node e (.seqnoRequest n k h (UInt16.ofNat q) id)

/-- message.c:1066-1104: a sample of the round-trip time. -/
def Daemon.sampleRtt (e : DCfg) (d : Daemon) (n : NeighId) (p : PState) : Option Daemon :=
  match d.nbr n with
  | none => some d
  | some x =>
    if p.haveHelloRtt && p.echo.1 != 0 && p.echo.2 != 0 then
      match rttSample x.sendUs p.echo.2 (timeUs x.recvTime) p.echo.1 with
      | none => some d
      | some rtt =>
        let i := linkCfgOf e d.st (e.node.ifOf n)
        match rttcost d.st.now i x.link with
        | none => none
        | some _ =>
          let r := x.link.addRtt d.st.now i rtt
          (d.setNbr n fun x => { x with link := r.1 }).recost e n r.2
    else some d

/-- neighbour.c:77-128 `find_neighbour`: a new neighbour, with an empty buffer. -/
def Daemon.addNbr (e : DCfg) (d : Daemon) (n : NeighId) : Daemon :=
  let i := e.node.ifOf n
  { d with
    nbrs := (n, { link := Nbr.fresh d.st.now, buf := d.fresh i }) :: d.nbrs
    fresh := fun x => if x = i then d.fresh i + 1 else d.fresh x
    link := fun x => if x = i then { d.link i with
        bufs := fun j => if j = d.fresh i then { (d.link i).bufs j with dst := e.addr n } else (d.link i).bufs j }
      else d.link x }

/-- The neighbour exists if authentication has created it. -/
def Daemon.ensureNbr (e : DCfg) (d : Daemon) (n : NeighId) : Daemon :=
  if ((d.auth (e.node.ifOf n)).tab (e.addr n)).isSome && (d.nbr n).isNone then d.addNbr e n else d

/-- message.c:1321-1327, 1341-1346: a challenge is written to the buffer of the neighbour. -/
def Daemon.challenge (e : DCfg) (n : NeighId) (d : Daemon) (ch : Challenge) : Option Daemon :=
  match d.nbr n with
  | none => some d
  | some x => d.write e (e.node.ifOf n) x.buf
      (match ch with | .request b => .challenge b | .reply b => .reply b)

/-- message.c:573-648: the part of `parse_packet` that decides what to make of a packet from neighbour `n`:
authentication, including the challenges it sends, and decoding. -/
def Daemon.accept (e : DCfg) (d : Daemon) (n : NeighId) (buf : Bytes) (len : Nat) (dst : Bytes) :
    Option (Daemon × Effect) := do
  let i := e.node.ifOf n
  let c := e.ifs i
  let (a, eff) ← receive (e.nonces i) ⟨c.key, c.acceptBad⟩ ⟨penvOf e n, buf, len, dst, d.st.now⟩ (d.auth i)
  let d := Daemon.ensureNbr e { d with auth := fun x => if x = i then a else d.auth x } n
  let d ← eff.challenges.foldlM (fun d ch => d.challenge e n ch) d
  return (d, eff)

/-- message.c:649-1056: the messages in a packet, one after the other. -/
def Daemon.items (e : DCfg) (n : NeighId) (d : Daemon) (l : List Item) : Option Daemon :=
  l.foldlM (fun d it => d.item e n it) d

/-- babeld.c:655-680 and message.c:573-1105 `parse_packet`: a packet from neighbour `n`. -/
def Daemon.packet (e : DCfg) (d : Daemon) (n : NeighId) (buf : Bytes) (len : Nat) (dst : Bytes) : Option Daemon :=
  if ifUp d.st (e.node.ifOf n) then do
    let (d, eff) ← d.accept e n buf len dst
    let d ← d.items e n eff.items
    if eff.verdict = .dropped then return d
    else
      let (p, _) ← parsePacket (penvOf e n) buf len
      d.sampleRtt e n p
  else some d

/-- neighbour.c:221-257: `check_neighbours` for one neighbour. -/
def Daemon.checkNbr (e : DCfg) (d : Daemon) (n : NeighId) : Option Daemon :=
  match d.nbr n with
  | none => some d
  | some x =>
    match x.link.check d.st.now with
    | none => do
      let d ← d.node e (.flushNeigh n)
      let i := e.node.ifOf n
      return { d with
        nbrs := d.nbrs.filter fun p => !(p.1 == n)
        auth := fun x => if x = i then (d.auth i).set (e.addr n) none else d.auth x }
    | some (l, changed) => (d.setNbr n fun x => { x with link := l }).recost e n changed

/-- The events that do not come from a packet and do not change which interfaces are up. -/
def isInternal : Ev → Bool
  | .tick _ => true
  | .updIface _ _ => true
  | .flushIface _ _ => true
  | .expireRoutes _ => true
  | .expireSources => true
  | .expireResend => true
  | .doResend => true
  | .flushUpdates _ => true
  | .fullUpdate _ _ => true
  | .kernelRoute _ _ => true
  | .checkXroutes _ _ => true
  | .flushAll => true
  | _ => false

/-- What happens to a daemon: a packet arrives, neighbours are checked, the main loop does
something else, something is written to a buffer in use or such a buffer is flushed, or an interface goes down or comes
up. -/
inductive DEv
  | packet (n : NeighId) (buf : Bytes) (len : Nat) (dst : Bytes)
  | checkNbr (n : NeighId)
  | node (ev : Ev)
  | say (i : IfId) (j : Nat) (op : Snd)
  | down (i : IfId)
  | up (i : IfId) (mtu flushInterval : Nat) (full : Bool)

/-- One event (babeld.c:588-787); `none` is an access outside a buffer or a failed assertion.  Nothing is written to the
buffer of an interface that is down (message.c:1373-1374, 2003-2005), and it is empty. -/
def dstep (e : DCfg) (d : Daemon) : DEv → Option Daemon
  | .packet n buf len dst => d.packet e n buf len dst
  | .checkNbr n => d.checkNbr e n
  | .node ev => if isInternal ev then d.node e ev else some d
  | .say i j op => if isChatter op ∧ j < d.fresh i ∧ (ifUp d.st i = true ∨ j ≠ 0) then d.write e i j op else some d
  | .down i => d.ifaceDown e i
  | .up i mtu fi full => d.ifaceUp e i mtu fi full

/-- A run. -/
def drun (e : DCfg) (d : Daemon) (evs : List DEv) : Option Daemon := evs.foldlM (dstep e) d

end Babel
