import Verif.Model.Node
/-
The tables of neighbours and interfaces together with the routes: neighbours are created by received
packets and discarded when they are silent; interfaces are added, go up and down, and are removed by a
command of a control connection.

An interface and a neighbour are identified by the object that represents them, i.e. an `IfId` stands for
the address of a `struct interface`, a `NeighId` for that of a `struct neighbour`, and `Cfg.ifOf` is the
field `ifp` of the neighbour.
-/
namespace Babel

/-- The daemon with its table of neighbours. -/
structure World where
  st : St
  /-- neighbour.c:43 `neighs`. -/
  neighs : List NeighId

/-- What a received packet contains, as far as it concerns routes (message.c:573-1105). -/
inductive Tlv
  /-- An Update. -/
  | update (id : Option Bytes) (k : PKey) (seqno : UInt16) (refmetric interval : Nat) (nexthop : Option Bytes)
  /-- A wildcard retraction. -/
  | retractAll (fuel : Nat)
  /-- A route request. -/
  | routeRequest (k : PKey)
  /-- A seqno request. -/
  | seqnoRequest (k : PKey) (hopCount : Nat) (seqno : UInt16) (id : Bytes)
  /-- A Hello or IHU which changes the cost of the link (message.c:688-760). -/
  | cost (v fuel : Nat)

/-- The events for a TLV received from `n`. -/
def Tlv.events (n : NeighId) : Tlv → List Ev
  | .update id k q refm int nh => [.update id k q refm int n nh]
  | .retractAll fuel => [.retractNeigh fuel n]
  | .routeRequest k => [.routeRequest n k]
  | .seqnoRequest k hop q id => [.seqnoRequest n k hop q id]
  | .cost v fuel => [.setCost n v, .updNeigh fuel n]

/-- Events of the main loop (babeld.c:588-787). -/
inductive WEv
  /-- A packet from `n` (babeld.c:643-665). -/
  | packet (n : NeighId) (tlvs : List Tlv)
  /-- The cost of the link to a neighbour is recomputed (neighbour.c:253-257). -/
  | check (n : NeighId) (v fuel : Nat)
  /-- A neighbour has been silent for too long (neighbour.c:242-249). -/
  | silent (n : NeighId)
  /-- `interface_updown`. -/
  | updown (i : IfId) (up full : Bool)
  /-- `add_interface`. -/
  | add (x : Iface)
  /-- `flush_interface`, through the command `flush interface`. -/
  | remove (i : IfId)
  /-- The timers, notifications of the kernel, and address changes. -/
  | tick (t : Timeval)
  | metric (fuel : Nat) (i : IfId)
  | addresses (i : IfId) (v4only : Bool)
  | expireRoutes (fuel : Nat)
  | expireSources
  | expireResend
  | doResend
  | flushUpdates (i : IfId)
  | fullUpdate (i : IfId) (urgent : Bool)
  | kernelRoute (add : Bool) (kr : KRoute)
  | checkXroutes (krs : List KRoute) (sendUpdates : Bool)

/-- The event of the node, for timers and kernel notifications. -/
def WEv.plain : WEv → Option Ev
  | .tick t => some (.tick t)
  | .metric fuel i => some (.updIface fuel i)
  | .addresses i v4 => some (.flushIface i v4)
  | .expireRoutes fuel => some (.expireRoutes fuel)
  | .expireSources => some .expireSources
  | .expireResend => some .expireResend
  | .doResend => some .doResend
  | .flushUpdates i => some (.flushUpdates i)
  | .fullUpdate i u => some (.fullUpdate i u)
  | .kernelRoute a kr => some (.kernelRoute a kr)
  | .checkXroutes l u => some (.checkXroutes l u)
  | _ => none

/-- neighbour.c:76-128 `find_neighbour`: the neighbour is created if it is not known. -/
def findNeighbour (w : World) (n : NeighId) : World :=
  if w.neighs.contains n then w else { w with neighs := n :: w.neighs }

/-- babeld.c:643-665 and `parse_packet`: packets on interfaces that are not up are dropped. -/
def tableReceive (c : Cfg) (w : World) (n : NeighId) (tlvs : List Tlv) : World :=
  if ifUp w.st (c.ifOf n) then
    let w1 := findNeighbour w n
    { w1 with st := run c w1.st (tlvs.flatMap (Tlv.events n)) }
  else w

/-- neighbour.c:57-74 `flush_neighbour`. -/
def flushNeighbour (c : Cfg) (w : World) (n : NeighId) : World :=
  ⟨step c w.st (.flushNeigh n), w.neighs.filter (· != n)⟩

/-- interface.c:254-515 `interface_updown` (failures to bring the interface up are followed by bringing it
down, which is another event). -/
def interfaceUpdown (c : Cfg) (w : World) (i : IfId) (up full : Bool) : World :=
  if (getIf w.st i).isNone || up == ifUp w.st i then w
  else { w with st := step c w.st (if up then .ifUp i full else .ifDown i) }

/-- interface.c:66-98 `add_interface`; the interface is new and is not up. -/
def tableAddIf (w : World) (x : Iface) : World :=
  if (getIf w.st x.ifindex).isSome then w
  else { w with st := { w.st with ifaces := w.st.ifaces ++ [{ x with up := false, queue := [], queueCap := 0 }] } }

/-- interface.c:100-131 `flush_interface`. -/
def tableFlushIf (c : Cfg) (w : World) (i : IfId) : World :=
  if (getIf w.st i).isNone then w
  else
    let w1 := interfaceUpdown c w i false false
    { w1 with st := { w1.st with ifaces := w1.st.ifaces.filter (·.ifindex != i) } }

/-- One event of the main loop. -/
def World.step (c : Cfg) (w : World) : WEv → World
  | .packet n tlvs => tableReceive c w n tlvs
  | .check n v fuel =>
    if w.neighs.contains n then { w with st := run c w.st [.setCost n v, .updNeigh fuel n] } else w
  | .silent n => if w.neighs.contains n then flushNeighbour c w n else w
  | .updown i up full => interfaceUpdown c w i up full
  | .add x => tableAddIf w x
  | .remove i => tableFlushIf c w i
  | ev =>
    match ev.plain with
    | some e => { w with st := Babel.step c w.st e }
    | none => w

/-- A history. -/
def World.run (c : Cfg) (w : World) (evs : List WEv) : World := evs.foldl (World.step c) w

/-- The daemon when it starts. -/
def World.init (now : Timeval) (myseqno : UInt16) (ifaces : List Iface) (ncost : NeighId → Nat)
    (rand : Nat → Nat) (kres : Nat → KRes) : World :=
  ⟨St.init now myseqno ifaces ncost rand kres, []⟩

end Babel
