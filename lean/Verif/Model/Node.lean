import Verif.Model.Xroute
/-
The daemon as a state machine: the events handled by the main loop (babeld.c:588-787), by the
packet parser (message.c:573-1110) and by the configuration commands.
-/
namespace Babel

/-- Events.  `fuel` bounds the table walks; see `walkFrom`. -/
inductive Ev
  /-- The clock is read (babeld.c:590, message.c:594). -/
  | tick (t : Timeval)
  /-- The link cost of a neighbour changes (neighbour.c); followed by `updNeigh`. -/
  | setCost (n : NeighId) (cost : Nat)
  /-- An Update TLV is received (message.c:814-956). -/
  | update (id : Option Bytes) (k : PKey) (seqno : UInt16) (refmetric interval : Nat) (n : NeighId)
      (nexthop : Option Bytes)
  /-- A wildcard retraction is received (message.c:930-943). -/
  | retractNeigh (fuel : Nat) (n : NeighId)
  /-- `update_neighbour_metric`. -/
  | updNeigh (fuel : Nat) (n : NeighId)
  /-- `update_interface_metric`. -/
  | updIface (fuel : Nat) (i : IfId)
  /-- A neighbour is discarded (neighbour.c:58-78). -/
  | flushNeigh (n : NeighId)
  /-- An interface changes address (interface.c:164-260). -/
  | flushIface (i : IfId) (v4only : Bool)
  /-- An interface goes down (interface.c:489-500). -/
  | ifDown (i : IfId)
  /-- An interface comes up (interface.c:326-488); `full` says whether it has got another IPv4 address. -/
  | ifUp (i : IfId) (full : Bool)
  /-- babeld.c:660-664. -/
  | expireRoutes (fuel : Nat)
  | expireSources
  | expireResend
  | doResend
  /-- babeld.c:714-735. -/
  | flushUpdates (i : IfId)
  | fullUpdate (i : IfId) (urgent : Bool)
  /-- A route request is received (message.c:957-1010). -/
  | routeRequest (n : NeighId) (k : PKey)
  /-- A seqno request is received (message.c:1011-1048). -/
  | seqnoRequest (n : NeighId) (k : PKey) (hopCount : Nat) (seqno : UInt16) (id : Bytes)
  /-- babeld.c:612-640: kernel notifications and the periodic resynchronisation. -/
  | kernelRoute (add : Bool) (kr : KRoute)
  | checkXroutes (krs : List KRoute) (sendUpdates : Bool)
  /-- babeld.c:811: shutdown. -/
  | flushAll

/-- interface.c:485-486: everything is announced if the IPv4 address of the interface is new. -/
def announceUp (c : Cfg) (s : St) (i : IfId) (full : Bool) : St := if full then sendUpdateAny c s i false else s

/-- One event. -/
def step (c : Cfg) (s : St) : Ev → St
  | .tick t => { s with now := t }
  | .setCost n v => { s with ncost := fun m => if m = n then v else s.ncost m }
  | .update id k seqno refm interval n nh => updateRoute c s id k seqno refm interval n nh
  | .retractNeigh fuel n => retractNeighbourRoutes c fuel s n
  | .updNeigh fuel n => updateNeighbourMetric c fuel s n
  | .updIface fuel i => updateInterfaceMetric c fuel s i
  | .flushNeigh n => flushNeighbourRoutes c s n
  | .flushIface i v4only => flushInterfaceRoutes c s i v4only
  | .ifDown i =>
    modIf (flushInterfaceRoutes c (modIf s i (fun x => { x with up := false })) i false) i
      (fun x => { x with queue := [], queueCap := 0 })
  | .ifUp i full =>
    sendMulticastRequestIf c
      (announceUp c (modIf s i (fun x => { x with up := true })) i full) i none
  | .expireRoutes fuel => (expireRoutes c fuel s).1
  | .expireSources => expireSources s
  | .expireResend => expireResend s
  | .doResend => doResend c s
  | .flushUpdates i => flushUpdates c s i
  | .fullUpdate i urgent => sendUpdateAny c s i urgent
  | .routeRequest n k => sendUpdateIf c s (c.ifOf n) false k
  | .seqnoRequest n k hop seqno id => handleRequest c s n k hop seqno id
  | .kernelRoute add kr => kernelRouteNotify c s add kr
  | .checkXroutes krs upd => checkXroutes c s krs upd
  | .flushAll => flushAllRoutes c s

/-- A run of the daemon. -/
def run (c : Cfg) (s : St) (evs : List Ev) : St := evs.foldl (step c) s

/-- The state when the daemon starts (babeld.c:420-580); the interfaces have been configured. -/
def St.init (now : Timeval) (myseqno : UInt16) (ifaces : List Iface) (ncost : NeighId → Nat)
    (rand : Nat → Nat) (kres : Nat → KRes) : St :=
  ⟨now, myseqno, [], [], [], ifaces, [], ⟨0, 0⟩, ncost, [], rand, kres, []⟩

end Babel
