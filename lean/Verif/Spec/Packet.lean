import Verif.Model.Daemon
/-
What the messages in a packet ask for.
-/
namespace Babel.Spec

/-- What the routing part does when asked by a neighbour. -/
inductive Deed
  /-- Neighbour `n` announces or retracts a route. -/
  | update (n : NeighId) (id : Option Bytes) (k : PKey) (seqno : UInt16) (metric interval : Nat) (nexthop : Option Bytes)
  /-- Neighbour `n` retracts all its routes. -/
  | retractAll (n : NeighId)
  /-- Everything is announced on interface `i`. -/
  | dump (i : IfId)
  /-- Neighbour `n` asks for an announcement of `k`. -/
  | request (n : NeighId) (k : PKey)
  /-- Neighbour `n` asks for a newer sequence number. -/
  | seqnoRequest (n : NeighId) (k : PKey) (hops : Nat) (seqno : UInt16) (id : Bytes)
  /-- Anything else. -/
  | other
deriving DecidableEq, Repr

/-- What an event of the routing part is, if it is not a mere change of link costs. -/
def deedOf : Ev → Option Deed
  | .setCost _ _ => none
  | .updNeigh _ _ => none
  | .update id k q m iv n nh => some (.update n id k q m iv nh)
  | .retractNeigh _ n => some (.retractAll n)
  | .fullUpdate i false => some (.dump i)
  | .routeRequest n k => some (.request n k)
  | .seqnoRequest n k h q id => some (.seqnoRequest n k h q id)
  | _ => some .other

/-- What the messages from neighbour `n` on interface `i` ask the routing part to do, in order.  `due` says whether a request
for everything is to be answered, which is done once. -/
def asked (i : IfId) (n : NeighId) : Bool → List Item → List Deed
  | _, [] => []
  | due, .update id k q m iv nh :: l => .update n id k (UInt16.ofNat q) m iv nh :: asked i n due l
  | due, .retractAll :: l => .retractAll n :: asked i n due l
  | due, .requestAll :: l => if due then .dump i :: asked i n false l else asked i n false l
  | due, .request k :: l => .request n k :: asked i n due l
  | due, .seqnoRequest k h q id :: l => .seqnoRequest n k h (UInt16.ofNat q) id :: asked i n due l
  | due, _ :: l => asked i n due l

/-- Everything was last announced on interface `i` more than a hello interval, and more than a second, ago (in
whole seconds). -/
def due (d : Daemon) (i : IfId) : Bool :=
  (getIf d.st i).any fun x => decide (d.lastUpdate i + (max (x.helloInterval / 100) 1 : Nat) < d.st.now.sec)

/-- What a message says about the link to its sender. -/
def noted (now : Timeval) (x : DNbr) : Item → DNbr
  | .hello u q iv none => { x with link := (x.link.hearHello now u (UInt16.ofNat q) iv).1 }
  | .hello u q iv (some t) => { x with link := (x.link.hearHello now u (UInt16.ofNat q) iv).1, sendUs := t, recvTime := now }
  | .ihu tx iv => { x with link := (x.link.hearIhu now tx iv).1 }
  | _ => x

/-- A neighbour of which nothing has been heard. -/
def unheard (now : Timeval) (buf : Nat) : DNbr := { link := Nbr.fresh now, buf := buf }

/-- A packet that contains a hello with a timestamp, and an IHU that echoes the time at which the daemon last sent one
and the time at which it was received, gives a sample of the round-trip time. -/
def measured (now : Timeval) (i : LinkCfg) (p : PState) (x : DNbr) : DNbr :=
  if p.haveHelloRtt = true ∧ p.echo.1 ≠ 0 ∧ p.echo.2 ≠ 0 then
    match rttSample x.sendUs p.echo.2 (timeUs x.recvTime) p.echo.1 with
    | some rtt => { x with link := (x.link.addRtt now i rtt).1 }
    | none => x
  else x

/-- The message asks the routing part for something. -/
def asks (due : Bool) : Item → Bool
  | .update .. => true
  | .retractAll => true
  | .request _ => true
  | .seqnoRequest .. => true
  | .requestAll => due
  | _ => false

/-- What is known of a neighbour's link each time the routing part is asked for something; `sender` says whether the
messages come from this neighbour. -/
def asOf (now : Timeval) (sender : Bool) : Bool → DNbr → List Item → List DNbr
  | _, _, [] => []
  | due, x, it :: l =>
    (if asks due it then [x] else []) ++ asOf now sender (due && it != .requestAll) (if sender then noted now x it else x) l

/-- The cost of the link to neighbour `m` each time something is done. -/
def costsDuring (c : Cfg) (m : NeighId) : St → List Ev → List Nat
  | _, [] => []
  | s, ev :: evs => (if (deedOf ev).isSome then [s.ncost m] else []) ++ costsDuring c m (step c s ev) evs

/-- The costs are those of the links as they are. -/
def Current (e : DCfg) (d : Daemon) (nc : NeighId → Nat) : Prop :=
  ∀ m x, d.nbr m = some x → neighbourCost d.st.now (linkCfgOf e d.st (e.node.ifOf m)) x.link = some (nc m)

end Babel.Spec
