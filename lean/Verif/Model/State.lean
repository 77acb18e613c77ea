import Verif.Model.RouteTable
/-
The state of a running daemon (the global variables of route.c, source.c, xroute.c, resend.c,
interface.c, message.c) and the operations on the source table.

The sorted arrays are represented by plain lists searched by key; `Props/Table.lean` proves that
the sorted arrays of the C code implement exactly these maps.
-/
namespace Babel

/-- Answer of the kernel to a request.  `eexist` is errno EEXIST, `fail` any other error. -/
inductive KRes
  | ok | eexist | fail
deriving DecidableEq, Repr, Inhabited

/-- A route put in the kernel by this daemon (RTPROT_BABEL).  `via = none` is an unreachable
route, which carries no gateway, interface or metric (kernel_netlink.c:1067-1135).
Simplification: the preferred source address is left out. -/
structure KEntry where
  table : Nat
  key : PKey
  via : Option (Bytes × IfId × Nat)
deriving DecidableEq, Repr, Inhabited

/-- resend.h:27-28. -/
inductive RKind
  | request | update
deriving DecidableEq, Repr, Inhabited

/-- resend.h:30-43 `struct resend`. -/
structure Resend where
  kind : RKind
  max : Nat
  delay : Nat
  time : Timeval
  key : PKey
  seqno : UInt16
  id : Bytes
  ifp : Option IfId
deriving DecidableEq, Repr, Inhabited

/-- interface.h:117-160 `struct interface`, the part used for routing.  `queue`/`queueCap` are
`buffered_updates`/`update_bufsize`; intervals in milliseconds; `bufSize` is `buf.size`. -/
structure Iface where
  ifindex : IfId
  up : Bool
  splitHorizon : Bool
  rfc6126 : Bool
  hasV4 : Bool
  v4viav6 : Bool
  helloInterval : Nat
  updateInterval : Nat
  bufSize : Nat
  queue : List PKey
  queueCap : Nat
  updateFlush : Timeval
  updateTimeout : Timeval
deriving DecidableEq, Repr, Inhabited

/-- local.h:24-26: kinds of notifications to monitoring clients. -/
inductive NKind
  | add | change | flush
deriving DecidableEq, Repr, Inhabited

/-- Observable outputs: messages put in the send buffer of an interface (or of a neighbour), 
notifications to the clients of the local socket, and warnings.  A message on a unicast interface is recorded
once although it is put in the buffer of each neighbour. -/
inductive Out
  | update (ifp : IfId) (id : Bytes) (key : PKey) (seqno : UInt16) (metric : Nat)
  | request (ifp : IfId) (to : Option NeighId) (key : Option PKey)
  | mhRequest (ifp : IfId) (to : Option NeighId) (key : PKey) (seqno : UInt16) (id : Bytes)
      (hopCount : Nat)
  | notifyRoute (kind : NKind) (r : Route)
  | notifyXroute (kind : NKind) (x : Xroute)
  /-- The warnings "installing unfeasible route" and "switching to unfeasible route"
  (route.c:477-479, 546-548). -/
  | warnUnfeasible (key : PKey) (n : NeighId)
  /-- The warning "attempting to install duplicate route" (route.c:485-489). -/
  | warnDuplicate (key : PKey) (n : NeighId)
  /-- Not an output of the C code: a record, for the specification, that `r` becomes the selected
  route at time `now`, in place of `old`, while `fd` is the entry of its source (route.c:501, 562). -/
  | selected (r : Route) (fd : Option Source) (now : Int) (old : Option Route)
deriving DecidableEq, Repr, Inhabited

/-- Configuration, constant while the daemon runs.  The filters are those of configuration.c
(modelled in `Model/Filter.lean`); `ifOf` is `neigh->ifp`. -/
structure Cfg where
  myid : Bytes
  kernelMetric : Nat
  reflect : Bool
  /-- `allow_duplicates`, `none` if negative. -/
  allowDup : Option Nat
  halfLife : Nat
  subtrees : Bool
  exportTable : Nat
  resendDelay : Nat
  ifOf : NeighId → IfId
  inputFilter : Option Bytes → PKey → Option NeighId → IfId → Nat
  outputFilter : Option Bytes → PKey → IfId → Nat
  /-- Metric and table (0 if the filter sets none). -/
  installFilter : Bytes → PKey → IfId → Nat × Nat
  /-- Metric and replacement source prefix. -/
  redistFilter : PKey → IfId → Int → Nat × Option (Bytes × Nat)

/-- The global state.  `rand` and `kres` are the future answers of `random()` and of the
kernel. -/
structure St where
  now : Timeval
  myseqno : UInt16
  sources : List Source
  routes : List Route
  xroutes : List Xroute
  ifaces : List Iface
  resends : List Resend
  resendTime : Timeval
  /-- `neighbour_cost`, recomputed by neighbour.c from the link state. -/
  ncost : NeighId → Nat
  fib : List KEntry
  rand : Nat → Nat
  kres : Nat → KRes
  out : List Out

/-- One call of `random()`. -/
def popRand (s : St) : Nat × St := (s.rand 0, { s with rand := fun i => s.rand (i + 1) })

/-- One exchange with the kernel. -/
def popK (s : St) : KRes × St := (s.kres 0, { s with kres := fun i => s.kres (i + 1) })

def emit (s : St) (o : Out) : St := { s with out := o :: s.out }

/-! ### Sources -/

/-- source.c:25 -/
def SOURCE_GC_TIME : Int := 200

/-- source.c:126-137 `find_source`, the lookup. -/
def findSource (s : St) (k : SKey) : Option Source := s.sources.find? (·.skey == k)

/-- Assignment through a `struct source *`. -/
def modSource (s : St) (k : SKey) (f : Source → Source) : St :=
  { s with sources := s.sources.map (fun x => if x.skey == k then f x else x) }

/-- source.c:126-170 `find_source` with `create`: allocation failure not modelled. -/
def ensureSource (s : St) (k : SKey) (seqno : UInt16) : St :=
  match findSource s k with
  | some _ => s
  | none => { s with sources := s.sources ++ [⟨k, seqno, INFINITY, 0, s.now.sec⟩] }

/-- source.c:172-178 `retain_source`; the assertion that the count stays below 65535 is not
modelled. -/
def retainSource (s : St) (k : SKey) : St :=
  modSource s k (fun x => { x with routeCount := x.routeCount + 1 })

/-- source.c:180-185 `release_source`. -/
def releaseSource (s : St) (k : SKey) : St :=
  modSource s k (fun x => { x with routeCount := x.routeCount - 1 })

/-- The new value computed by `update_source`, source.c:187-205. -/
def updatedSource (now : Int) (seqno : UInt16) (metric : Nat) (x : Source) : Source :=
  if metric ≥ INFINITY then x
  else if x.time < now - SOURCE_GC_TIME ∨ seqnoCompare x.seqno seqno < 0 ∨
      (x.seqno = seqno ∧ x.metric > metric) then
    { x with seqno := seqno, metric := metric, time := now }
  else { x with time := now }

/-- source.c:187-205 `update_source`. -/
def updateSource (s : St) (k : SKey) (seqno : UInt16) (metric : Nat) : St :=
  modSource s k (updatedSource s.now.sec seqno metric)

/-- source.c:207-232 `expire_sources`: first the clock-stepped check, then the removal. -/
def expireSources (s : St) : St :=
  let l := s.sources.map (fun x => if x.time > s.now.sec then { x with time := s.now.sec } else x)
  { s with sources :=
      l.filter (fun x => !(x.routeCount == 0 && decide (x.time < s.now.sec - SOURCE_GC_TIME))) }

/-! ### Routes, interfaces -/

/-- route.c:130-150 `find_route`. -/
def findRoute (s : St) (k : PKey) (n : NeighId) : Option Route := flatFind s.routes k n

/-- route.c:152-162 `find_installed_route`: the head of the slot, if it is installed. -/
def findInstalled (s : St) (k : PKey) : Option Route :=
  match slotOf s.routes k with
  | [] => none
  | r :: _ => if r.installed then some r else none

/-- Assignment through a `struct babel_route *`. -/
def modRoute (s : St) (k : PKey) (n : NeighId) (f : Route → Route) : St :=
  { s with routes := flatModify s.routes k n f }

/-- xroute.c:107-116 `find_xroute`. -/
def findXroute (s : St) (k : PKey) : Option Xroute := s.xroutes.find? (·.key == k)

def getIf (s : St) (i : IfId) : Option Iface := s.ifaces.find? (·.ifindex == i)

def modIf (s : St) (i : IfId) (f : Iface → Iface) : St :=
  { s with ifaces := s.ifaces.map (fun x => if x.ifindex == i then f x else x) }

/-- interface.h `if_up`. -/
def ifUp (s : St) (i : IfId) : Bool :=
  match getIf s i with
  | some x => x.up
  | none => false

/-- FOR_ALL_INTERFACES. -/
def allIfs (s : St) : List IfId := s.ifaces.map (·.ifindex)

end Babel
