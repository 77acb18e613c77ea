import Verif.Model.Select
/-
Model of xroute.c (redistributed routes) and of `handle_request` (message.c).
-/
namespace Babel

/-- kernel.h:28-37 `struct kernel_route`, the part used by xroute.c. -/
structure KRoute where
  key : PKey
  metric : Nat
  ifindex : IfId
  proto : Int
deriving DecidableEq, Repr, Inhabited

/-- Insertion at the place given by `find_xroute_slot` (xroute.c:75-104, 139-142); the table is
sorted by `xroute_compare`. -/
def xInsert (x : Xroute) : List Xroute → List Xroute
  | [] => [x]
  | y :: l => if xrouteCompare x.key y.key == .gt then y :: xInsert x l else x :: y :: l

/-- xroute.c:118-153 `add_xroute`: the second component is `rc > 0`. -/
def addXroute (s : St) (kr : KRoute) : St × Bool :=
  match findXroute s kr.key with
  | some _ => (s, false)
  | none =>
    let x : Xroute := ⟨kr.key, kr.metric, kr.ifindex, kr.proto⟩
    (emit { s with xroutes := xInsert x s.xroutes } (.notifyXroute .add x), true)

/-- xroute.c:163-167: the key used by `flush_xroute` after the entry has been removed: the
destination address and the source prefix length are those of the withdrawn route, but the
destination prefix length and the source address are taken from the FIRST entry of the table. -/
def flushXrouteKey (s : St) (x : Xroute) : PKey :=
  let x0 := s.xroutes.headD default
  ⟨x.key.prefix_, x0.key.plen, x0.key.srcPrefix, x.key.srcPlen⟩

/-- xroute.c:155-204 `flush_xroute`; reallocation failure not modelled. -/
def flushXroute (c : Cfg) (s : St) (x : Xroute) (sendUpdates : Bool) : St :=
  let k := flushXrouteKey s x
  let s1 := emit s (.notifyXroute .flush x)
  let s2 := { s1 with xroutes := s1.xroutes.filter (fun y => !(y.key == x.key)) }
  let b := findBest c s2 k true none
  let s3 := b.2
  match b.1.bind (findRoute s3 k) with
  | some r =>
    if routeMetric r < INFINITY ∧ routeFeasible s3 r then
      let s4 := installRoute c s3 k r.neigh
      if sendUpdates then sendUpdate c s4 false k else s4
    else if sendUpdates then sendUpdateResend c s3 k else s3
  | none => if sendUpdates then sendUpdateResend c s3 k else s3

/-- xroute.c:358-369 `modify_xroute`. -/
def modifyXroute (c : Cfg) (s : St) (x : Xroute) (kr : KRoute) (update : Bool) : St :=
  if x.metric ≠ kr.metric ∨ x.proto ≠ kr.proto then
    let x' := { x with metric := kr.metric, proto := kr.proto }
    let s1 := emit { s with xroutes := s.xroutes.map (fun y => if y.key == x.key then x' else y) }
      (.notifyXroute .change x')
    if update then sendUpdate c s1 false x.key else s1
  else s

/-- xroute.c:376-377: a redistributed route with this metric displaces the selected route. -/
def displaces (c : Cfg) (metric : Nat) : Bool :=
  match c.allowDup with
  | none => true
  | some a => decide (metric < a)

/-- xroute.c:371-380 `flush_duplicate_route`. -/
def flushDuplicateRoute (c : Cfg) (s : St) (kr : KRoute) : St :=
  match findInstalled s kr.key with
  | none => s
  | some r =>
    if displaces c kr.metric then
      uninstallRoute c s kr.key r.neigh
    else s

/-- xroute.c:392-400, 474-483: the redistribution filter sets the metric and may replace the source
prefix. -/
def redistribute (c : Cfg) (kr : KRoute) : KRoute :=
  let f := c.redistFilter kr.key kr.ifindex kr.proto
  { kr with
    metric := f.1
    key := match f.2 with
      | none => kr.key
      | some (p, l) => { kr.key with srcPrefix := p, srcPlen := l } }

/-- xroute.c:423-431, 513-523: add a redistributed route and announce it. -/
def addAndAnnounce (c : Cfg) (s : St) (kr : KRoute) (sendUpdates : Bool) : St × Bool :=
  let p := addXroute s kr
  if p.2 then
    let s1 := flushDuplicateRoute c p.1 kr
    (if sendUpdates then sendUpdate c s1 false kr.key else s1, true)
  else p

/-- xroute.c:383-433 `kernel_route_notify`. -/
def kernelRouteNotify (c : Cfg) (s : St) (add : Bool) (kr0 : KRoute) : St :=
  let kr := redistribute c kr0
  if kr.metric ≥ INFINITY then s
  else
    match findXroute s kr.key with
    | some x => if add then modifyXroute c s x kr true else flushXroute c s x true
    | none =>
      if !add then s
      else if martianPrefix kr.key.prefix_ kr.key.plen then s
      else (addAndAnnounce c s kr true).1

/-- xroute.c:330-356 `kernel_route_compare`. -/
def kernelRouteCompare (a b : KRoute) : Ordering := xrouteCompare a.key b.key

/-- xroute.c:504-525: a kernel route that is not in the table; `cont` is the rest of the loop. -/
def mergeAdd (c : Cfg) (sendUpdates : Bool) (cont : List KRoute → Nat → St → St) (kr : KRoute)
    (rest : List KRoute) (j : Nat) (s : St) : St :=
  if !martianPrefix kr.key.prefix_ kr.key.plen then
    let p := addAndAnnounce c s kr sendUpdates
    cont rest (if p.2 then j + 1 else j) p.1
  else cont rest j s

/-- xroute.c:489-539: the merge of the sorted kernel routes with the table; `j` is the index in
the table.  The fuel is at least the number of iterations. -/
def mergeXroutes (c : Cfg) (sendUpdates : Bool) : Nat → List KRoute → Nat → St → St
  | 0, _, _, s => s
  | fuel + 1, krs, j, s =>
    match krs, s.xroutes[j]? with
    | [], none => s
    | [], some x => mergeXroutes c sendUpdates fuel [] j (flushXroute c s x sendUpdates)
    | kr :: rest, x? =>
      if kr.metric ≥ INFINITY then mergeXroutes c sendUpdates fuel rest j s
      else
        match x? with
        | none => mergeAdd c sendUpdates (mergeXroutes c sendUpdates fuel) kr rest j s
        | some x =>
          match xrouteCompare kr.key x.key with
          | .lt => mergeAdd c sendUpdates (mergeXroutes c sendUpdates fuel) kr rest j s
          | .gt => mergeXroutes c sendUpdates fuel (kr :: rest) j (flushXroute c s x sendUpdates)
          | .eq => mergeXroutes c sendUpdates fuel rest (j + 1) (modifyXroute c s x kr sendUpdates)

/-- xroute.c:436-552 `check_xroutes`, given the addresses and routes reported by the kernel (already
restricted by `filter_route` and `filter_address`; the table size limits are not modelled). -/
def checkXroutes (c : Cfg) (s : St) (krs0 : List KRoute) (sendUpdates : Bool) : St :=
  let krs := sortBy kernelRouteCompare (krs0.map (redistribute c))
  mergeXroutes c sendUpdates (2 * krs.length + s.xroutes.length + 1) krs 0 s

/-! ### Requests -/

/-- message.c:2303-2315: a request for a destination we redistribute. -/
def answerOwn (c : Cfg) (s : St) (n : NeighId) (k : PKey) (hopCount : Nat) (seqno : UInt16)
    (id : Bytes) : St :=
  if hopCount > 0 ∧ id = c.myid ∧ seqnoCompare seqno s.myseqno > 0 then
    if seqnoMinus seqno s.myseqno > 100 then s
    else sendUpdateIf c { s with myseqno := seqnoPlus s.myseqno 1 } (c.ifOf n) true k
  else sendUpdateIf c s (c.ifOf n) true k

/-- message.c:2317-2321: the selected route answers the request: it has another router-id or a recent
enough sequence number. -/
def answersRequest (route : Option Route) (seqno : UInt16) (id : Bytes) : Bool :=
  match route with
  | some r => id != r.id || decide (seqnoCompare seqno r.seqno ≤ 0)
  | none => false

/-- message.c:2327-2331: the requested sequence number is implausibly far in the future. -/
def requestTooFar (route : Option Route) (seqno : UInt16) (id : Bytes) : Bool :=
  match route with
  | some r => id == r.id && decide (seqnoMinus seqno r.seqno > 100)
  | none => false

/-- message.c:2337-2340: the next hop of the selected route. -/
def routeSuccessor (route : Option Route) : Option NeighId :=
  match route with
  | some r => if routeMetric r < INFINITY then some r.neigh else none
  | none => none

/-- message.c:2337-2350: the neighbour a request is forwarded to. -/
def chooseSuccessor (c : Cfg) (s : St) (n : NeighId) (k : PKey) (route : Option Route) :
    Option NeighId × St :=
  let succ := routeSuccessor route
  if succ = none ∨ succ = some n then
    match findBest c s k false (some n) with
    | (none, s1) => (succ, s1)
    | (some m, s1) =>
      match findRoute s1 k m with
      | none => (succ, s1)
      | some r => (if routeMetric r < INFINITY then some r.neigh else succ, s1)
  else (succ, s)

/-- message.c:2352-2359. -/
def forwardRequest (c : Cfg) (s : St) (n : NeighId) (k : PKey) (hopCount : Nat) (seqno : UInt16)
    (id : Bytes) (successor : Option NeighId) : St :=
  match successor with
  | none => s
  | some m =>
    if m = n then s
    else recordResend c (sendUnicastMh c s m k seqno id (hopCount - 1)) .request k seqno (some id)
      (some (c.ifOf n)) 0

/-- message.c:2289-2360 `handle_request`. -/
def handleRequest (c : Cfg) (s : St) (n : NeighId) (k : PKey) (hopCount : Nat) (seqno : UInt16)
    (id : Bytes) : St :=
  match preferredXroute c s k with
  | some _ => answerOwn c s n k hopCount seqno id
  | none =>
    let route := findInstalled s k
    if answersRequest route seqno id then sendUpdateIf c s (c.ifOf n) true k
    else if hopCount ≤ 1 then s
    else if requestTooFar route seqno id then s
    else if requestRedundant s (c.ifOf n) k seqno id then s
    else
      let p := chooseSuccessor c s n k route
      forwardRequest c p.2 n k hopCount seqno id p.1

end Babel
