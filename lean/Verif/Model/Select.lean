import Verif.Model.Kernel
/-
Model of route selection and of the processing of updates in route.c.
-/
namespace Babel

/-- route.c:711-722 `route_acceptable`. -/
def routeAcceptable (s : St) (r : Route) (feasible : Bool) (exclude : Option NeighId) : Bool :=
  if routeExpired s r then false
  else if feasible && !routeFeasible s r then false
  else if exclude = some r.neigh then false
  else true

/-- route.c:740-755: the scan of a slot, given the neighbours of its routes in order; `best` is
the candidate so far. -/
def bestScan (c : Cfg) (k : PKey) (feasible : Bool) (exclude : Option NeighId) :
    List NeighId → Option NeighId → St → Option NeighId × St
  | [], best, s => (best, s)
  | n :: ns, best, s =>
    match findRoute s k n with
    | none => bestScan c k feasible exclude ns best s
    | some r =>
      if !routeAcceptable s r feasible exclude then bestScan c k feasible exclude ns best s
      else
        match best with
        | none => bestScan c k feasible exclude ns (some n) s
        | some b =>
          let p := smoothRoute c s k n
          let q := smoothRoute c p.2 k b
          bestScan c k feasible exclude ns (if p.1 < q.1 then some n else some b) q.2

/-- route.c:729-756 `find_best_route`; the result is the neighbour of the route. -/
def findBest (c : Cfg) (s : St) (k : PKey) (feasible : Bool) (exclude : Option NeighId) :
    Option NeighId × St :=
  bestScan c k feasible exclude ((slotOf s.routes k).map (·.neigh)) none s

/-- message.c:2263-2287 `send_request_resend`. -/
def sendRequestResend (c : Cfg) (s : St) (k : PKey) (seqno : UInt16) (id : Bytes) : St :=
  match findBest c s k false none with
  | (some n, s1) =>
    recordResend c (sendUnicastMh c s1 n k seqno id 127) .request k seqno (some id)
      (some (c.ifOf n)) c.resendDelay
  | (none, s1) =>
    (allIfs s1).foldl (fun s i => if ifUp s i then sendMh s i none k seqno id 127 else s) s1

/-- route.c:1003-1005, 1183-1184: the seqno to request for a source. -/
def requestSeqno (src : Source) : UInt16 :=
  if src.metric ≥ INFINITY then src.seqno else seqnoPlus src.seqno 1

/-- route.c:986-1008 `send_unfeasible_request`. -/
def sendUnfeasibleRequest (c : Cfg) (s : St) (n : NeighId) (force : Bool) (seqno : UInt16)
    (metric : Nat) (sk : SKey) : St :=
  match findSource s sk with
  | none => s
  | some src =>
    if seqnoMinus src.seqno seqno > 100 then s
    else if force || (match findInstalled s sk.key with
        | none => true
        | some r => decide (routeMetric r ≥ metric + 512)) then
      sendUnicastMh c s n sk.key (requestSeqno src) sk.id 127
    else s

/-- route.c:1093-1120: the urgency of a triggered update: `none` means nothing is sent, 2 that the
update will be repeated. -/
def triggerUrgency (s : St) (r : Route) (oldsrc : SKey) (oldmetric : Nat) : Option Nat :=
  let newmetric := routeMetric r
  let diff := if newmetric ≥ oldmetric then newmetric - oldmetric else oldmetric - newmetric
  if r.skey ≠ oldsrc ∨ (oldmetric < INFINITY ∧ newmetric ≥ INFINITY) then some 2
  else if newmetric > oldmetric ∧ oldmetric < 6 * 256 ∧ diff ≥ 512 then some 1
  else if unsatisfiedRequest s r.key r.seqno r.id then some 1
  else if oldmetric ≥ INFINITY ∧ newmetric < INFINITY then some 0
  else if newmetric < oldmetric ∧ diff < 1024 then none
  else if diff < 384 then none
  else some 0

/-- route.c:1082-1135 `send_triggered_update`. -/
def sendTriggeredUpdate (c : Cfg) (s : St) (k : PKey) (n : NeighId) (oldsrc : SKey)
    (oldmetric : Nat) : St :=
  match findRoute s k n with
  | none => s
  | some r =>
    if !r.installed then s
    else
      match triggerUrgency s r oldsrc oldmetric with
      | none => s
      | some u =>
        let s1 := if u ≥ 2 then sendUpdateResend c s k else sendUpdate c s (u == 1) k
        if oldmetric < INFINITY ∧ routeMetric r ≥ oldmetric + 288
        then sendMulticastRequest c s1 (some k) else s1

/-- route.c:1029: a redistributed route keeps the route from being selected. -/
def xrouteBlocks (c : Cfg) (s : St) (k : PKey) : Bool :=
  match findXroute s k with
  | none => false
  | some x =>
    match c.allowDup with
    | none => true
    | some a => decide (x.metric ≥ a)

/-- route.c:1036-1049: whether `r` should replace the selected route; comparing smoothed metrics
updates them. -/
def shouldSwitch (c : Cfg) (s : St) (r : Route) (installed : Option Route) : Bool × St :=
  match installed with
  | none => (true, s)
  | some o =>
    if routeMetric r ≥ INFINITY then (false, s)
    else if routeMetric o ≥ INFINITY then (true, s)
    else if routeMetric o ≥ routeMetric r then
      let p := smoothRoute c s r.key o.neigh
      let q := smoothRoute c p.2 r.key r.neigh
      (decide (p.1 > q.1), q.2)
    else (false, s)

/-- route.c:1051-1058: install the route, announce the change. -/
def considerInstall (c : Cfg) (s : St) (k : PKey) (n : NeighId) (installed : Option Route) : St :=
  match installed with
  | none => sendUpdate c (installRoute c s k n) true k
  | some o =>
    let s1 := switchRoutes c s k o.neigh n
    match findRoute s1 k n with
    | none => s1
    | some r' =>
      if r'.installed then sendTriggeredUpdate c s1 k n o.skey (routeMetric o)
      else sendUpdate c s1 true k

/-- route.c:1015-1059 `consider_route`. -/
def considerRoute (c : Cfg) (s : St) (k : PKey) (n : NeighId) : St :=
  match findRoute s k n with
  | none => s
  | some r =>
    if r.installed then s
    else if !routeFeasible s r then s
    else if xrouteBlocks c s k then s
    else
      let installed := findInstalled s k
      let d := shouldSwitch c s r installed
      if d.1 then considerInstall c d.2 k n installed else d.2

/-- route.c:1143-1152: first half of `route_changed`. -/
def routeChangedBetter (c : Cfg) (s : St) (k : PKey) (n : NeighId) : St :=
  match findRoute s k n with
  | none => s
  | some r =>
    if r.installed then
      match findBest c s k true none with
      | (none, s1) => s1
      | (some b, s1) =>
        match findRoute s1 k b with
        | none => s1
        | some rb => if routeMetric rb < routeMetric r then considerRoute c s1 k b else s1
    else s

/-- route.c:1139-1162 `route_changed`. -/
def routeChanged (c : Cfg) (s : St) (k : PKey) (n : NeighId) (oldsrc : SKey) (oldmetric : Nat) :
    St :=
  let s1 := routeChangedBetter c s k n
  match findRoute s1 k n with
  | none => s1
  | some r =>
    if r.installed then sendTriggeredUpdate c s1 k n oldsrc oldmetric
    else considerRoute c s1 k n

/-- route.c:1173-1186: no replacement for a lost route. -/
def announceLost (c : Cfg) (s : St) (sk : SKey) (oldmetric : Nat) : St :=
  if oldmetric < INFINITY then
    let s1 := sendUpdateResend c s sk.key
    if oldmetric ≤ INFINITY / 2 then
      match findSource s1 sk with
      | none => s1
      | some src => sendRequestResend c s1 sk.key (requestSeqno src) sk.id
    else s1
  else s

/-- route.c:1165-1187 `route_lost`. -/
def routeLost (c : Cfg) (s : St) (sk : SKey) (oldmetric : Nat) : St :=
  match findBest c s sk.key true none with
  | (none, s1) => announceLost c s1 sk oldmetric
  | (some n, s1) =>
    match findRoute s1 sk.key n with
    | none => s1
    | some r =>
      if routeFeasible s1 r then considerRoute c s1 sk.key n
      else announceLost c s1 sk oldmetric

/-- route.c:254-279: unlinking a route. -/
def unlinkRoute (s : St) (k : PKey) (n : NeighId) : St :=
  { s with routes := flatRemove s.routes k n }

/-- route.c:232-285 `flush_route`. -/
def flushRoute (c : Cfg) (s : St) (k : PKey) (n : NeighId) : St :=
  match findRoute s k n with
  | none => s
  | some r =>
    let s1 := if r.installed then uninstallRoute c s k n else s
    let s2 := unlinkRoute (notifyRoute s1 .flush k n) k n
    let s3 := if r.installed then routeLost c s2 r.skey (routeMetric r) else s2
    releaseSource s3 r.skey

/-- route.c:758-785 `update_route_metric`. -/
def updateRouteMetric (c : Cfg) (s : St) (k : PKey) (n : NeighId) : St :=
  match findRoute s k n with
  | none => s
  | some r =>
    let oldmetric := routeMetric r
    let p := smoothRoute c s k n
    let s1 := p.2
    if routeExpired s r then
      if r.refmetric < INFINITY then
        let seq := match findSource s1 r.skey with
          | some src => seqnoPlus src.seqno 1
          | none => r.seqno
        let s2 := modRoute s1 k n (fun r => { r with seqno := seq })
        let s3 := retractRoute c s2 k n
        if oldmetric < INFINITY then routeChanged c s3 k n r.skey oldmetric else s3
      else s1
    else
      let add := c.inputFilter (some r.id) k (some n) (c.ifOf n)
      let s2 := changeRouteMetric c s1 k n r.refmetric (s1.ncost n) add
      match findRoute s2 k n with
      | none => s2
      | some r2 =>
        if routeMetric r2 ≠ oldmetric then routeChanged c s2 k n r.skey oldmetric
        else
          let q := smoothRoute c s2 k n
          if q.1 ≠ p.1 then routeChanged c q.2 k n r.skey oldmetric else q.2

/-- route.c:837. -/
def holdTimeOf (interval : Nat) : Nat := max ((4 * interval) / 100 + interval / 50) 15

/-- route.c:906-926: the part of `update_route` that stores an update for a known route. -/
def applyUpdate (c : Cfg) (s : St) (k : PKey) (n : NeighId) (id : Bytes) (seqno : UInt16)
    (refmetric add hold : Nat) (uninstall : Bool) : St :=
  let s2 := if uninstall then uninstallRoute c s k n else s
  let s3 := modRoute (retainSource s2 ⟨id, k⟩) k n (fun r => { r with
    id := id, seqno := seqno, time := if refmetric < INFINITY then s.now.sec else r.time })
  let s4 := changeRouteMetric c s3 k n refmetric (s.ncost n) add
  modRoute s4 k n (fun r => { r with holdTime := hold })

/-- route.c:881-885: the source of an update. -/
def sourceFor (s : St) (r : Option Route) (sk : SKey) (seqno : UInt16) : St :=
  if r.map (·.id) = some sk.id then s else ensureSource s sk seqno

/-- route.c:893-937: update for a known route `r`. -/
def updateExisting (c : Cfg) (s : St) (r : Route) (id : Bytes) (seqno : UInt16)
    (refmetric add hold : Nat) : St :=
  let k := r.key
  let n := r.neigh
  let sk : SKey := ⟨id, k⟩
  let feasible := updateFeasible s (findSource s sk) seqno refmetric
  let metric := min (refmetric + s.ncost n + add) INFINITY
  let lost0 := !feasible && r.installed && id != r.id
  let s5 := applyUpdate c s k n id seqno refmetric add hold lost0
  let s6 := routeChanged c s5 k n r.skey (routeMetric r)
  let lost := lost0 || (r.installed && (findInstalled s6 k).isNone)
  let s7 :=
    if lost then routeLost c s6 r.skey (routeMetric r)
    else if !feasible then
      sendUnfeasibleRequest c s6 n
        (match findRoute s6 k n with | some r => routeOld s6 r | none => false) seqno metric sk
    else s6
  releaseSource s7 r.skey

/-- route.c:960-971: the new route. -/
def newRoute (s : St) (k : PKey) (n : NeighId) (id : Bytes) (seqno : UInt16)
    (refmetric add hold : Nat) (nexthop : Bytes) : Route :=
  let r : Route := ⟨id, k, refmetric, s.ncost n, add, seqno, n, nexthop, s.now.sec, hold, 0,
    s.now.sec, false⟩
  { r with smoothed := max (routeMetric r) (INFINITY / 2) }

/-- route.c:938-980: update for an unknown route. -/
def updateNew (c : Cfg) (s : St) (k : PKey) (n : NeighId) (id : Bytes) (seqno : UInt16)
    (refmetric add hold : Nat) (nexthop : Option Bytes) : St :=
  let sk : SKey := ⟨id, k⟩
  match nexthop with
  | none => s
  | some nh =>
    let feasible := updateFeasible s (findSource s sk) seqno refmetric
    let metric := min (refmetric + s.ncost n + add) INFINITY
    let s1 := if !feasible then sendUnfeasibleRequest c s n false seqno metric sk else s
    let s2 := retainSource s1 sk
    let r := newRoute s2 k n id seqno refmetric add hold nh
    let s3 := { s2 with routes := flatInsert s2.routes r }
    considerRoute c (notifyRoute s3 .add k n) k n

/-- route.c:840-864: updates that are refused before looking at the table. -/
def updateRefused (c : Cfg) (id : Option Bytes) (k : PKey) (refmetric : Nat) (n : NeighId) : Bool :=
  (match id with
   | none => decide (refmetric < INFINITY)
   | some id => id == c.myid) ||
  martianPrefix k.prefix_ k.plen || martianPrefix k.srcPrefix k.srcPlen ||
  v4mapped k.prefix_ != v4mapped k.srcPrefix ||
  decide (c.inputFilter id k (some n) (c.ifOf n) ≥ INFINITY)

/-- route.c:825-982 `update_route`. -/
def updateRoute (c : Cfg) (s : St) (id : Option Bytes) (k : PKey) (seqno : UInt16)
    (refmetric interval : Nat) (n : NeighId) (nexthop : Option Bytes) : St :=
  if updateRefused c id k refmetric n then s
  else
    let add := c.inputFilter id k (some n) (c.ifOf n)
    match findRoute s k n, id with
    | none, none => s
    | none, some id =>
      if refmetric ≥ INFINITY then s
      else updateNew c (sourceFor s none ⟨id, k⟩ seqno) k n id seqno refmetric add
        (holdTimeOf interval) nexthop
    | some r, id? =>
      let id := id?.getD r.id
      updateExisting c (sourceFor s (some r) ⟨id, k⟩ seqno) r id seqno refmetric add
        (holdTimeOf interval)

/-! ### Walks over the table -/

/-- The destinations of the route table in the order of the array. -/
def slotKeys (s : St) : List PKey :=
  sortBy routeCompare (s.routes.map (·.key)).eraseDups

/-- The route after `(k, n)` in its slot (`r->next`). -/
def succOf : List Route → NeighId → Option NeighId
  | [], _ => none
  | r :: l, n => if r.neigh == n then l.head?.map (·.neigh) else succOf l n

/-- `while(r) { act(r); r = r->next; }` from the route `cur`.  The list may be reordered by `act`;
the fuel bounds the number of iterations, and all theorems hold for every fuel. -/
def walkFrom (act : St → NeighId → St) (k : PKey) : Nat → Option NeighId → St → St
  | 0, _, s => s
  | _ + 1, none, s => s
  | fuel + 1, some n, s =>
    let s1 := act s n
    walkFrom act k fuel (succOf (slotOf s1.routes k) n) s1

/-- The walk of one slot. -/
def walkSlot (act : St → PKey → NeighId → St) (fuel : Nat) (s : St) (k : PKey) : St :=
  walkFrom (fun s n => act s k n) k fuel ((slotOf s.routes k).head?.map (·.neigh)) s

/-- route.c:789-807 `update_neighbour_metric` with `changed` set. -/
def updateNeighbourMetric (c : Cfg) (fuel : Nat) (s : St) (n : NeighId) : St :=
  (slotKeys s).foldl (walkSlot (fun s k m => if m == n then updateRouteMetric c s k m else s) fuel) s

/-- route.c:809-822 `update_interface_metric`. -/
def updateInterfaceMetric (c : Cfg) (fuel : Nat) (s : St) (i : IfId) : St :=
  (slotKeys s).foldl
    (walkSlot (fun s k m => if c.ifOf m == i then updateRouteMetric c s k m else s) fuel) s

/-- route.c:1069-1076: the body of `retract_neighbour_routes`. -/
def retractOne (c : Cfg) (s : St) (k : PKey) (n : NeighId) : St :=
  match findRoute s k n with
  | none => s
  | some r =>
    if r.refmetric ≠ INFINITY then
      let s1 := retractRoute c s k n
      if routeMetric r ≠ INFINITY then routeChanged c s1 k n r.skey (routeMetric r) else s1
    else s

/-- route.c:1061-1080 `retract_neighbour_routes`. -/
def retractNeighbourRoutes (c : Cfg) (fuel : Nat) (s : St) (n : NeighId) : St :=
  (slotKeys s).foldl (walkSlot (fun s k m => if m == n then retractOne c s k m else s) fuel) s

/-- `while some route of the slot satisfies p, flush the first one` (the `goto again` of
route.c:307-350). -/
def flushSlot (c : Cfg) (p : Route → Bool) (k : PKey) : Nat → St → St
  | 0, s => s
  | fuel + 1, s =>
    match (slotOf s.routes k).find? p with
    | none => s
    | some r => flushSlot c p k fuel (flushRoute c s k r.neigh)

/-- route.c:307-350: the loops of `flush_neighbour_routes` and `flush_interface_routes`. -/
def flushWhere (c : Cfg) (p : Route → Bool) (s : St) : St :=
  (slotKeys s).foldl (fun s k => flushSlot c p k (slotOf s.routes k).length s) s

/-- route.c:307-327 `flush_neighbour_routes`. -/
def flushNeighbourRoutes (c : Cfg) (s : St) (n : NeighId) : St :=
  flushWhere c (fun r => r.neigh == n) s

/-- route.c:329-350 `flush_interface_routes`. -/
def flushInterfaceRoutes (c : Cfg) (s : St) (i : IfId) (v4only : Bool) : St :=
  flushWhere c (fun r => c.ifOf r.neigh == i && (!v4only || v4mapped r.nexthop)) s

/-- route.c:295-300: uninstall and flush every route of a slot. -/
def flushAllSlot (c : Cfg) (k : PKey) : Nat → St → St
  | 0, s => s
  | fuel + 1, s =>
    match (slotOf s.routes k).head? with
    | none => s
    | some r =>
      flushAllSlot c k fuel (flushRoute c (uninstallRoute c s k r.neigh) k r.neigh)

/-- route.c:287-305 `flush_all_routes`. -/
def flushAllRoutes (c : Cfg) (s : St) : St :=
  (slotKeys s).reverse.foldl (fun s k => flushAllSlot c k (slotOf s.routes k).length s) s

/-- route.c:1204: the route is removed by the expiry pass. -/
def dueForFlush (s : St) (r : Route) : Bool := decide (r.time > s.now.sec) || routeOld s r

/-- route.c:1209-1217: the treatment of a route that is kept by the expiry pass. -/
def expireKeep (c : Cfg) (s : St) (k : PKey) (n : NeighId) : St :=
  let s1 := updateRouteMetric c s k n
  match findRoute s1 k n with
  | none => s1
  | some r =>
    if r.installed && decide (r.refmetric < INFINITY) && routeOld s1 r then
      sendUnicastRequest c s1 n k
    else s1

/-- route.c:1201-1221: the expiry of one slot from the route `cur`; after a removal the slot is
walked again from its head.  Second component: whether the walk was finished. -/
def expireFrom (c : Cfg) (k : PKey) : Nat → Option NeighId → St → St × Bool
  | 0, _, s => (s, false)
  | _ + 1, none, s => (s, true)
  | fuel + 1, some n, s =>
    match findRoute s k n with
    | none => (s, false)
    | some r =>
      if dueForFlush s r then
        let s1 := flushRoute c s k n
        expireFrom c k fuel ((slotOf s1.routes k).head?.map (·.neigh)) s1
      else
        let s1 := expireKeep c s k n
        expireFrom c k fuel (succOf (slotOf s1.routes k) n) s1

/-- route.c:1201-1221 for a whole slot. -/
def expireSlot (c : Cfg) (fuel : Nat) (s : St) (k : PKey) : St × Bool :=
  expireFrom c k fuel ((slotOf s.routes k).head?.map (·.neigh)) s

/-- route.c:1191-1224 `expire_routes`. -/
def expireRoutes (c : Cfg) (fuel : Nat) (s : St) : St × Bool :=
  (slotKeys s).foldl (fun p k =>
    let q := expireSlot c fuel p.1 k
    (q.1, p.2 && q.2)) (s, true)

end Babel
