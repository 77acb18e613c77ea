import Verif.Model.Queue
/-
Model of `kernel_route` (kernel_netlink.c) and of the functions of route.c that select and
deselect routes and change their metric.
-/
namespace Babel

/-- kernel.h:26. -/
def KERNEL_INFINITY : Nat := 65535

/-- kernel_netlink.c:988-999: protocol family check. -/
def familyOk (k : PKey) (gate : Bytes) : Bool :=
  if k.isV4 then v4mapped k.srcPrefix
  else !(v4mapped gate || v4mapped k.srcPrefix)

/-- kernel_netlink.c:1031-1037: source-specific routes need IPv6 subtrees. -/
def srcUnsupported (c : Cfg) (k : PKey) : Bool :=
  k.isSS && (v4mapped k.prefix_ || !c.subtrees)

/-- kernel_netlink.c:1048: unreachable default routes are not put in the kernel. -/
def skippedDefault (k : PKey) (metric : Nat) : Bool :=
  decide (metric ≥ KERNEL_INFINITY) && (k.plen == 0 || (v4mapped k.prefix_ && k.plen == 96))

/-- kernel_netlink.c:1060-1136: the route described by a request. -/
def kernelEntry (table : Nat) (k : PKey) (gate : Bytes) (ifindex : IfId) (metric : Nat) : KEntry :=
  ⟨table, k, if metric < KERNEL_INFINITY then some (gate, ifindex, metric) else none⟩

/-- kernel_netlink.c:955-1139 `kernel_route(ROUTE_ADD, …)`.  The kernel's answer is arbitrary; the
route is in the kernel afterwards iff it is positive. -/
def kernelAdd (c : Cfg) (s : St) (table : Nat) (k : PKey) (gate : Bytes) (ifindex : IfId)
    (metric : Nat) : KRes × St :=
  if !familyOk k gate || srcUnsupported c k then (.fail, s)
  else if skippedDefault k metric then (.ok, s)
  else
    let (res, s1) := popK s
    if res = .ok then (.ok, { s1 with fib := kernelEntry table k gate ifindex metric :: s1.fib })
    else (res, s1)

/-- kernel_netlink.c:955-1139 `kernel_route(ROUTE_FLUSH, …)`. -/
def kernelFlush (c : Cfg) (s : St) (table : Nat) (k : PKey) (gate : Bytes) (ifindex : IfId)
    (metric : Nat) : KRes × St :=
  if !familyOk k gate || srcUnsupported c k then (.fail, s)
  else if skippedDefault k metric then (.ok, s)
  else
    let (res, s1) := popK s
    if res = .ok then
      (.ok, { s1 with fib := s1.fib.erase (kernelEntry table k gate ifindex metric) })
    else (.fail, s1)

/-- kernel_netlink.c:1001-1026 `kernel_route(ROUTE_MODIFY, …)`; `true` if it returns ≥ 0. -/
def kernelModify (c : Cfg) (s : St) (table : Nat) (k : PKey) (gate : Bytes) (ifindex : IfId)
    (metric : Nat) (newgate : Bytes) (newif : IfId) (newmetric : Nat) : Bool × St :=
  if !familyOk k gate then (false, s)
  else if newmetric = metric ∧ newgate = gate ∧ newif = ifindex then (true, s)
  else
    let s1 := (kernelFlush c s table k gate ifindex metric).2
    let r := kernelAdd c s1 table k newgate newif newmetric
    (decide (r.1 ≠ .fail), r.2)

/-- route.c:409-420 `metric_to_kernel`. -/
def metricToKernel (c : Cfg) (metric : Nat) : Nat :=
  if metric ≥ INFINITY then KERNEL_INFINITY
  else if c.reflect then min (c.kernelMetric + metric) KERNEL_INFINITY
  else c.kernelMetric

/-- route.c:460: table a route is installed in. -/
def routeTable (c : Cfg) (r : Route) : Nat :=
  let t := (c.installFilter r.id r.key (c.ifOf r.neigh)).2
  if t ≠ 0 then t else c.exportTable

/-- route.c:440-467 `change_route(ROUTE_ADD, …)`. -/
def changeAdd (c : Cfg) (s : St) (r : Route) (metric : Nat) : KRes × St :=
  if (c.installFilter r.id r.key (c.ifOf r.neigh)).1 ≥ INFINITY then (.fail, s)
  else kernelAdd c s (routeTable c r) r.key r.nexthop (c.ifOf r.neigh) metric

/-- route.c:440-467 `change_route(ROUTE_FLUSH, …)`. -/
def changeFlush (c : Cfg) (s : St) (r : Route) (metric : Nat) : KRes × St :=
  kernelFlush c s (routeTable c r) r.key r.nexthop (c.ifOf r.neigh) metric

/-- route.c:440-467 `change_route(ROUTE_MODIFY, …)`. -/
def changeModify (c : Cfg) (s : St) (r : Route) (metric : Nat) (newgate : Bytes) (newif : IfId)
    (newmetric : Nat) : Bool × St :=
  kernelModify c s (routeTable c r) r.key r.nexthop (c.ifOf r.neigh) metric newgate newif newmetric

/-! ### Notifications -/

/-- local.c:268-276 `local_notify_route`. -/
def notifyRoute (s : St) (kind : NKind) (k : PKey) (n : NeighId) : St :=
  match findRoute s k n with
  | some r => emit s (.notifyRoute kind r)
  | none => s

/-! ### Smoothed metric -/

/-- route.c:652-671 `change_smoothing_half_life`: `two_to_the_one_over_hl`. -/
def twoToTheOneOverHl (halfLife : Nat) : Int :=
  match halfLife with
  | 0 => 0
  | 1 => 131072
  | 2 => 92682
  | 3 => 82570
  | 4 => 77935
  | n => 65536 + 45426 / (n : Int)

/-- The increment applied to the smoothed metric in one iteration, with `r` the random number,
route.c:690-691 (`whole` half-life) and 695-697.  Division truncates towards zero as in C.
Unbounded integers here; overflow is studied in `Props/Metric.lean`. -/
def smoothInc (halfLife : Nat) (r : Nat) (metric smoothed : Nat) (whole : Bool) : Int :=
  let d := roughly r ((metric : Int) - smoothed)
  if whole then d.tdiv 2 else (d * (twoToTheOneOverHl halfLife - 65536)).tdiv 65536

/-- route.c:689-699: the two loops.  The number of iterations is at most the elapsed time, which
is the fuel. -/
def smoothLoop (halfLife metric : Nat) (now : Int) :
    Nat → (Nat → Nat) → Nat → Int → Nat × (Nat → Nat)
  | 0, rnd, sm, _ => (sm, rnd)
  | fuel + 1, rnd, sm, t =>
    let rnd' := fun i => rnd (i + 1)
    if t ≤ now - halfLife then
      smoothLoop halfLife metric now fuel rnd'
        (((sm : Int) + smoothInc halfLife (rnd 0) metric sm true) % 65536).toNat (t + halfLife)
    else if t < now then
      smoothLoop halfLife metric now fuel rnd'
        (((sm : Int) + smoothInc halfLife (rnd 0) metric sm false) % 65536).toNat (t + 1)
    else (sm, rnd)

/-- route.c:701-703: close enough counts as converged. -/
def smoothSnap (metric sm : Nat) : Nat :=
  let d := (metric : Int) - sm
  if d > -4 ∧ d < 4 then metric else sm

/-- route.c:674-709 `route_smoothed_metric`: new smoothed metric and rest of the random stream. -/
def smoothedMetric (halfLife : Nat) (now : Int) (rnd : Nat → Nat) (r : Route) :
    Nat × (Nat → Nat) :=
  let m := routeMetric r
  if halfLife = 0 ∨ m ≥ INFINITY ∨ r.smoothedTime > now ∨ r.smoothed = m then (m, rnd)
  else
    let p := smoothLoop halfLife m now (now - r.smoothedTime).toNat rnd r.smoothed r.smoothedTime
    (smoothSnap m p.1, p.2)

/-- route.c:674-709 `route_smoothed_metric` applied to the route `(k, n)`: returns the smoothed
metric and the state with the route updated. -/
def smoothRoute (c : Cfg) (s : St) (k : PKey) (n : NeighId) : Nat × St :=
  match findRoute s k n with
  | none => (0, s)
  | some r =>
    let p := smoothedMetric c.halfLife s.now.sec s.rand r
    (p.1, { modRoute s k n (fun r => { r with smoothed := p.1, smoothedTime := s.now.sec })
            with rand := p.2 })

/-! ### Selecting routes -/

/-- route.c:633-650 `update_feasible`. -/
def updateFeasible (s : St) (src : Option Source) (seqno : UInt16) (refmetric : Nat) : Bool :=
  match src with
  | none => true
  | some src =>
    if src.time < s.now.sec - SOURCE_GC_TIME then true
    else if refmetric ≥ INFINITY then true
    else decide (seqnoCompare seqno src.seqno > 0) ||
         (src.seqno == seqno && decide (refmetric < src.metric))

/-- route.c:615-619 `route_feasible`. -/
def routeFeasible (s : St) (r : Route) : Bool :=
  updateFeasible s (findSource s r.skey) r.seqno r.refmetric

/-- The record of a selection; see `Out.selected`. -/
def selectionLog (s : St) (k : PKey) (n : NeighId) (old : Option Route) : List Out :=
  match findRoute s k n with
  | none => []
  | some r => [.selected r (findSource s r.skey) s.now.sec old]

/-- Setting `installed` and moving the route to the head of its slot, route.c:501-502. -/
def markInstalled (s : St) (k : PKey) (n : NeighId) (old : Option Route) : St :=
  let s1 := modRoute s k n (fun r => { r with installed := true })
  { s1 with routes := flatMove s1.routes k n, out := selectionLog s k n old ++ s.out }

/-- The warning of route.c:477-479 and 546-548. -/
def warnIfUnfeasible (s : St) (r : Route) : St :=
  if routeFeasible s r then s else emit s (.warnUnfeasible r.key r.neigh)

/-- route.c:469-505 `install_route`. -/
def installRoute (c : Cfg) (s0 : St) (k : PKey) (n : NeighId) : St :=
  match findRoute s0 k n with
  | none => s0
  | some r =>
    if r.installed then s0
    else
    let s := warnIfUnfeasible s0 r
    if (findInstalled s k).isSome then emit s (.warnDuplicate k n)
    else
      let (rc, s1) := changeAdd c s r (metricToKernel c (routeMetric r))
      if rc = .fail then s1
      else notifyRoute (markInstalled s1 k n none) .change k n

/-- route.c:507-528 `uninstall_route`. -/
def uninstallRoute (c : Cfg) (s : St) (k : PKey) (n : NeighId) : St :=
  match findRoute s k n with
  | none => s
  | some r =>
    if !r.installed then s
    else
      let s1 := modRoute s k n (fun r => { r with installed := false })
      let (rc, s2) := changeFlush c s1 r (metricToKernel c (routeMetric r))
      if rc = .ok then notifyRoute s2 .change k n else s2

/-- route.c:533-569 `switch_routes` with `old` not NULL. -/
def switchRoutes (c : Cfg) (s : St) (k : PKey) (old new : NeighId) : St :=
  match findRoute s k old, findRoute s k new with
  | some o, some r =>
    if !o.installed then s
    else
      let (ok, s1) := changeModify c (warnIfUnfeasible s r) o
        (metricToKernel c (routeMetric o)) r.nexthop (c.ifOf r.neigh) (metricToKernel c (routeMetric r))
      if !ok then s1
      else
        let s2 := modRoute s1 k old (fun r => { r with installed := false })
        let s3 := markInstalled s2 k new (some o)
        notifyRoute (notifyRoute s3 .change k old) .change k new
  | _, _ => s

/-- route.c:595-602: the assignments of `change_route_metric`. -/
def setMetric (c : Cfg) (now : Int) (refmetric cost add : Nat) (r : Route) : Route :=
  let r1 := { r with refmetric := refmetric, cost := cost, addMetric := add }
  if c.halfLife = 0 then { r1 with smoothed := routeMetric r1, smoothedTime := now } else r1

/-- route.c:571-605 `change_route_metric`. -/
def changeRouteMetric (c : Cfg) (s : St) (k : PKey) (n : NeighId) (refmetric cost add : Nat) : St :=
  match findRoute s k n with
  | none => s
  | some r =>
    let old := metricToKernel c (routeMetric r)
    let new := metricToKernel c (min (refmetric + cost + add) INFINITY)
    let (ok, s1) :=
      if r.installed ∧ old ≠ new then changeModify c s r old r.nexthop (c.ifOf r.neigh) new
      else (true, s)
    if !ok then s1
    else
      let s2 := (smoothRoute c s1 k n).2
      notifyRoute (modRoute s2 k n (setMetric c s.now.sec refmetric cost add)) .change k n

/-- route.c:607-613 `retract_route`. -/
def retractRoute (c : Cfg) (s : St) (k : PKey) (n : NeighId) : St :=
  changeRouteMetric c s k n INFINITY INFINITY 0

/-- route.c:621-625 `route_old`. -/
def routeOld (s : St) (r : Route) : Bool :=
  decide (r.time < s.now.sec - ((r.holdTime * 7 / 8 : Nat) : Int))

/-- route.c:627-631 `route_expired`. -/
def routeExpired (s : St) (r : Route) : Bool := decide (r.time < s.now.sec - (r.holdTime : Int))

end Babel
