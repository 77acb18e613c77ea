import Verif.Model.Resend
/-
Model of the part of message.c that turns changes into messages: the per-interface queue of
updates, and the requests.
-/
namespace Babel

/-- v4-mapped destination, message.c:1582, 1466, 2087. -/
def PKey.isV4 (k : PKey) : Bool := decide (k.plen ≥ 96) && v4mapped k.prefix_

/-- message.c:1437-1545 `really_buffer_update`, called from `really_send_update`
(message.c:1547-1570): the conditions under which an update is put in the send buffer, and its
contents.  The encoding itself is in `Model/Buffer.lean`. -/
def reallySend (c : Cfg) (s : St) (i : IfId) (id : Bytes) (k : PKey) (seqno : UInt16)
    (metric : Nat) : St :=
  match getIf s i with
  | none => s
  | some ifp =>
    if !ifp.up then s
    else if k.isSS && ifp.rfc6126 then s
    else
      let add := c.outputFilter (some id) k i
      if add ≥ INFINITY then s
      else if k.isV4 && !ifp.hasV4 && !ifp.v4viav6 then s
      else emit s (.update i id k seqno (min (metric + add) INFINITY))

/-- message.c:1590: an IPv6 host route whose address contains the router-id. -/
def containsId (e : Bytes × PKey) : Bool :=
  !e.2.isV4 && e.2.plen == 128 && memcmp (e.2.prefix_.drop 8) e.1 == .eq

/-- `if(a) return 1 … else if(b) return -1` on two flags: true sorts last. -/
def cmpFlag (a b : Bool) : Ordering :=
  if a && !b then .gt else if !a && b then .lt else .eq

/-- message.c:1572-1613 `compare_buffered_updates`. -/
def compareBuffered (a b : Bytes × PKey) : Ordering :=
  (memcmp a.1 b.1).then <|
  (cmpFlag a.2.isV4 b.2.isV4).then <|
  (cmpFlag (containsId b) (containsId a)).then <|
  (cmpNat b.2.plen a.2.plen).then <|
  (memcmp a.2.prefix_ b.2.prefix_).then <|
  (cmpNat a.2.srcPlen b.2.srcPlen).then <|
  memcmp a.2.srcPrefix b.2.srcPrefix

/-- Insertion in a sorted list. -/
def insertBy {α : Type} (cmp : α → α → Ordering) (x : α) : List α → List α
  | [] => [x]
  | y :: l => if cmp x y == .gt then y :: insertBy cmp x l else x :: y :: l

/-- `qsort`; entries that compare equal are identical here, so that any correct sort gives the
same result. -/
def sortBy {α : Type} (cmp : α → α → Ordering) (l : List α) : List α :=
  l.foldr (insertBy cmp) []

/-- message.c:1650-1657: router-id used to sort a queued update. -/
def queuedId (c : Cfg) (s : St) (k : PKey) : Bytes :=
  match findInstalled s k with
  | some r => r.id
  | none => c.myid

/-- message.c:1678, 2303: the redistributed route to `k`, if it takes precedence over the selected
route. -/
def preferredXroute (c : Cfg) (s : St) (k : PKey) : Option Xroute :=
  match findXroute s k with
  | none => none
  | some x => if findInstalled s k = none ∨ x.metric ≤ c.kernelMetric then some x else none

/-- Split horizon applies, message.c:1700-1701. -/
def horizonBlocked (c : Cfg) (s : St) (i : IfId) (r : Route) : Bool :=
  (match getIf s i with | some ifp => ifp.splitHorizon | none => false) && c.ifOf r.neigh == i

/-- message.c:1687-1713: announce a selected route; the second component tells whether
`last_prefix` is set. -/
def flushRt (c : Cfg) (s : St) (i : IfId) (r : Route) : St × Bool :=
  let metric := routeMetric r
  let s1 := if metric < INFINITY then satisfyRequest s r.key r.seqno r.id (some i) else s
  if horizonBlocked c s i r then (s1, false)
  else (updateSource (reallySend c s1 i r.id r.key r.seqno metric) r.skey r.seqno metric, true)

/-- message.c:1673-1721: announce one destination; the second component tells whether
`last_prefix` is set. -/
def flushOne (c : Cfg) (s : St) (i : IfId) (k : PKey) : St × Bool :=
  match preferredXroute c s k with
  | some x => (reallySend c s i c.myid x.key s.myseqno x.metric, true)
  | none =>
    match findInstalled s k with
    | some r => flushRt c s i r
    | none => (reallySend c s i c.myid k s.myseqno INFINITY, false)

/-- message.c:1661-1722: the loop over the sorted queue. -/
def flushLoop (c : Cfg) (i : IfId) : List PKey → Option PKey → St → St
  | [], _, s => s
  | k :: ks, last, s =>
    if last = some k then flushLoop c i ks last s
    else
      let r := flushOne c s i k
      flushLoop c i ks (if r.2 then some k else last) r.1

/-- message.c:1615-1739 `flushupdates` for one interface.  The flush of the packet buffers
(`schedule_flush_now`) is modelled in `Model/Buffer.lean`. -/
def flushUpdates (c : Cfg) (s : St) (i : IfId) : St :=
  match getIf s i with
  | none => s
  | some ifp =>
    let q := ifp.queue
    let s1 :=
      if q.isEmpty then s
      else
        let s0 := modIf s i (fun x => { x with queue := [], queueCap := 0 })
        if !ifp.up then s0
        else
          let sorted := (sortBy compareBuffered (q.map (fun k => (queuedId c s k, k)))).map (·.2)
          flushLoop c i sorted none s0
    modIf s1 i (fun x => { x with updateFlush := ⟨0, 0⟩ })

/-- interface.c:147-156 `update_jitter`. -/
def updateJitter (r : Nat) (helloInterval : Nat) (urgent : Bool) : Int :=
  roughly r (if urgent then min helloInterval 100 else min helloInterval 4000 : Nat)

/-- interface.c:158-162 `set_timeout`. -/
def setTimeout (now : Timeval) (r : Nat) (msecs : Int) : Timeval :=
  timevalAddMsec now (roughly r msecs)

/-- message.c:1741-1750 `schedule_update_flush`. -/
def scheduleUpdateFlush (s : St) (i : IfId) (urgent : Bool) : St :=
  match getIf s i with
  | none => s
  | some ifp =>
    let (r1, s1) := popRand s
    let msecs := updateJitter r1 ifp.helloInterval urgent
    if ifp.updateFlush.sec ≠ 0 ∧ (timevalMinusMsec ifp.updateFlush s.now : Int) < msecs then s1
    else
      let (r2, s2) := popRand s1
      modIf s2 i (fun x => { x with updateFlush := setTimeout s.now r2 msecs })

/-- The number of slots of the route table (`installed_routes_estimate`, route.c:164-169). -/
def slotCount (s : St) : Nat := (s.routes.map (·.key)).eraseDups.length

/-- message.c:1761-1782: size of the queue when it is allocated. -/
def queueSize (s : St) (ifp : Iface) : Nat :=
  max (slotCount s + s.xroutes.length + 4) (ifp.bufSize / 16)

/-- message.c:1752-1791 `buffer_update` (allocation failure not modelled). -/
def bufferUpdate (c : Cfg) (s : St) (i : IfId) (k : PKey) : St :=
  match getIf s i with
  | none => s
  | some ifp =>
    let s1 := if ifp.queue.length > 0 ∧ ifp.queue.length ≥ ifp.queueCap
              then flushUpdates c s i else s
    modIf s1 i (fun x => { x with
      queue := x.queue ++ [k]
      queueCap := if x.queueCap = 0 then queueSize s1 x else x.queueCap })

/-- message.c:1817-1824, 1853: `send_update` on one interface for one destination. -/
def sendUpdateIf (c : Cfg) (s : St) (i : IfId) (urgent : Bool) (k : PKey) : St :=
  if !ifUp s i then s
  else scheduleUpdateFlush (bufferUpdate c s i k) i urgent

/-- message.c:1801-1815: `send_update` with `ifp == NULL` for one destination. -/
def sendUpdate (c : Cfg) (s : St) (urgent : Bool) (k : PKey) : St :=
  let s1 := (allIfs s).foldl (fun s i => sendUpdateIf c s i urgent k) s
  match findInstalled s1 k with
  | none => s1
  | some r =>
    if routeMetric r < INFINITY then
      match findSource s1 r.skey with
      | some src => satisfyRequest s1 k src.seqno r.id none
      | none => s1
    else s1

/-- message.c:1917-1944 `send_self_update` for one interface. -/
def sendSelfUpdate (c : Cfg) (s : St) (i : IfId) : St :=
  s.xroutes.foldl (fun s x => sendUpdateIf c s i false x.key) s

/-- The selected routes, in the order of `route_stream(1)` (route.c:359-401) up to the order of
the destinations, which does not matter here. -/
def installedKeys (s : St) : List PKey := (s.routes.filter (·.installed)).map (·.key)

/-- message.c:1825-1848: wildcard update, for the source-specific routes (`ss`) or for the
others. -/
def sendUpdateWild (c : Cfg) (s : St) (i : IfId) (urgent ss : Bool) : St :=
  if !ifUp s i then s
  else
    let s1 := sendSelfUpdate c s i
    let s2 := (installedKeys s1).foldl
      (fun s k => if k.isSS == ss then bufferUpdate c s i k else s) s1
    let (r, s3) := popRand s2
    let s4 := modIf s3 i (fun x => { x with
      updateTimeout := setTimeout s.now r (x.updateInterval : Int) })
    scheduleUpdateFlush s4 i urgent

/-- message.c:1849-1853: full wildcard update. -/
def sendUpdateAny (c : Cfg) (s : St) (i : IfId) (urgent : Bool) : St :=
  if !ifUp s i then s
  else scheduleUpdateFlush
    (sendUpdateWild c (sendUpdateWild c s i urgent false) i urgent true) i urgent

/-- message.c:1856-1866 `send_update_resend` with `ifp == NULL`. -/
def sendUpdateResend (c : Cfg) (s : St) (k : PKey) : St :=
  recordResend c (sendUpdate c s true k) .update k 0 none none c.resendDelay

/-! ### Requests -/

/-- Condition of message.c:2070, 2168: source-specific messages are not sent on RFC 6126
interfaces. -/
def ssBlocked (s : St) (i : IfId) (k : PKey) : Bool :=
  k.isSS && (match getIf s i with | some x => x.rfc6126 | none => false)

/-- message.c:2062-2109 `send_request`. -/
def sendRequest (s : St) (i : IfId) (to : Option NeighId) (k : Option PKey) : St :=
  match k with
  | none => emit s (.request i to none)
  | some k => if ssBlocked s i k then s else emit s (.request i to (some k))

/-- message.c:2126-2142 `send_multicast_request` on one interface. -/
def sendMulticastRequestIf (c : Cfg) (s : St) (i : IfId) (k : Option PKey) : St :=
  if !ifUp s i then s
  else sendRequest (flushUpdates c s i) i none k

/-- message.c:2111-2124 `send_multicast_request` with `ifp == NULL`. -/
def sendMulticastRequest (c : Cfg) (s : St) (k : Option PKey) : St :=
  (allIfs s).foldl (fun s i => sendMulticastRequestIf c s i k) s

/-- message.c:2145-2156 `send_unicast_request`. -/
def sendUnicastRequest (c : Cfg) (s : St) (n : NeighId) (k : PKey) : St :=
  if !ifUp s (c.ifOf n) then s
  else sendRequest (flushUpdates c s (c.ifOf n)) (c.ifOf n) (some n) (some k)

/-- message.c:2158-2202 `send_multihop_request`. -/
def sendMh (s : St) (i : IfId) (to : Option NeighId) (k : PKey) (seqno : UInt16) (id : Bytes)
    (hopCount : Nat) : St :=
  if ssBlocked s i k then s else emit s (.mhRequest i to k seqno id hopCount)

/-- message.c:2223-2243 `send_multicast_multihop_request` on one interface. -/
def sendMulticastMhIf (c : Cfg) (s : St) (i : IfId) (k : PKey) (seqno : UInt16) (id : Bytes)
    (hopCount : Nat) : St :=
  let s1 := flushUpdates c s i
  if !ifUp s1 i then s1 else sendMh s1 i none k seqno id hopCount

/-- message.c:2204-2245 `send_multicast_multihop_request`. -/
def sendMulticastMh (c : Cfg) (s : St) (ifp : Option IfId) (k : PKey) (seqno : UInt16)
    (id : Bytes) (hopCount : Nat) : St :=
  match ifp with
  | some i => sendMulticastMhIf c s i k seqno id hopCount
  | none => (allIfs s).foldl
      (fun s i => if ifUp s i then sendMulticastMhIf c s i k seqno id hopCount else s) s

/-- message.c:2247-2259 `send_unicast_multihop_request`. -/
def sendUnicastMh (c : Cfg) (s : St) (n : NeighId) (k : PKey) (seqno : UInt16) (id : Bytes)
    (hopCount : Nat) : St :=
  sendMh (flushUpdates c s (c.ifOf n)) (c.ifOf n) (some n) k seqno id hopCount

/-- resend.c:316-320 `send_update(resend->ifp, …)`: the interface of a recorded update is
always NULL. -/
def sendUpdateOpt (c : Cfg) (s : St) (ifp : Option IfId) (k : PKey) : St :=
  match ifp with
  | none => sendUpdate c s true k
  | some i => sendUpdateIf c s i true k

/-- resend.c:303-326: one entry of the list, identified by its position (entries are changed in
place but neither added nor removed during the walk). -/
def doResendOne (c : Cfg) (s : St) (j : Nat) : St :=
  match s.resends[j]? with
  | none => s
  | some r =>
    if resendLive s.now r && decide (timevalCompare s.now (resendDue r) ≥ 0) then
      let s1 := match r.kind with
        | .request => sendMulticastMh c s r.ifp r.key r.seqno r.id 127
        | .update => sendUpdateOpt c s r.ifp r.key
      { s1 with resends := s1.resends.modify j (fun r =>
          { r with delay := min 65535 (r.delay * 2), max := (r.max + 255) % 256 }) }
    else s

/-- resend.c:296-330 `do_resend`. -/
def doResend (c : Cfg) (s : St) : St :=
  recomputeResendTime ((List.range s.resends.length).foldl (doResendOne c) s)

end Babel
