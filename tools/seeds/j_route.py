S="Model/State.lean"
RS="Model/Resend.lean"
Q="Model/Queue.lean"
K="Model/Kernel.lean"
SE="Model/Select.lean"
N="Model/Node.lean"
def d(f,defn,old,new,claim,**k): return dict(file=f,**{"def":defn},old=old,new=new,claim=claim,**k)
SEEDS=[
 d(S,"ensureSource","[⟨k, seqno, INFINITY, 0, s.now.sec⟩]","[⟨k, seqno, 0, 0, s.now.sec⟩]","C22 a new source has infinite metric"),
 d(S,"ensureSource","| some _ => s","| some _ => modSource s k (fun x => { x with seqno := seqno })","C22 an existing source is not changed"),
 d(S,"updatedSource","x.seqno = seqno ∧ x.metric > metric","x.seqno = seqno ∧ x.metric < metric","C22 feasibility distances decrease"),
 d(S,"updatedSource","seqnoCompare x.seqno seqno < 0","seqnoCompare x.seqno seqno > 0","C22 newer sequence numbers"),
 d(S,"updatedSource","if metric ≥ INFINITY then x","if false then x","C22 retractions do not change sources"),
 d(S,"updatedSource","else { x with time := now }","else x","C23 announced sources stay fresh"),
 d(S,"expireSources","x.routeCount == 0 && ","","C23 sources in use are kept"),
 d(S,"expireSources","decide (x.time < s.now.sec - SOURCE_GC_TIME)","decide (x.time < s.now.sec)","C23 sources are kept for 200 s"),
 d(S,"expireSources","if x.time > s.now.sec then { x with time := s.now.sec } else x","x","C23 a clock that goes backwards"),
 d(S,"releaseSource","x.routeCount - 1","x.routeCount","C23 reference counts"),
 d(S,"findInstalled","if r.installed then some r else none","some r","C24 selected routes"),
 d(RS,"resendExpired","decide (timevalMinusMsec now r.time ≥ REQUEST_TIMEOUT)","decide (timevalMinusMsec now r.time > REQUEST_TIMEOUT)","C38 expiry of requests"),
 d(RS,"resendExpired","decide (r.max ≤ 0)","false","C38 updates are forgotten after the last retransmission"),
 d(RS,"resendLive","&& decide (r.max > 0)","","C38 number of retransmissions"),
 d(RS,"resendLive","!resendExpired now r && ","","C38 expired entries are not sent"),
 d(RS,"recomputeResendTime","timevalMin t (resendDue r)","resendDue r","C38 the timer is that of the first entry due"),
 d(RS,"refreshResend","min r.delay delay","max r.delay delay","C38 delay of a refreshed entry"),
 d(RS,"refreshResend","time := now, max := RESEND_MAX","time := now","C38 a refreshed entry is sent three times"),
 d(RS,"refreshResend","seqnoCompare r1.seqno seqno > 0 then (r1, true)","seqnoCompare r1.seqno seqno < 0 then (r1, true)","C38 the newest sequence number is requested"),
 d(RS,"newResend","⟨kind, RESEND_MAX, delay, now,","⟨kind, RESEND_MAX + 1, delay, now,","C38 at most three retransmissions"),
 d(RS,"recordDenied","≥ INFINITY)\n  | .update","> INFINITY)\n  | .update","C41 filtered requests are not recorded"),
 d(RS,"armResend","timevalMin s.resendTime (resendDue r)","resendDue r","C38 the timer is not postponed"),
 d(RS,"recordResend","if recordDenied c kind k ifp then s","if false then s","C41 filtered requests are not recorded"),
 d(RS,"recordResend","armResend { s with resends := r :: s.resends } r","{ s with resends := r :: s.resends }","C38 the timer is armed"),
 d(RS,"unsatisfiedRequest","seqnoCompare r.seqno seqno ≤ 0","seqnoCompare r.seqno seqno > 0","C38 the update that answers a request is urgent"),
 d(RS,"requestRedundant","else if r.ifp ≠ none ∧ r.ifp ≠ some i then false","else if false then false","C39 requests from other interfaces"),
 d(RS,"requestRedundant","else if r.max > 0 then true","else if false then true","C39 pending requests suppress"),
 d(RS,"satisfyRequest","if ifp ≠ none ∧ r.ifp ≠ ifp then s","if false then s","C38 requests of other interfaces"),
 d(RS,"satisfyRequest","r.id ≠ id ∨ seqnoCompare r.seqno seqno ≤ 0","r.id ≠ id ∨ seqnoCompare r.seqno seqno < 0","C38 a request is satisfied by the requested sequence number"),
 d(RS,"expireResend","filter (fun r => !resendExpired s.now r)","filter (fun r => resendExpired s.now r)","C38 expired requests are removed"),
 d(Q,"reallySend","if !ifp.up then s","if false then s","C40 nothing is sent on an interface that is down"),
 d(Q,"reallySend","else if k.isSS && ifp.rfc6126 then s","else if false then s","C40 source-specific routes on old interfaces"),
 d(Q,"reallySend","if add ≥ INFINITY then s","if add > INFINITY then s","C41 the output filter"),
 d(Q,"reallySend","!ifp.hasV4 && !ifp.v4viav6","!ifp.hasV4","C40 IPv4 via IPv6"),
 d(Q,"reallySend","(min (metric + add) INFINITY)","metric","C30 metric announced"),
 d(Q,"compareBuffered","(cmpNat b.2.plen a.2.plen)","(cmpNat a.2.plen a.2.plen)","C40 order of updates"),
 d(Q,"cmpFlag","if a && !b then .gt","if a || b then .gt","C40 order of updates"),
 d(Q,"preferredXroute","findInstalled s k = none ∨ x.metric ≤ c.kernelMetric","findInstalled s k = none","C33 redistributed route preferred"),
 d(Q,"horizonBlocked","&& c.ifOf r.neigh == i","","C40 split horizon"),
 d(Q,"flushRt","if horizonBlocked c s i r then (s1, false)","if false then (s1, false)","C40 split horizon"),
 d(Q,"flushRt","updateSource (reallySend c s1 i r.id r.key r.seqno metric) r.skey r.seqno metric","reallySend c s1 i r.id r.key r.seqno metric","C25 the feasibility distance is updated before an update is sent"),
 d(Q,"flushRt","updateSource (reallySend c s1 i r.id r.key r.seqno metric) r.skey r.seqno metric","updateSource (reallySend c s1 i r.id r.key r.seqno metric) r.skey r.seqno r.refmetric","C25 the feasibility distance is that of the metric announced"),
 d(Q,"flushOne","| none => (reallySend c s i c.myid k s.myseqno INFINITY, false)","| none => (s, false)","C32 retractions are sent"),
 d(Q,"flushLoop","if last = some k then flushLoop c i ks last s","if false then flushLoop c i ks last s","C40 duplicates are sent once"),
 d(Q,"flushUpdates","modIf s i (fun x => { x with queue := [], queueCap := 0 })","modIf s i (fun x => { x with queueCap := 0 })","C40 the queue is emptied"),
 d(Q,"flushUpdates","fun x => { x with updateFlush := ⟨0, 0⟩ }","fun x => x","C47 the timer is reset"),
 d(Q,"updateJitter","min helloInterval 100 else","min helloInterval 4000 else","C47 urgent updates"),
 d(Q,"scheduleUpdateFlush","< msecs then s1","> msecs then s1","C47 an update is not postponed"),
 d(Q,"bufferUpdate","x.queue ++ [k]","[k]","C40 queued updates are not lost"),
 d(Q,"bufferUpdate","ifp.queue.length ≥ ifp.queueCap","ifp.queue.length > ifp.queueCap","C40 the queue does not overflow"),
 d(Q,"sendUpdateIf","if !ifUp s i then s\n  else scheduleUpdateFlush (bufferUpdate c s i k) i urgent","if !ifUp s i then s\n  else bufferUpdate c s i k","C47 an update is scheduled"),
 d(Q,"sendUpdate","if routeMetric r < INFINITY then\n      match","if true then\n      match","C38 requests are satisfied by reachable routes",tightened=['C38_retraction', 'C38_announcement']),
 d(Q,"sendUpdateWild","if k.isSS == ss then bufferUpdate c s i k else s","if k.isSS != ss then bufferUpdate c s i k else s","C47 full updates",equiv=False),
 d(Q,"sendUpdateWild","let s1 := sendSelfUpdate c s i","let s1 := s","C47 full updates include redistributed routes"),
 d(Q,"sendUpdateAny","(sendUpdateWild c (sendUpdateWild c s i urgent false) i urgent true)","(sendUpdateWild c s i urgent false)","C47 full updates include source-specific routes"),
 d(Q,"sendUpdateResend","recordResend c (sendUpdate c s true k) .update k 0 none none c.resendDelay","sendUpdate c s true k","C38 urgent updates are repeated"),
 d(Q,"sendMulticastRequestIf","sendRequest (flushUpdates c s i) i none k","sendRequest s i none k","C40 updates are sent before requests"),
 d(Q,"ssBlocked","k.isSS && ","","C40 requests on old interfaces"),
 d(Q,"doResendOne","min 65535 (r.delay * 2)","r.delay","C38 retransmissions slow down"),
 d(Q,"doResendOne","max := (r.max + 255) % 256","max := r.max","C38 at most three retransmissions"),
 d(Q,"doResendOne","timevalCompare s.now (resendDue r) ≥ 0","timevalCompare s.now (resendDue r) ≤ 0","C38 entries are sent when due"),
 d(K,"familyOk","else !(v4mapped gate || v4mapped k.srcPrefix)","else true","C26 address families"),
 d(K,"skippedDefault","decide (metric ≥ KERNEL_INFINITY) && ","","C26 default routes"),
 d(K,"kernelEntry","if metric < KERNEL_INFINITY then","if true then","C26 unreachable routes in the kernel"),
 d(K,"kernelAdd","if res = .ok then (.ok, {","if res ≠ .fail then (.ok, {","C26 routes refused by the kernel"),
 d(K,"kernelModify","newgate = gate ∧ newif = ifindex","newgate = gate","C26 the outgoing interface in the kernel"),
 d(K,"kernelModify","let s1 := (kernelFlush c s table k gate ifindex metric).2","let s1 := s","C26 the old route is removed"),
 d(K,"metricToKernel","min (c.kernelMetric + metric) KERNEL_INFINITY","c.kernelMetric + metric","C30 metric in the kernel"),
 d(K,"routeTable","if t ≠ 0 then t else c.exportTable","c.exportTable","C42 table of the install filter"),
 d(K,"changeAdd","≥ INFINITY then (.fail, s)","> INFINITY then (.fail, s)","C42 the install filter"),
 d(K,"smoothInc","d.tdiv 2","d","C31 smoothing"),
 d(K,"smoothLoop","if t ≤ now - halfLife then","if t < now - halfLife then","C31 whole half-lives"),
 d(K,"smoothSnap","if d > -4 ∧ d < 4 then metric else sm","sm","C31 convergence"),
 d(K,"smoothedMetric","if halfLife = 0 ∨ m ≥ INFINITY","if m ≥ INFINITY","C31 smoothing switched off"),
 d(K,"smoothedMetric","∨ m ≥ INFINITY ∨","∨","C31 retractions are not smoothed"),
 d(K,"updateFeasible","src.time < s.now.sec - SOURCE_GC_TIME","src.time < s.now.sec","C25 feasibility"),
 d(K,"updateFeasible","decide (refmetric < src.metric)","decide (refmetric ≤ src.metric)","C25 feasibility is strict"),
 d(K,"updateFeasible","seqnoCompare seqno src.seqno > 0","seqnoCompare seqno src.seqno ≥ 0","C25 feasibility"),
 d(K,"markInstalled","flatMove s1.routes k n","s1.routes","C24 the selected route is first in its slot"),
 d(K,"installRoute","if (findInstalled s k).isSome then emit s (.warnDuplicate k n)","if false then emit s (.warnDuplicate k n)","C24 one selected route per destination"),
 d(K,"installRoute","if rc = .fail then s1","if false then s1","C26 a route refused by the kernel is not selected"),
 d(K,"uninstallRoute","let (rc, s2) := changeFlush c s1 r (metricToKernel c (routeMetric r))","let (rc, s2) := ((.ok : KRes), s1)","C26 deselected routes leave the kernel"),
 d(K,"switchRoutes","let s2 := modRoute s1 k old (fun r => { r with installed := false })","let s2 := s1","C24 one selected route per destination"),
 d(K,"switchRoutes","if !ok then s1","if false then s1","C26 a route refused by the kernel is not selected"),
 d(K,"changeRouteMetric","if r.installed ∧ old ≠ new then","if old ≠ new then","C26 only selected routes are in the kernel"),
 d(K,"changeRouteMetric","else (true, s)\n    if !ok then s1","else (true, s)\n    if false then s1","C26 the kernel and the table agree"),
 d(K,"setMetric","cost := cost, addMetric := add","cost := cost","C30 metric of a route"),
 d(K,"retractRoute","INFINITY INFINITY 0","INFINITY 0 0","C30 retracted routes"),
 d(K,"routeOld","r.holdTime * 7 / 8","r.holdTime","C37 expiry"),
 d(K,"routeExpired","r.time < s.now.sec - (r.holdTime : Int)","r.time ≤ s.now.sec - (r.holdTime : Int)","C37 expiry"),
 d(SE,"routeAcceptable","if routeExpired s r then false\n","if false then false\n","C28 expired routes are not candidates"),
 d(SE,"routeAcceptable","else if exclude = some r.neigh then false","else if false then false","C36 the excluded neighbour"),
 d(SE,"bestScan","if p.1 < q.1 then some n else some b","if p.1 > q.1 then some n else some b","C28 the best route"),
 d(SE,"sendRequestResend","recordResend c (sendUnicastMh c s1 n k seqno id 127)","recordResend c s1","C36 requests are sent"),
 d(SE,"requestSeqno","if src.metric ≥ INFINITY then src.seqno else seqnoPlus src.seqno 1","src.seqno","C36 sequence number requested",tightened=['C32_asked', 'C61_new']),
 d(SE,"sendUnfeasibleRequest","if seqnoMinus src.seqno seqno > 100 then s","if false then s","C36 requests that are too far",tightened=['C61_new', 'C61_known']),
 d(SE,"triggerUrgency","r.skey ≠ oldsrc ∨ (oldmetric < INFINITY ∧ newmetric ≥ INFINITY) then some 2","oldmetric < INFINITY ∧ newmetric ≥ INFINITY then some 2","C32 changes of origin are urgent",tightened=['C32_triggered']),
 d(SE,"triggerUrgency","(oldmetric < INFINITY ∧ newmetric ≥ INFINITY) then some 2","(oldmetric < INFINITY ∧ newmetric > INFINITY) then some 2","C32 retractions are urgent",tightened=['C32_triggered']),
 d(SE,"triggerUrgency","else if diff < 384 then none","else if true then none","C32 big changes are announced",tightened=['C32_triggered']),
 d(SE,"xrouteBlocks","decide (x.metric ≥ a)","decide (x.metric < a)","C33 (correction of the inverted test)",tightened=['C59_first', 'C60_partial']),
 d(SE,"xrouteBlocks","| none => true","| none => false","C33 redistributed destinations"),
 d(SE,"shouldSwitch","if routeMetric r ≥ INFINITY then (false, s)\n","if false then (false, s)\n","C27 unreachable routes do not replace"),
 d(SE,"shouldSwitch","(decide (p.1 > q.1), q.2)","(decide (p.1 ≥ q.1), q.2)","C28 hysteresis"),
 d(SE,"considerInstall","| none => sendUpdate c (installRoute c s k n) true k","| none => installRoute c s k n","C32 new routes are announced"),
 d(SE,"considerRoute","else if !routeFeasible s r then s","else if false then s","C25 only feasible routes are selected"),
 d(SE,"considerRoute","else if xrouteBlocks c s k then s","else if false then s","C33 redistributed destinations"),
 d(SE,"routeChangedBetter","if routeMetric rb < routeMetric r then","if routeMetric rb > routeMetric r then","C28 a better route is considered"),
 d(SE,"routeChanged","else considerRoute c s1 k n","else s1","C28 an improved route is considered"),
 d(SE,"announceLost","let s1 := sendUpdateResend c s sk.key","let s1 := s","C32 lost routes are announced"),
 d(SE,"flushRoute","let s1 := if r.installed then uninstallRoute c s k n else s","let s1 := s","C26 removed routes leave the kernel"),
 d(SE,"flushRoute","let s3 := if r.installed then routeLost c s2 r.skey (routeMetric r) else s2","let s3 := s2","C32 lost routes are replaced or announced"),
 d(SE,"flushRoute","releaseSource s3 r.skey","s3","C23 reference counts"),
 d(SE,"updateRouteMetric","if routeExpired s r then\n","if routeOld s r then\n","C37 expiry"),
 d(SE,"updateRouteMetric","let s3 := retractRoute c s2 k n","let s3 := s2","C37 expired routes are retracted"),
 d(SE,"holdTimeOf","max ((4 * interval) / 100 + interval / 50) 15","(4 * interval) / 100 + interval / 50","C37 hold time"),
 d(SE,"applyUpdate","id := id, seqno := seqno,","id := id,","C25 the sequence number of a route"),
 d(SE,"applyUpdate","time := if refmetric < INFINITY then s.now.sec else r.time","time := s.now.sec","C37 retractions do not prolong a route"),
 d(SE,"updateExisting","releaseSource s7 r.skey","s7","C23 reference counts"),
 d(SE,"updateExisting","let lost0 := !feasible && r.installed && id != r.id","let lost0 := false","C25 an unfeasible update with another origin deselects"),
 d(SE,"newRoute","max (routeMetric r) (INFINITY / 2)","routeMetric r","C31 new routes start with a large smoothed metric",tightened=['C59_waits']),
 d(SE,"updateNew","let s2 := retainSource s1 sk","let s2 := s1","C23 reference counts"),
 d(SE,"updateRefused","| some id => id == c.myid) ||","| some id => false) ||","C33 own routes are not learnt"),
 d(SE,"updateRefused","martianPrefix k.prefix_ k.plen || ","","C41 martians are not learnt"),
 d(SE,"updateRefused","(c.ifOf n) ≥ INFINITY)","(c.ifOf n) > INFINITY)","C41 the input filter"),
 d(SE,"updateRoute","if refmetric ≥ INFINITY then s\n","if false then s\n","C27 retractions do not create routes"),
 d(SE,"retractOne","if r.refmetric ≠ INFINITY then","if r.refmetric = INFINITY then","C37 retraction of a neighbour's routes",tightened=['C58_retracted']),
 d(SE,"flushInterfaceRoutes","(!v4only || v4mapped r.nexthop)","(!v4only || !v4mapped r.nexthop)","C37 change of the IPv4 address"),
 d(SE,"dueForFlush","decide (r.time > s.now.sec) || ","","C37 a clock that goes backwards"),
 d(N,"step","sendUpdateIf c s (c.ifOf n) false k","s","C36 route requests are answered"),
 d(N,"step","{ x with queue := [], queueCap := 0 }","x","C40 an interface that goes down"),
]
