SEEDS = []
def d(f, de, old, new, claim, **k):
    SEEDS.append(dict(file=f, old=old, new=new, claim=claim, **{"def": de}, **k))
S = "Model/Select.lean"
d(S, "findBest", "((slotOf s.routes k).map (·.neigh)) none s", "((slotOf s.routes k).tail.map (·.neigh)) none s", "C28")
d(S, "sendTriggeredUpdate", "routeMetric r ≥ oldmetric + 288", "routeMetric r ≥ oldmetric", "C61")
d(S, "sendTriggeredUpdate", "if !r.installed then s\n    else\n      match triggerUrgency", "if r.installed then s\n    else\n      match triggerUrgency", "C32")
d(S, "sendTriggeredUpdate", "sendUpdateResend c s k else sendUpdate c s (u == 1) k", "sendUpdateResend c s k else sendUpdate c s (u == 0) k", "C32")
d(S, "routeLost", "| (none, s1) => announceLost c s1 sk oldmetric\n  | (some n, s1)", "| (none, s1) => s1\n  | (some n, s1)", "C32")
d(S, "routeLost", "if routeFeasible s1 r then considerRoute c s1 sk.key n\n      else announceLost c s1 sk oldmetric", "considerRoute c s1 sk.key n", "C32", equiv=True)
d(S, "unlinkRoute", "flatRemove s.routes k n", "s.routes", "C24")
d(S, "sourceFor", "then s else ensureSource s sk seqno", "then s else s", "C23")
d(S, "slotKeys", "sortBy routeCompare (s.routes.map (·.key)).eraseDups", "sortBy routeCompare ((s.routes.filter (·.installed)).map (·.key)).eraseDups", "C30")
d(S, "succOf", "then l.head?.map (·.neigh) else succOf l n", "then l.tail.head?.map (·.neigh) else succOf l n", "C30")
d(S, "walkFrom", "walkFrom act k fuel (succOf (slotOf s1.routes k) n) s1", "s1", "C30")
d(S, "walkSlot", "((slotOf s.routes k).head?.map (·.neigh)) s", "((slotOf s.routes k).getLast?.map (·.neigh)) s", "C30")
d(S, "updateNeighbourMetric", "if m == n then updateRouteMetric", "if m != n then updateRouteMetric", "C58")
d(S, "updateInterfaceMetric", "if c.ifOf m == i then updateRouteMetric", "if m == i then updateRouteMetric", "C58")
d(S, "retractNeighbourRoutes", "if m == n then retractOne c s k m else s", "if m != n then retractOne c s k m else s", "C49")
d(S, "flushSlot", "flushSlot c p k fuel (flushRoute c s k r.neigh)", "flushRoute c s k r.neigh", "C48")
d(S, "flushWhere", "(slotKeys s).foldl (fun s k => flushSlot c p k (slotOf s.routes k).length s) s", "((slotKeys s).take 1).foldl (fun s k => flushSlot c p k (slotOf s.routes k).length s) s", "C48")
d(S, "flushNeighbourRoutes", "(fun r => r.neigh == n) s", "(fun r => r.neigh == n && r.installed) s", "C48")
d(S, "flushAllSlot", "flushAllSlot c k fuel (flushRoute c (uninstallRoute c s k r.neigh) k r.neigh)", "flushAllSlot c k fuel (flushRoute c s k r.neigh)", "C48")
d(S, "flushAllRoutes", "(slotKeys s).reverse.foldl", "(slotKeys s).tail.reverse.foldl", "C48")
d(S, "expireKeep", "let s1 := updateRouteMetric c s k n\n  match", "let s1 := s\n  match", "C30")
d(S, "expireFrom", "if dueForFlush s r then\n        let s1 := flushRoute c s k n", "if dueForFlush s r then\n        let s1 := unlinkRoute s k n", "C30")
d(S, "expireRoutes", "(q.1, p.2 && q.2)", "(q.1, q.2)", "C30")
d(S, "updateRouteMetric", "if routeExpired s r then\n      if r.refmetric < INFINITY then", "if routeOld s r then\n      if r.refmetric < INFINITY then", "C30")
d(S, "updateRouteMetric", "changeRouteMetric c s1 k n r.refmetric (s1.ncost n) add", "changeRouteMetric c s1 k n r.refmetric r.cost add", "C58")
d(S, "updateRouteMetric", "changeRouteMetric c s1 k n r.refmetric (s1.ncost n) add", "changeRouteMetric c s1 k n r.refmetric (s1.ncost n) r.addMetric", "C58")
d(S, "retractOne", "if routeMetric r ≠ INFINITY then routeChanged c s1 k n r.skey (routeMetric r) else s1", "s1", "C49")
d(S, "applyUpdate", "time := if refmetric < INFINITY then s.now.sec else r.time", "time := s.now.sec", "C30")
d(S, "applyUpdate", "id := id, seqno := seqno, time", "seqno := seqno, time", "C23")
d(S, "applyUpdate", "(s.ncost n) add\n  modRoute s4", "(s.ncost n) 0\n  modRoute s4", "C58")
d(S, "newRoute", "⟨id, k, refmetric, s.ncost n, add, seqno, n, nexthop", "⟨id, k, refmetric, 0, add, seqno, n, nexthop", "C75")
d(S, "updateNew", "considerRoute c (notifyRoute s3 .add k n) k n", "considerRoute c s3 k n", "C46")
d(S, "updateRefused", "v4mapped k.prefix_ != v4mapped k.srcPrefix ||", "", "C49")
d(S, "updateRoute", "if refmetric ≥ INFINITY then s\n      else updateNew", "updateNew", "C49")
K = "Model/Kernel.lean"
d(K, "srcUnsupported", "(v4mapped k.prefix_ || !c.subtrees)", "!c.subtrees", "C26")
d(K, "kernelFlush", "if res = .ok then\n      (.ok, { s1 with fib := s1.fib.erase (kernelEntry table k gate ifindex metric) })", "if res = .ok then\n      (.ok, s1)", "C26")
d(K, "kernelFlush", "else (.fail, s1)\n\n/-- kernel_netlink.c:1001", "else (.fail, { s1 with fib := s1.fib.erase (kernelEntry table k gate ifindex metric) })\n\n/-- kernel_netlink.c:1001", "C26")
d(K, "kernelAdd", "if res = .ok then (.ok, {", "if res ≠ .fail then (.ok, {", "C26")
d(K, "changeFlush", "kernelFlush c s (routeTable c r) r.key r.nexthop (c.ifOf r.neigh) metric", "kernelFlush c s c.exportTable r.key r.nexthop (c.ifOf r.neigh) metric", "C26")
d(K, "changeModify", "metric newgate newif newmetric", "metric newgate newif metric", "C26")
d(K, "notifyRoute", "| some r => emit s (.notifyRoute kind r)", "| some r => if r.installed then emit s (.notifyRoute kind r) else s", "C46")
d(K, "twoToTheOneOverHl", "| 3 => 82570", "| 3 => 82670", "C31")
d(K, "twoToTheOneOverHl", "65536 + 45426 / (n : Int)", "65536 + 45426 * (n : Int)", "C31")
d(K, "smoothRoute", "smoothed := p.1, smoothedTime := s.now.sec", "smoothed := p.1, smoothedTime := r.smoothedTime", "C31")
d(K, "routeFeasible", "r.seqno r.refmetric", "r.seqno (routeMetric r)", "C27")
d(K, "selectionLog", "(findSource s r.skey)", "none", "C27")
d(K, "warnIfUnfeasible", "if routeFeasible s r then s else", "if !routeFeasible s r then s else", "C27")
d(K, "metricToKernel", "min (c.kernelMetric + metric) KERNEL_INFINITY", "c.kernelMetric + metric", "C26")
d(K, "installRoute", "if rc = .fail then s1", "if rc ≠ .ok then s1", "C26")
d(K, "installRoute", "(findInstalled s k).isSome then emit s (.warnDuplicate k n)", "false then emit s (.warnDuplicate k n)", "C24")
d(K, "retractRoute", "INFINITY INFINITY 0", "INFINITY 0 0", "C49")
d(K, "changeRouteMetric", "if r.installed ∧ old ≠ new then", "if old ≠ new then", "C26")
d(K, "changeRouteMetric", "if !ok then s1\n    else\n      let s2", "if ok then s1\n    else\n      let s2", "C58")
Q = "Model/Queue.lean"
d(Q, "containsId", "e.2.plen == 128 &&", "", "C40")
d(Q, "insertBy", "if cmp x y == .gt then", "if cmp x y == .lt then", "C40")
d(Q, "sortBy", "l.foldr (insertBy cmp) []", "(l.foldr (insertBy cmp) []).tail", "C40")
d(Q, "queuedId", "| some r => r.id\n  | none => c.myid", "| some _ => c.myid\n  | none => c.myid", "C40", equiv=True)
d(Q, "setTimeout", "timevalAddMsec now (roughly r msecs)", "timevalAddMsec now msecs", "C38")
d(Q, "slotCount", "(s.routes.map (·.key)).eraseDups.length", "0", "C40", equiv=True)
d(Q, "queueSize", "(ifp.bufSize / 16)", "0", "C40", equiv=True)
d(Q, "sendSelfUpdate", "s.xroutes.foldl", "s.xroutes.tail.foldl", "C40")
d(Q, "installedKeys", "(s.routes.filter (·.installed)).map (·.key)", "s.routes.map (·.key)", "C40", equiv=True)
d(Q, "installedKeys", "(s.routes.filter (·.installed)).map (·.key)", "((s.routes.filter (·.installed)).map (·.key)).take 100", "C40")
d(Q, "sendRequest", "if ssBlocked s i k then s else emit s (.request i to (some k))", "emit s (.request i to (some k))", "C36")
d(Q, "sendMulticastRequest", "(allIfs s).foldl", "(allIfs s).tail.foldl", "C61")
d(Q, "sendUnicastRequest", "(c.ifOf n) (some n) (some k)", "(c.ifOf n) none (some k)", "C61")
d(Q, "sendMh", "if ssBlocked s i k then s else emit s (.mhRequest i to k seqno id hopCount)", "emit s (.mhRequest i to k seqno id hopCount)", "C36")
d(Q, "sendMh", "emit s (.mhRequest i to k seqno id hopCount)", "emit s (.mhRequest i to k (seqno + 1) id hopCount)", "C61")
d(Q, "sendMulticastMhIf", "if !ifUp s1 i then s1 else", "", "C61")
d(Q, "sendMulticastMh", "if ifUp s i then sendMulticastMhIf c s i k seqno id hopCount else s", "sendMulticastMhIf c s i k seqno id hopCount", "C61", equiv=True)
d(Q, "sendMulticastMh", "| some i => sendMulticastMhIf c s i k seqno id hopCount", "| some i => s", "C61")
d(Q, "sendUnicastMh", "(c.ifOf n) (some n) k seqno id hopCount", "(c.ifOf n) none k seqno id hopCount", "C61")
d(Q, "sendUpdateOpt", "| none => sendUpdate c s true k", "| none => s", "C40")
d(Q, "doResendOne", "delay := min 65535 (r.delay * 2)", "delay := r.delay", "C38")
d(Q, "doResendOne", "max := (r.max + 255) % 256", "max := r.max", "C38")
d(Q, "doResend", "(List.range s.resends.length).foldl", "(List.range (s.resends.length - 1)).foldl", "C38")
d(Q, "flushUpdates", "queue := [], queueCap := 0", "queueCap := 0", "C40")
d(Q, "updateJitter", "min helloInterval 100 else min helloInterval 4000", "min helloInterval 4000 else min helloInterval 100", "C40")
R = "Model/Resend.lean"
d(R, "resendMatch", "r.kind == kind && r.key == k", "r.key == k", "C38")
d(R, "modFirst", "if p r then f r :: l else", "if p r then f r :: modFirst p f l else", "C38")
d(R, "resendDue", "(r.delay : Int)", "(r.delay * 2 : Int)", "C38")
d(R, "REQUEST_TIMEOUT", "65000", "6500", "C38")
d(R, "RESEND_MAX", "def RESEND_MAX : Nat := 3", "def RESEND_MAX : Nat := 30", "C38")
d(R, "recordResend", "let delay := min delay0 65535", "let delay := delay0", "C38")
d(R, "recordResend", "if r'.2 then s1 else armResend s1 r'.1", "s1", "C38")
d(R, "satisfyRequest", "if ifp ≠ none ∧ r.ifp ≠ ifp then s", "if r.ifp ≠ ifp then s", "C39")
d(R, "unsatisfiedRequest", "if resendExpired s.now r then false", "if false then false", "C39")
T = "Model/State.lean"
d(T, "emit", "out := o :: s.out", "out := s.out", "C32")
d(T, "SOURCE_GC_TIME", "Int := 200", "Int := 20", "C27")
d(T, "modSource", "if x.skey == k then f x else x", "f x", "C27")
d(T, "retainSource", "x.routeCount + 1", "x.routeCount", "C23")
d(T, "updateSource", "(updatedSource s.now.sec seqno metric)", "(updatedSource 0 seqno metric)", "C27")
d(T, "findXroute", "s.xroutes.find? (·.key == k)", "s.xroutes.find? (·.key.prefix_ == k.prefix_)", "C34")
d(T, "modIf", "if x.ifindex == i then f x else x", "f x", "C32")
d(T, "ifUp", "| some x => x.up", "| some _ => true", "C32")
d(T, "popK", "(s.kres 0, { s with kres := fun i => s.kres (i + 1) })", "(s.kres 0, s)", "C26")
N = "Model/Node.lean"
d(N, "announceUp", "if full then sendUpdateAny c s i false else s", "s", "C32")
Y = "Model/Types.lean"
d(Y, "routeMetric", "min (r.refmetric + r.cost + r.addMetric) INFINITY", "r.refmetric + r.cost + r.addMetric", "C58")
d(Y, "routeMetric", "r.refmetric + r.cost + r.addMetric", "r.refmetric + r.cost", "C58")
