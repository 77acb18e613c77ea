L="Model/Local.lean"
R="Model/Restart.lean"
X="Model/Xroute.lean"
D="Model/Dump.lean"
def d(f,defn,old,new,claim,**k): return dict(file=f,**{"def":defn},old=old,new=new,claim=claim,**k)
SEEDS=[
 d(L,"replyAfter","| .ok .quit => []","| .ok .quit => reply","C46 no reply to quit"),
 d(L,"replyAfter","| .ok _ => reply","| .ok _ => ascii \"ok\\n\"","C46 replies within one read (the code keeps the previous one)"),
 d(L,"replyAfter",'ascii "bad\\n"','ascii "ok\\n"',"C46 reply to a line with an error"),
 d(L,"sockAfter","| .ok .unmonitor => ({ k with monitor := false }, [])","| .ok .unmonitor => (k, [])","C46 unmonitor"),
 d(L,"sockAfter","| .ok .dump => (k, [.tables])","| .ok .dump => (k, [])","C46 dump sends the tables"),
 d(L,"sockAfter","({ k with shut := true }, [.close])","(k, [.close])","C46 nothing is sent after quit"),
 d(L,"canWrite","if k.shut then .error .other","if k.shut then .error .again","C53 the connection is closed after an error"),
 d(L,"localLoop","k.buf.takeWhile (· != 10) ++ [10]","k.buf.takeWhile (· != 10)","C46 the line includes its end"),
 d(L,"localLoop","{ k with buf := k.buf.drop line.length })\n          (s, k, o ++ o', res)","{ k with buf := [] })\n          (s, k, o ++ o', res)","C46 lines after quit",tightened=["C46_after_quit"]),
 d(L,"localLoop","localLoop L fuel full.tail reply (s, { k with buf := k.buf.drop line.length })","localLoop L fuel full.tail reply (s, { k with buf := [] })","C46 all lines of a read are executed"),
 d(L,"localRead","if k.buf.length ≥ LOCAL_BUFSIZE","if k.buf.length > LOCAL_BUFSIZE","C46 lines that are too long"),
 d(L,"localRead","b.take (LOCAL_BUFSIZE - k.buf.length)","b","C46 the buffer is not overrun"),
 d(L,"localRead","| .eof => (s, k, [], .eof)","| .eof => (s, k, [], .ok)","C53 a closed connection is dropped",tightened=["C53_closed"]),
 d(L,"serve","| (s, k, _, .fail .again) => serve L env s k","| (s, k, _, .fail .again) => some (s, k, true)","C53 the main loop retries"),
 d(R,"decDigits","if n < 10 then","if n < 9 then","C45 the number in the state file"),
 d(R,"saveState","if buf.length ≥ 10 then none","if buf.length ≥ 6 then none","C45 large sequence numbers are saved"),
 d(R,"saveState","if writeOk then some buf else none","some buf","C45 write errors",equiv=False,tightened=["C45_errors"]),
 d(R,"scanInt","if neg then max","if !neg then max","C45 the sign"),
 d(R,"startSeqno","seqnoPlus (UInt16.ofNat s.toNat) 1","UInt16.ofNat s.toNat","C45 the sequence number increases across restarts"),
 d(R,"startSeqno","s ≥ 0 ∧ s ≤ 0xFFFF","s ≥ 0 ∧ s < 0xFFFF","C45 65535 in the state file"),
 d(R,"startSeqno","if !unlinkOk then UInt16.ofNat random","if !unlinkOk then UInt16.ofNat 0","C45 a file that cannot be removed is not used",tightened=["C45_errors"]),
 d(R,"lives","startSeqno l.random (saveState true true s.myseqno)","startSeqno l.random (saveState true true q)","C45 the last sequence number is saved"),
 d(X,"xInsert","== .gt then y ::","== .lt then y ::","C34 the table is sorted"),
 d(X,"addXroute","| some _ => (s, false)","| some _ => (s, true)","C34 a known destination is not added again"),
 d(X,"addXroute","⟨kr.key, kr.metric, kr.ifindex, kr.proto⟩","⟨kr.key, 0, kr.ifindex, kr.proto⟩","C34 the metric of the table"),
 d(X,"flushXrouteKey","x0.key.plen","x.key.plen","C35 (correction of one half of the bug)"),
 d(X,"flushXrouteKey","⟨x.key.prefix_, x0","⟨x0.key.prefix_, x0","C35 the destination address"),
 d(X,"flushXroute","findBest c s2 k true none","findBest c s2 k false none","C27 only feasible routes are selected (equivalent: the result is checked again, but a better unfeasible route may hide it)"),
 d(X,"flushXroute","let s4 := installRoute c s3 k r.neigh","let s4 := s3","C35 the fallback route is selected"),
 d(X,"flushXroute","if sendUpdates then sendUpdate c s4 false k else s4","s4","C35 the change is announced"),
 d(X,"flushXroute","| none => if sendUpdates then sendUpdateResend c s3 k else s3","| none => s3","C35 the withdrawal is announced"),
 d(X,"flushXroute","filter (fun y => !(y.key == x.key))","filter (fun y => !(y.key.prefix_ == x.key.prefix_))","C34 only the withdrawn entry is removed"),
 d(X,"modifyXroute","x.metric ≠ kr.metric ∨ x.proto ≠ kr.proto","x.metric ≠ kr.metric","C34 the protocol in the table"),
 d(X,"modifyXroute","if update then sendUpdate c s1 false x.key else s1","s1","C34 changes are announced"),
 d(X,"displaces","decide (metric < a)","decide (metric ≤ a)","C33 duplicates",tightened=["C34_displaced"]),
 d(X,"flushDuplicateRoute","uninstallRoute c s kr.key r.neigh\n","s\n","C33 a redistributed route displaces the selected route"),
 d(X,"redistribute","metric := f.1","metric := kr.metric","C34 metric given by the filter"),
 d(X,"addAndAnnounce","if sendUpdates then sendUpdate c s1 false kr.key else s1","s1","C34 additions are announced"),
 d(X,"addAndAnnounce","let s1 := flushDuplicateRoute c p.1 kr","let s1 := p.1","C33 a redistributed route displaces the selected route"),
 d(X,"kernelRouteNotify","if kr.metric ≥ INFINITY then s","if kr.metric > INFINITY then s","C34 metric infinity means refused"),
 d(X,"kernelRouteNotify","if add then modifyXroute c s x kr true else flushXroute c s x true","if add then s else flushXroute c s x true","C34 changes of the metric"),
 d(X,"kernelRouteNotify","else if martianPrefix kr.key.prefix_ kr.key.plen then s","else if false then s","C34 martians are not redistributed"),
 d(X,"mergeAdd","cont rest (if p.2 then j + 1 else j) p.1","cont rest j p.1","C34 the index after an insertion"),
 d(X,"mergeAdd","if !martianPrefix kr.key.prefix_ kr.key.plen then","if true then","C34 martians are not redistributed"),
 d(X,"mergeXroutes","| [], some x => mergeXroutes c sendUpdates fuel [] j (flushXroute c s x sendUpdates)","| [], some x => s","C34 removed routes at the end of the table"),
 d(X,"mergeXroutes","| .gt => mergeXroutes c sendUpdates fuel (kr :: rest) j","| .gt => mergeXroutes c sendUpdates fuel rest j","C34 the kernel route after a removed one"),
 d(X,"mergeXroutes","| .eq => mergeXroutes c sendUpdates fuel rest (j + 1)","| .eq => mergeXroutes c sendUpdates fuel rest j","C34 unchanged routes stay"),
 d(X,"mergeXroutes","| .gt => mergeXroutes c sendUpdates fuel (kr :: rest) j (flushXroute","| .gt => mergeXroutes c sendUpdates fuel (kr :: rest) (j + 1) (flushXroute","C34 the index after a removal"),
 d(X,"checkXroutes","sortBy kernelRouteCompare (krs0.map (redistribute c))","krs0.map (redistribute c)","C34 the routes must be sorted"),
 d(X,"checkXroutes","(sortBy kernelRouteCompare (krs0.map (redistribute c)))" if False else "sortBy kernelRouteCompare (krs0.map (redistribute c))","(sortBy kernelRouteCompare krs0).map (redistribute c)","C34 the routes must be sorted after the filter has changed them"),
 d(X,"answerOwn","seqnoPlus s.myseqno 1","seqno","C36 own sequence number is increased by one"),
 d(X,"answerOwn","seqnoCompare seqno s.myseqno > 0","seqnoCompare seqno s.myseqno ≥ 0","C36 own sequence number"),
 d(X,"answersRequest","seqnoCompare seqno r.seqno ≤ 0","seqnoCompare seqno r.seqno < 0","C36 a request for the current sequence number is answered"),
 d(X,"requestTooFar","seqnoMinus seqno r.seqno > 100","seqnoMinus seqno r.seqno > 10","C36 requests that are too far"),
 d(X,"routeSuccessor","if routeMetric r < INFINITY then some r.neigh else none","some r.neigh","C36 requests are forwarded to reachable next hops"),
 d(X,"chooseSuccessor","findBest c s k false (some n)","findBest c s k false none","C36 requests are not sent back"),
 d(X,"chooseSuccessor","if succ = none ∨ succ = some n then","if succ = none then","C36 requests are not sent back"),
 d(X,"forwardRequest","if m = n then s","if false then s","C36 requests are not sent back"),
 d(X,"forwardRequest","(hopCount - 1)","hopCount","C36 hop count decreases"),
 d(X,"handleRequest","else if hopCount ≤ 1 then s","else if hopCount = 0 then s","C36 hop count"),
 d(X,"handleRequest","else if requestRedundant s (c.ifOf n) k seqno id then s","else if false then s","C39 redundant requests"),
 d(D,"in6LinkLocal","0xc0) == 0x80","0xff) == 0x80","C34 link-local addresses are not redistributed"),
 d(D,"filterAddress","⟨⟨a.addr, 128,","⟨⟨a.addr, 64,","C34 addresses are host routes"),
 d(D,"filterRoute","|| martianPrefix kr.key.srcPrefix kr.key.srcPlen","","C34 martian source prefixes"),
 d(D,"tableSize","min MAXMAXROUTES (2 * m)","m","C34 the table is enlarged"),
 d(D,"tableSize","if m ≥ MAXMAXROUTES then none","if m ≥ 1024 then none","C34 large tables"),
 d(D,"checkKernel","addrs.filterMap filterAddress ++ rts.filterMap filterRoute\n","rts.filterMap filterRoute\n","C34 addresses are redistributed"),
 d(D,"checkKernel","min (krs.length + 8) MAXMAXROUTES","min krs.length MAXMAXROUTES","C34 the size of the next table"),
]
