NL="Model/Netlink.lean"
NR="Model/NetlinkRead.lean"
TD="Model/Teardown.lean"
DU="Model/Dump.lean"
K="Model/Kernel.lean"
def d(f,defn,old,new,claim,**k): return dict(file=f,**{"def":defn},old=old,new=new,claim=claim,**k)
SEEDS=[
 d(NL,"NlBuf.next","b.rta + align4 l","b.rta + l","the kernel's understanding of a request: attributes are aligned"),
 d(NL,"NlBuf.attr","hle16 (4 + data.length)","hle16 data.length","attribute lengths include the header"),
 d(NL,"NlBuf.ipArg","(addr.drop 12).take 4","addr.take 4","IPv4 next hops"),
 d(NL,"NlBuf.ipArg","hle16 AF_INET6 ++ addr.take 16","addr.take 16","RTA_VIA starts with the family"),
 d(NL,"kernelRouteHeader","if add then RTM_NEWROUTE else RTM_DELROUTE","if add then RTM_DELROUTE else RTM_NEWROUTE","adding adds, flushing deletes"),
 d(NL,"kernelRouteHeader","NLM_F_REQUEST + NLM_F_CREATE + NLM_F_EXCL","NLM_F_REQUEST + NLM_F_CREATE","an existing route is not replaced"),
 d(NL,"kernelRouteHeader","UInt8.ofNat k.plen - 96","UInt8.ofNat k.plen","IPv4 prefix length"),
 d(NL,"kernelRouteHeader","if k.isSS then b.store 18 [UInt8.ofNat k.srcPlen] else b","b","source prefix length"),
 d(NL,"kernelRouteHeader","b.store 20 [UInt8.ofNat table]","b.store 20 [254]","the table of a route"),
 d(NL,"kernelRouteHeader","if metric < KERNEL_INFINITY then","if metric ≤ KERNEL_INFINITY then","unreachable routes"),
 d(NL,"kernelRouteHeader","b.store 21 [UInt8.ofNat RTPROT_BABEL]","b","the protocol of installed routes"),
 d(NL,"kernelRoutePrefix","b.attr RTA_SRC (k.srcPrefix.take 16)","b.attr RTA_SRC (k.prefix_.take 16)","source prefix of a request"),
 d(NL,"kernelRoutePrefix","if k.isSS then b.attr RTA_SRC","if false then b.attr RTA_SRC","source prefix of a request"),
 d(NL,"kernelRouteTarget","b.attr RTA_PRIORITY (hle32 metric)","b","the metric of a request"),
 d(NL,"kernelRouteTarget","b.attr RTA_OIF (hle32 ifindex)","b.attr RTA_OIF (hle32 0)","the interface of a request"),
 d(NL,"kernelRouteTarget","v4mapped k.prefix_ && !v4mapped gate","v4mapped k.prefix_ && v4mapped gate","IPv4 routes through IPv6 next hops"),
 d(NL,"kernelRouteTarget","| some a => b.ipArg RTA_PREFSRC a","| some a => b","the preferred source address"),
 d(NL,"kernelRouteFinish","let n := b.rta + l","let n := b.rta","the length of a request"),
 d(NL,"kernelRouteFinish","hle16 (fl ||| NLM_F_ACK)","hle16 fl","an acknowledgment is asked for"),
 d(NL,"kernelRouteMsg","if !familyOk k gate then .fail\n","if false then .fail\n","routes of mixed families are refused"),
 d(NL,"kernelRouteMsg","else if skippedDefault k metric then .skip","else if false then .skip","unreachable default routes are not installed"),
 d(NL,"kernelRouteModify","newmetric = metric ∧ newgate.take 16","newgate.take 16","a change of the metric reaches the kernel"),
 d(NL,"kernelRouteModify","kernelRouteMsg subtrees false table k prefSrc gate ifindex metric seqno","kernelRouteMsg subtrees false table k prefSrc newgate ifindex metric seqno","the old route is deleted"),
 d(NL,"kernelRouteModify","kernelRouteMsg subtrees true newtable","kernelRouteMsg subtrees true table","the table of the new route"),
 d(NL,"kernelRouteModify","| .send _ => seqno + 1","| .send _ => seqno","the numbers of requests differ"),
 d(NL,"dumpRoutesMsg","hle16 (NLM_F_DUMP + NLM_F_REQUEST)","hle16 NLM_F_REQUEST","the whole table is asked for",tightened=["C57_request"]),
 d(NL,"copyAddr","if payload < (if v4 then 4 else 16) then .reject","if payload < 4 then .reject","attributes that are too short"),
 d(NL,"copyAddr","if v4 then v4tov6 a else a","a","IPv4 addresses are mapped"),
 d(NL,"rtaOne","plen := if v4 then dstLen + 96 else dstLen","plen := dstLen","prefix length of IPv4 routes"),
 d(NL,"rtaOne","srcPlen := if v4 then srcLen + 96 else srcLen, srcPfx := a","srcPlen := if v4 then dstLen + 96 else dstLen, srcPfx := a","source prefix length"),
 d(NL,"rtaOne","{ s with gw := a }","{ s with pfx := a }","the gateway of a route"),
 d(NL,"rtaOne","toInt v < 0 || toInt v > KERNEL_INFINITY","toInt v > KERNEL_INFINITY","metrics beyond the largest"),
 d(NL,"rtaOne","| some v => .ok { s with table := toInt v }","| some v => .ok s","tables above 255"),
 d(NL,"rtaLoop","if l < 4 || (l : Int) > len then .ok s","if l < 4 then .ok s","attributes that go beyond the message"),
 d(NL,"rtaLoop","rtaLoop m one fuel (off + align4 l) (len - align4 l) s'","rtaLoop m one fuel (off + l) (len - l) s'","aligned attributes"),
 d(NL,"parseKernelRouteRta","if imports.contains s'.table then .ok s' else .reject","if imports.contains s'.table then .reject else .ok s'","routes of other tables"),
 d(NL,"parseKernelRouteRta","⟨z, if v4 then 96 else 0, z","⟨z, 0, z","IPv4 default routes"),
 d(NL,"filterKernelRoutes","if proto.toNat = RTPROT_BABEL then .reject","if false then .reject","own routes are not redistributed"),
 d(NL,"filterKernelRoutes","if flags &&& RTM_F_CLONED ≠ 0 then .reject","if false then .reject","cloned routes are not redistributed"),
 d(NL,"filterKernelRoutes","s.plen = 0 ∧ s.metric ≥ KERNEL_INFINITY","s.metric ≥ KERNEL_INFINITY","only default routes are refused for their metric"),
 d(NL,"filterKernelRoutes","type ≠ RTM_NEWROUTE ∧ type ≠ RTM_DELROUTE","type ≠ RTM_NEWROUTE","deleted routes are noticed"),
 d(NL,"addrOne","type == IFA_LOCAL⟩\n      | none => .undef\n    else if","type == IFA_ADDRESS⟩\n      | none => .undef\n    else if","the local address of a point-to-point link"),
 d(NL,"addrOne","if s.stop then .ok s\n  else if","if false then .ok s\n  else if","the local address of a point-to-point link"),
 d(NL,"filterAddresses","type ≠ RTM_NEWADDR ∧ type ≠ RTM_DELADDR","type ≠ RTM_NEWADDR","deleted addresses"),
 d(NR,"nlWalk","if l < 16 || l > d.length","if l < 16","messages longer than the datagram",tightened=["C57_whole"]),
 d(NR,"nlWalk","d.drop (align4 l)","d.drop l","aligned messages"),
 d(NR,"nlWalk","if ignore == some p then next","if false then next","own changes are ignored"),
 d(NR,"nlWalk","p != pid || seq != seqno","p != pid","answers to other requests"),
 d(NR,"nlWalk","p != pid || seq != seqno","seq != seqno","answers to other sockets"),
 d(NR,"nlWalk","else if type = NLMSG_DONE then ([], .done)","else if false then ([], .done)","end of the answer"),
 d(NR,"nlWalk","if e = 0 then .ack else .error (-toInt e)","if e = 0 then .more else .error (-toInt e)","an acknowledgment ends the answer"),
 d(NR,"nlWalk","if type = RTM_NEWLINK ∨ type = RTM_DELLINK then","if type = RTM_NEWLINK then","an interface that disappears"),
 d(NR,"nlWalk","let done := done || !answer","let done := done","a notification does not wait"),
 d(NR,"netlinkRead","if sender ≠ 0 then ([], some (.fail, rs))","if false then ([], some (.fail, rs))","only the kernel is believed"),
 d(NR,"netlinkRead","| .error _ => (w.1, some (.fail, rs))","| .error _ => (w.1, some (.ok, rs))","errors are reported"),
 d(NR,"netlinkRead","| .eof => ([], some (.closed, rs))","| .eof => ([], some (.fail, rs))","the socket is closed"),
 d(NR,"dumpRequests","[AF_INET6, AF_INET]","[AF_INET6]","both families are asked for"),
 d(NR,"dumpRequests","if perTable then tables else tables.take 1","tables.take 1","all tables are asked for"),
 d(NR,"extackLoop","if l < 4 || (l : Int) > len then (seen, msg)","if l < 4 then (seen, msg)","what the error report reads",tightened=["C57_extack_bad"]),
 d(NR,"extackReads","(if done then 0 else 20)) 0 none","0) 0 none","what the error report reads"),
 d(TD,"flushNeighbour","step c w.st (.flushNeigh n)","w.st","no route through a discarded neighbour"),
 d(TD,"findNeighbour","if w.neighs.contains n then w else { w with neighs := n :: w.neighs }","w","every route has a known neighbour"),
 d(TD,"interfaceUpdown","(if up then .ifUp i else .ifDown i)","(if up then .ifUp i else .ifUp i)","no route on an interface that is down"),
 d(TD,"tableFlushIf","let w1 := interfaceUpdown c w i false","let w1 := w","no route on a removed interface"),
 d(TD,"tableReceive","if ifUp w.st (c.ifOf n) then","if true then","packets on an interface that is down"),
 d(DU,"in6LinkLocal","&&& 0xc0) == 0x80","&&& 0xff) == 0x80","link-local addresses"),
 d(DU,"filterAddress","if in6LinkLocal a.addr then none\n","if false then none\n","link-local addresses are not redistributed"),
 d(DU,"filterAddress","⟨a.addr, 128,","⟨a.addr, 64,","host routes"),
 d(DU,"filterAddress","if v4mapped a.addr then 96 else 0⟩","0⟩","source prefix of IPv4 host routes"),
 d(DU,"filterRoute","|| martianPrefix kr.key.srcPrefix kr.key.srcPlen then","then","martian sources"),
 d(DU,"tableSize","if n ≥ m then","if n > m then","room to spare",tightened=["C34_limit"]),
 d(DU,"tableSize","min MAXMAXROUTES (2 * m)","m","the table grows"),
 d(DU,"checkKernel","addrs.filterMap filterAddress ++ rts.filterMap filterRoute","rts.filterMap filterRoute","addresses are redistributed"),
 d(DU,"checkKernel","min (krs.length + 8) MAXMAXROUTES","krs.length + 8","the size of the table"),
 d(K,"changeAdd","kernelAdd c s (routeTable c r) r.key","kernelAdd c s c.exportTable r.key","the table of the install filter"),
 d(K,"changeAdd","≥ INFINITY then (.fail, s)","> INFINITY then (.fail, s)","the install filter"),
 d(K,"familyOk","if k.isV4 then v4mapped k.srcPrefix\n","if k.isV4 then true\n","mixed families"),
 d(K,"kernelModify","(decide (r.1 ≠ .fail), r.2)","(true, r.2)","a failure of the kernel"),
]
