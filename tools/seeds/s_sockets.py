SEEDS = []
def d(f, de, old, new, claim, **k):
    SEEDS.append(dict(file=f, old=old, new=new, claim=claim, **{"def": de}, **k))
M = "Model/Sockets.lean"
d(M, "babelCalls", "(.setopt .v6only 1, true)", "(.setopt .v6only 0, true)", "C76: IPv6 only")
d(M, "babelCalls", "(.setopt .v6only 1, true)", "(.setopt .v6only 1, false)", "C76: a failed option is ignored")
d(M, "babelCalls", "(.setopt .multicastLoop 0, true)", "(.setopt .multicastLoop 1, true)", "C76: the daemon hears itself")
d(M, "babelCalls", "(.setopt .unicastHops 1, true)", "(.setopt .unicastHops 64, true)", "C76: packets leave the link")
d(M, "babelCalls", "(.setopt .multicastHops 1, true)", "(.setopt .unicastHops 1, true)", "C76: packets leave the link")
d(M, "babelCalls", "(.setopt .tclass 0xc0, false)", "(.setopt .tclass 0xc0, true)", "C76: the traffic class is optional")
d(M, "babelCalls", "(.setopt .recvPktinfo 1, true),\n   ", "", "C76: destination addresses are reported")
d(M, "babelCalls", "(.getfl, true), (.setNonblock, true), ", "(.getfl, true), ", "C76: reading does not block")
d(M, "babelCalls", "(.setCloexec, true), (.bind", "(.bind", "C76: child processes do not get the socket")
d(M, "babelCalls", ".ip6 anyAddr port", ".ip6 loopback port", "C76: bound to any address")
d(M, "babelCalls", ".ip6 anyAddr port", ".ip6 anyAddr 6696", "C76: bound to the configured port")
d(M, "tcpCalls", "if isLocal then loopback else anyAddr", "anyAddr", "C76: only local clients")
d(M, "tcpCalls", "if isLocal then loopback else anyAddr", "if isLocal then anyAddr else loopback", "C76: only local clients")
d(M, "tcpCalls", ", (.listen, true)]", "]", "C76: clients can connect")
d(M, "tcpCalls", "(.listen, true)]", "(.listen, false)]", "C76: clients can connect")
d(M, "unixServerSocket", "path.length ≥ 108", "path.length > 108", "C76: paths that fit")
d(M, "unixServerSocket", "path.length ≥ 108", "path.length ≥ 107", "C76: paths that fit")
d(M, "unixServerSocket", "{ o with files := o.files.erase path }.close fd", "o.close fd", "C76: a failed attempt leaves no file")
d(M, "unixServerSocket", "| (false, o) => (none, o.close fd)", "| (false, o) => (none, o)", "C76: a failed attempt leaves no socket")
d(M, "unixServerSocket", "| (false, o) => (none, o.close fd)", "| (false, o) => (none, Os.close { o with files := o.files.erase path } fd)", "C76: a file that was there stays")
d(M, "netlinkSocket", "| (false, o) => (o.call fd (.setopt .rcvbuf 524288)).2", "| (false, o) => o", "C76: which calls are made")
d(M, "netlinkSocket", "(.setopt .strictChk 1, false)", "(.setopt .strictChk 1, true)", "C76: old kernels")
d(M, "netlinkSocket", "(.setopt .extAck 1, false)", "(.setopt .extAck 1, true)", "C76: old kernels")
d(M, "netlinkSocket", "(.bind (.groups groups), true)", "(.bind (.groups 0), true)", "C76: subscriptions")
d(M, "netlinkSocket", "(.bind (.groups groups), true)", "(.bind (.groups groups), false)", "C76: subscriptions")
d(M, "netlinkSocket", "| (false, o) => (none, o.close fd)", "| (false, o) => (none, o)", "C76: a failed attempt leaves no socket")
d(M, "groupMask", "1 <<< (g - 1)", "1 <<< g", "C76: subscriptions")
d(M, "listenGroups", "groupMask 11 ||| ", "", "C76: IPv6 routes")
d(M, "listenGroups", " ||| groupMask 9", "", "C76: IPv6 addresses")
d(M, "listenGroups", "groupMask 7", "groupMask 8", "C76: IPv4 routes")
d(M, "openServer", "tcpServerSocket o n true", "tcpServerSocket o n false", "C76: only local clients")
d(M, "openServer", "| .off => (some none, o)", "| .off => (none, o)", "C76: the daemon starts without a server")
d(M, "openServer", "let r := unixServerSocket o p; (r.1.map some, r.2)", "let r := unixServerSocket o p; (some r.1, r.2)", "C76: a failed server is ignored")
d(M, "openSockets", "match netlinkSocket o 0 with", "match netlinkSocket o listenGroups with", "C76: the command socket has no subscriptions")
d(M, "openSockets", "some l, some pr, sv", "some pr, some l, sv", "C76: sockets swapped")
d(M, "openSockets", "babelSocket o port", "babelSocket o 6697", "C76: the configured port")
d(M, "sendFrom", "| some .eintr => if count + 1 < 100", "| some .eintr => if count < 100", "C76: at most 100 calls")
d(M, "sendFrom", "if v.ready count then", "if !v.ready count then", "C76: waits for the socket")
d(M, "sendFrom", "sendFrom v data (count + 1) (waits + 1) else ⟨some .eagain, count + 1, waits + 1, []⟩", "sendFrom v data (count + 1) waits else ⟨some .eagain, count + 1, waits + 1, []⟩", "C76: number of waits")
d(M, "sendFrom", "| none => ⟨none, count + 1, waits, [data]⟩", "| none => ⟨none, count + 1, waits, List.replicate (count + 1) data⟩", "C76: sent once")
d(M, "sendFrom", "| some e => ⟨some e, count + 1, waits, []⟩", "| some e => if count + 1 < 100 then sendFrom v data (count + 1) waits else ⟨some e, count + 1, waits, []⟩", "C76: other errors end it")
d(M, "babelSend", "buf1 ++ buf2", "buf2 ++ buf1", "C76: header before body")
d(M, "babelSend", "sendFrom v (buf1 ++ buf2) 0 0", "sendFrom v (buf1 ++ buf2) 1 0", "C76: number of calls")
d(M, "babelRecv", "data.take size, src", "data, src", "C76: no more than fits in the buffer")
d(M, "babelRecv", "c.data.take 16", "src", "C76: the destination")
d(M, "babelRecv", " && c.type == IPV6_PKTINFO", "", "C76: the right control message")
d(M, "babelRecv", "c.level == IPPROTO_IPV6 && ", "", "C76: the right control message")
d(M, "babelRecv", "| none => .error .edestaddrreq", "| none => .error .eagain", "C76: what happens without destination")
d(M, "babelRecv", "| none => .error .edestaddrreq", "| none => .ok (data.take size, src, scope, [])", "C76: the destination is known")
d(M, "dispatch", "p.2 && p.1 == scope", "p.1 == scope", "C76: interfaces that are down")
d(M, "dispatch", "p.2 && p.1 == scope", "p.2", "C76: the right interface")
d(M, "dispatch", "| .error .eintr => .nothing\n", "", "C76: interruptions")
d(M, "dispatch", ".parse p.1 src data dst", ".parse p.1 dst data src", "C76: source and destination")
d(M, "resizeReceive", "if new ≤ size then some size", "if new ≤ size then some new", "C76: the buffer never shrinks")
d(M, "resizeReceive", "if mem then some new else none", "if mem then some new else some size", "C76: memory exhaustion")
d(M, "Os.close", "o.socks.filter", "o.socks.tail.filter", "C76: closing")
