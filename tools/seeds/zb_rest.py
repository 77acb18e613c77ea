SEEDS = []


def d(file, defn, old, new, claim, **k):
    SEEDS.append(dict(file=file, old=old, new=new, claim=claim, **{"def": defn}, **k))


F = "Model/Util.lean"
d(F, "v4mapped", "a.take 12 == v4prefix.take 12", "a.take 10 == v4prefix.take 10", "C05: IPv4 prefixes are recognised")
d(F, "linklocal", "a.take 8 == llprefix.take 8", "a.take 2 == llprefix.take 2", "C05: packets from other addresses are ignored")
d(F, "v4tov6", "v4prefix.take 12 ++ a.take 4", "v4prefix.take 12 ++ (a.take 4).reverse", "C10: the next hop is the address of the interface")
d(F, "aeIsV4", "ae == 1 || ae == 4", "ae == 1", "C10: IPv4 prefixes via IPv6")
d(F, "isDefault", "plen == 0 || (plen == 96 && v4mapped pfx)", "plen == 0", "the default route is recognised")
d(F, "seqnoMinus", "toShort (s1 - s2)", "toShort (s2 - s1)", "C01: difference of seqnos")
d(F, "timeUs", "t.sec * 1000000 + t.usec", "t.sec * 1000 + t.usec", "C11: timestamps are in microseconds")
F = "Model/Wire.lean"
d(F, "padPrefix", "16 - b.length", "15 - b.length", "C09: a prefix is 16 bytes")
d(F, "srcSub", "else if s.isSome then return none\n", "else if false then return none\n", "C09: two source prefixes are an error")
d(F, "srcSub", "if l = 0 then return none\n      else if s", "if l = 255 then return none\n      else if s", "C09: a source prefix of length zero is an error")
d(F, "helloSub", "if len ≥ 4 then", "if len ≥ 2 then", "C09: no byte outside of the packet is read")
d(F, "ihuSub", "if len ≥ 8 then", "if len ≥ 4 then", "C09: no byte outside of the packet is read")
d(F, "ihuSub", "← rd32 p 0, ← rd32 p 4", "← rd32 p 4, ← rd32 p 0", "C11: the timestamps of an IHU")
d(F, "tlvAck", "(len : Int) - 2", "(len : Int)", "C09: no byte outside of the packet is read")
d(F, "parsePacket", "(packet.drop 4)", "(packet.drop 3)", "C10: the receiver decodes what was sent")
F = "Model/RouteTable.lean"
d(F, "rtFindRoute", "r.neigh == n", "r.neigh != n", "C03: a route is found by its neighbour")
d(F, "rtModify", "if r.neigh == n then f r else r", "f r", "C03: only one route is changed")
F = "Model/Neighbour.lean"
d(F, "Nbr.fresh", "INFINITY, now, 0, 0", "0, now, 0, 0", "C19: a new neighbour has infinite cost")
d(F, "checkNeighbours", "ns.filterMap (Nbr.check now)", "(ns.drop 1).filterMap (Nbr.check now)", "C20: every neighbour is checked")
d(F, "checkNeighbours", "x.1.nextCheck m) 50000", "x.1.nextCheck m) 500000", "C20: neighbours are checked in time")
F = "Model/Config.lean"
d(F, "longToInt", "(x % 4294967296)", "(x % 65536)", "numbers in the configuration")
d(F, "uchar", "x % 256", "x % 128", "prefix lengths in filters")
d(F, "parseFilter", "return (finishFilter f, r)", "return (f, r)", "filters are completed")
d(F, "getthousands", "if i < 0 then throw .bad", "if i < 1 then throw .bad", "times in the configuration")
F = "Model/Buffer.lean"
d(F, "header", "[42, 2] ++ htons len", "[42, 1] ++ htons len", "C12: the header of a packet")
d(F, "header", "[42, 2] ++ htons len", "[42, 2] ++ htons (len + 4)", "C12: the header of a packet")
d(F, "trailer", "| none => some (some [])", "| none => some none", "C12: packets without a key are sent")
d(F, "Buf.put", "b.bytes.length + l.length ≤ b.size", "b.bytes.length ≤ b.size", "C12: nothing is written beyond the buffer")
d(F, "addPc", "if c.auth.isSome then sendPc o t else some t", "some t", "C13: packets carry a counter")
d(F, "htonl", "htons (n / 65536 % 65536) ++ htons (n % 65536)", "htons (n % 65536) ++ htons (n / 65536 % 65536)", "C13: packets carry a counter")
F = "Model/Daemon.lean"
d(F, "penvOf", "(e.ifs (e.node.ifOf n)).ll.contains a", "!(e.ifs (e.node.ifOf n)).ll.contains a", "an IHU for another node is ignored")
d(F, "Daemon.setNbr", "if p.1 == n then (p.1, f p.2) else p", "(p.1, f p.2)", "only one neighbour is changed")
d(F, "Daemon.refresh", "(.setCost p.1 v)", "(.setCost p.1 0)", "the cost of a neighbour is that of its link")
F = "Model/Xroute.lean"
d(F, "kernelRouteCompare", "xrouteCompare a.key b.key", "xrouteCompare b.key a.key", "C24: the kernel routes are sorted like the table")
