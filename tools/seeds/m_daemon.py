D="Model/Daemon.lean"
def d(f,defn,old,new,claim,**k): return dict(file=f,**{"def":defn},old=old,new=new,claim=claim,**k)
SEEDS=[
 d(D,"sifOf","timestamps := (e.ifs i).timestamps","timestamps := false","timestamps are sent as configured"),
 d(D,"sifOf","rfc6126 := match getIf s i with | some x => x.rfc6126 | none => false","rfc6126 := false","what a neighbour reads is what was announced",tightened=["C64_update_partial"]),
 d(D,"sifOf","filter := fun _ _ => 0","filter := fun _ _ => 1","what a neighbour reads is what was announced"),
 d(D,"Daemon.nbr","(·.1 == n)","(·.1 != n)","the neighbour a packet comes from"),
 d(D,"Daemon.write","if x = i then l else d.link x","l","writing to an interface leaves the others alone"),
 d(D,"Daemon.targets","(d.nbrs.filter fun p => e.node.ifOf p.1 == i).map","d.nbrs.map","a message goes to the neighbours on the interface"),
 d(D,"Daemon.targets","fun x => (e.node.ifOf n, x.buf)","fun x => (i, x.buf)","a message to a neighbour goes to its buffer"),
 d(D,"sndOf",".update i id k q m => some (i, none, .update id k q.toNat m)",".update i id k q m => some (i, none, .update id k q.toNat (m + 1))","what a neighbour reads is what was announced"),
 d(D,"sndOf",".update i id k q m => some (i, none, .update id k q.toNat m)",".update i id k q m => some (i, none, .update id k 0 m)","what a neighbour reads is what was announced"),
 d(D,"sndOf","some (i, to, .seqnoRequest k q.toNat id h)","some (i, to, .seqnoRequest k q.toNat id 256)","memory safety"),
 d(D,"Daemon.nodeAs","(s.out.take (s.out.length - d.st.out.length)).reverse","s.out","what is sent is sent once"),
 d(D,"Daemon.nodeAs","(s.out.take (s.out.length - d.st.out.length)).reverse","[]","what the routing part sends is heard"),
 d(D,"Daemon.recost","if changed then","if !changed then","costs are recomputed"),
 d(D,"Daemon.item",".hello u q iv ts =>\n    match d.nbr n with",".hello u q iv ts =>\n    match d.nbr (n + 1) with","a hello counts for its sender"),
 d(D,"Daemon.item","d.node e (.update id k (UInt16.ofNat q) m iv n nh)","d.node e (.update id k (UInt16.ofNat q) 0 iv n nh)","loop freedom of networks"),
 d(D,"Daemon.item","d.node e (.update id k (UInt16.ofNat q) m iv n nh)","d.node e (.update id k (UInt16.ofNat (q + 1)) m iv n nh)","loop freedom of networks"),
 d(D,"Daemon.item",".retractAll => d.node e (.retractNeigh (d.st.routes.length + 1) n)",".retractAll => some d","a wildcard retraction retracts"),
 d(D,"Daemon.item",".requestAll => d.fullDump e (e.node.ifOf n)",".requestAll => some d","a request for everything is answered"),
 d(D,"Daemon.fullDump","- (max (hi / 100) 1 : Nat)","","full dumps are rate limited",tightened=["C68_routing"]),
 d(D,"Daemon.item","d.node e (.routeRequest n k)","some d","requests are answered"),
 d(D,"Daemon.sampleRtt","p.haveHelloRtt && p.echo.1 != 0 && p.echo.2 != 0","p.echo.1 != 0 && p.echo.2 != 0","round-trip times",tightened=["C68_links"]),
 d(D,"Daemon.addNbr","buf := d.fresh i }","buf := 0 }","a neighbour has its own buffer"),
 d(D,"Daemon.addNbr","d.fresh i + 1","d.fresh i","a neighbour has its own buffer"),
 d(D,"Daemon.addNbr","dst := e.addr n }","dst := [] }","unicast packets go to the neighbour"),
 d(D,"Daemon.ensureNbr","&& (d.nbr n).isNone","","a neighbour is created once"),
 d(D,"Daemon.challenge",".request b => .challenge b | .reply b => .reply b",".request b => .reply b | .reply b => .challenge b","challenges and replies"),
 d(D,"Daemon.accept","⟨c.key, c.acceptBad⟩","⟨none, c.acceptBad⟩","only packets that are accepted count"),
 d(D,"Daemon.accept","⟨c.key, c.acceptBad⟩","⟨c.key, true⟩","only packets that are accepted count"),
 d(D,"Daemon.items","l.foldlM","l.reverse.foldlM","messages are handled in order"),
 d(D,"Daemon.packet","if ifUp d.st (e.node.ifOf n) then do","if !ifUp d.st (e.node.ifOf n) then do","packets on interfaces that are down are ignored"),
 d(D,"Daemon.checkNbr","let d ← d.node e (.flushNeigh n)\n","let d ← some d\n","routes of a lost neighbour are flushed",tightened=["C68_lost"]),
 d(D,"Daemon.checkNbr","(d.auth i).set (e.addr n) none","d.auth i","a neighbour that is lost is forgotten",tightened=["C68_lost"]),
 d(D,"dumped","fun x => if x = i ∧ ifUp d.st i then d.st.now.sec else d.lastUpdate x","d.lastUpdate","full dumps are rate limited",tightened=["C68_internal"]),
 d(D,"Daemon.post","to = none ∧ ifUp d.st i = false","to = none ∧ ifUp d.st i = true","nothing is sent on an interface that is down"),
 d(D,"dumped","if x = i ∧ full then","if x = i then","full dumps are rate limited",tightened=["C68_up"]),
 d(D,"ownBuf","if x = i then (l i).own f else l x","(l x).own f","an interface going down leaves the others alone"),
 d(D,"Link.own","if j = 0 then f (l.bufs 0) else l.bufs j","f (l.bufs j)","the buffers of neighbours stay when an interface goes down"),
 d(D,"Daemon.ifaceDown","(ownBuf i Buf.down) (.ifDown i)","(fun l => l) (.ifDown i)","memory safety when an interface goes down"),
 d(D,"Daemon.ifaceDown","(ownBuf i Buf.down) (.ifDown i)","(ownBuf i Buf.down) (.updIface 0 i)","routes through an interface that goes down are lost"),
 d(D,"Daemon.ifaceUp","(.ifUp i full)","(.ifUp i false)","everything is announced when the interface comes up with a new address"),
 d(D,"Daemon.ifaceUp","(ownBuf i fun b => b.up b.dst mtu flushInterval)","(fun l => l)","memory safety when an interface comes up"),
 d(D,"Daemon.ifaceUp","b.up b.dst mtu flushInterval","b.up [] mtu flushInterval","packets go to the multicast group"),
 d(D,"dstep","j < d.fresh i ∧ (ifUp d.st i = true ∨ j ≠ 0)","j < d.fresh i","memory safety when an interface is down"),
]
