SEEDS = []


def d(file, defn, old, new, claim, **k):
    SEEDS.append(dict(file=file, old=old, new=new, claim=claim, **{"def": defn}, **k))


F = "Model/Hub.lean"
d(F, "Hub.accept", "if h.table.length ≥ MAX_LOCAL_SOCKETS then h.close fd", "if h.table.length > MAX_LOCAL_SOCKETS then h.close fd", "C80: at most four connections (the test is not needed: none is accepted when there are four)", equiv=True)
d(F, "Hub.accept", "else if !getfl then h.close fd", "else if !getfl then h", "C80: no descriptor is leaked")
d(F, "Hub.accept", "else if !setfl then h.close fd", "else if false then h.close fd", "C80: connections that cannot be made non-blocking are closed")
d(F, "Hub.accept", "[⟨fd, { shut := !header }⟩]", "[⟨fd, { shut := header }⟩]", "C80: a connection starts open")
d(F, "Hub.accept", "[⟨fd, { shut := !header }⟩]", "[⟨fd, { monitor := true, shut := !header }⟩]", "C80: a connection starts not monitoring")
d(F, "MAX_LOCAL_SOCKETS", "def MAX_LOCAL_SOCKETS : Nat := 4", "def MAX_LOCAL_SOCKETS : Nat := 5", "C80: at most four connections")
d(F, "Hub.listens", "h.table.length < MAX_LOCAL_SOCKETS", "h.table.length ≤ MAX_LOCAL_SOCKETS", "C80: connections are accepted only while there is room (equivalent: accepting closes it)", equiv=True)
d(F, "Hub.listens", "h.table.length < MAX_LOCAL_SOCKETS", "h.table.length + 1 < MAX_LOCAL_SOCKETS", "C80: connections are accepted while there is room")
d(F, "Hub.destroy", "let h := h.close c.fd\n", "let h := h\n", "C80: no descriptor is leaked")
d(F, "Hub.destroy", "(h.table.set i (h.table.getLast?.getD c)).dropLast", "h.table.dropLast", "C80: the right connection is given up")
d(F, "Hub.destroy", "(h.table.set i (h.table.getLast?.getD c)).dropLast", "h.table.set i (h.table.getLast?.getD c)", "C80: descriptors are distinct")
d(F, "Hub.close", "h.opened.erase fd", "h.opened.drop 1", "C80: the right descriptor is closed")
d(F, "Hub.read", "if ready c.fd then", "if !ready c.fd then", "C80: readable connections are read from")
d(F, "Hub.read", "if keep then { h with table := h.table.set i ⟨c.fd, k⟩ } else h.destroy i", "if keep then h else h.destroy i", "C80: a connection keeps the state that local_read leaves")
d(F, "Hub.read", "if keep then { h with table := h.table.set i ⟨c.fd, k⟩ } else h.destroy i", "if keep then { h with table := h.table.set i ⟨c.fd, k⟩ } else h.destroy (i + 1)", "C80: the right connection is given up")
d(F, "Hub.read", "if keep then { h with table := h.table.set i ⟨c.fd, k⟩ } else h.destroy i", "if keep then { h with table := h.table.set i ⟨c.fd, k⟩ } else h", "C80: connections are given up when local_read says so")
d(F, "Hub.read", "      else Hub.read L ready env fuel s h (i + 1)", "      else Hub.read L ready env fuel s h (i + 2)", "C80: all connections are looked at")
d(F, "Hub.round", "Hub.read L (fun fd => r.ready fd && h.watched fd) r.env h1.table.length s h1 0", "Hub.read L (fun fd => r.ready fd && h.watched fd) r.env h1.table.length s h1 1", "C80: all connections are looked at")
