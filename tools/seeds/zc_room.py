SEEDS = []


def d(file, defn, old, new, claim, **k):
    SEEDS.append(dict(file=file, old=old, new=new, claim=claim, **{"def": defn}, **k))


F = "Model/Queue.lean"
d(F, "bufferUpdate", "ifp.queue.length ≥ ifp.queueCap", "ifp.queue.length > ifp.queueCap", "C85: no update is written outside of the array")
d(F, "bufferUpdate", "if x.queueCap = 0 then queueSize s1 x else x.queueCap", "x.queueCap", "C85: no update is written outside of the array")
d(F, "bufferUpdate", "if x.queueCap = 0 then queueSize s1 x else x.queueCap", "queueSize s1 x", "C85: the size of the array is that with which it was allocated")
d(F, "queueSize", "slotCount s + s.xroutes.length + 4", "slotCount s + 4", "C85: the array has room for everything that is redistributed")
d(F, "queueSize", "max (slotCount s + s.xroutes.length + 4) (ifp.bufSize / 16)", "ifp.bufSize / 16", "C85: the array has room for everything")
d(F, "queueSize", "(ifp.bufSize / 16)", "(ifp.bufSize / 8)", "C85: the size of the array")
d(F, "slotCount", "(s.routes.map (·.key)).eraseDups.length", "s.routes.length", "C85: the size of the array")
d(F, "flushUpdates", "{ x with queue := [], queueCap := 0 }", "{ x with queueCap := 0 }", "C85: the queue is emptied")
d("Model/Node.lean", "step", "(fun x => { x with queue := [], queueCap := 0 })", "(fun x => { x with queueCap := 0 })", "C85: the queue is emptied when the interface goes down")
d(F, "sendUpdateWild", "if k.isSS == ss then bufferUpdate", "if k.isSS != ss then bufferUpdate", "C85: a wildcard update consists of the routes of one kind")
d(F, "installedKeys", "(s.routes.filter (·.installed)).map (·.key)", "s.routes.map (·.key)", "C85: a wildcard update fits in the queue")
