SEEDS = []


def d(file, defn, old, new, claim, **k):
    SEEDS.append(dict(file=file, old=old, new=new, claim=claim, **{"def": defn}, **k))


F = "Model/Queue.lean"
d(F, "scheduleUpdateFlush", "ifp.updateFlush.sec ≠ 0 ∧ (timevalMinusMsec", "(timevalMinusMsec", "C86: the timer is set while updates wait")
d(F, "scheduleUpdateFlush", "updateFlush s.now : Int) < msecs", "updateFlush s.now : Int) > msecs", "C86: the timer is at most 6250 ms ahead")
d(F, "updateJitter", "min helloInterval 4000 : Nat", "helloInterval : Nat", "C86: the timer is at most 6250 ms ahead")
d(F, "sendUpdateIf", "scheduleUpdateFlush (bufferUpdate c s i k) i urgent", "bufferUpdate c s i k", "C86: the timer is set while updates wait")
d(F, "sendUpdateWild", "    scheduleUpdateFlush s4 i urgent", "    s4", "C86: the timer is set while updates wait")
d(F, "sendUpdateIf", "(urgent : Bool) (k : PKey) : St :=\n  if !ifUp s i then s", "(urgent : Bool) (k : PKey) : St :=\n  if ifUp s i && false then s", "C86: updates wait only on interfaces that are up")
d("Model/Node.lean", "step", "      (fun x => { x with queue := [], queueCap := 0 })", "      (fun x => x)", "C86: updates wait only on interfaces that are up")
