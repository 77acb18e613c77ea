SEEDS = []


def d(file, defn, old, new, claim, **k):
    SEEDS.append(dict(file=file, old=old, new=new, claim=claim, **{"def": defn}, **k))


F = "Model/Farewell.lean"
d(F, "LastIf.targets", "if x.unicast then x.nbrs else [0]", "[0]", "C84_unicast_false: the retraction is written to the buffers of the neighbours")
d(F, "LastIf.targets", "if x.unicast then x.nbrs else [0]", "if x.unicast then x.nbrs else x.nbrs", "C84: the retraction is multicast")
d(F, "LastIf.targets", "if x.unicast then x.nbrs else [0]", "if x.unicast then 0 :: x.nbrs else [0]", "C84_unicast_false: the retraction is not multicast")
d(F, "LastIf.retract", ".retraction x.myseqno⟩", ".request none⟩", "C84: the retraction is sent")
d(F, "LastIf.updates", ".update u.1 u.2.1 u.2.2.1 u.2.2.2⟩ : Act)", ".update u.1 u.2.1 u.2.2.2 u.2.2.1⟩ : Act)", "C84: the updates in the queue follow the retraction")
d(F, "LastIf.updates", "x.queue.flatMap fun", "(x.queue.drop 1).flatMap fun", "C84: the updates in the queue follow the retraction")
d(F, "farewell", "if !x.c.up then some l", "if false then some l", "C84: nothing is sent on an interface that is down")
d(F, "farewell", "(if (l.bufs 0).hello.isSome then x.updates else [])", "x.updates", "C84: updates are sent only if a hello was waiting")
d(F, "farewell", "(if (l.bufs 0).hello.isSome then x.updates else [])", "[]", "C84_after_false: the updates in the queue follow the retraction")
d(F, "farewell", ".hello x.helloSeqno 10 false true⟩", ".hello x.helloSeqno 10 false false⟩", "C84: the hello is sent even if one was waiting", equiv=True)
d(F, "farewell", ".hello x.helloSeqno 10 false true⟩", ".hello x.helloSeqno 1000 false true⟩", "C84: the hello announces the next one within 0.1s")
d(F, "farewell", ".hello x.helloSeqno 10 false true⟩", ".hello x.myseqno 10 false true⟩", "C84: the hello has the next number")
d(F, "farewell", ", ⟨x.c, x.now, 0, .flush⟩])", "])", "C84: nothing is left in the buffer")
d(F, "farewell", ", ⟨x.c, x.now, 0, .flush⟩])", ", ⟨x.c, x.now, 1, .flush⟩])", "C84: nothing is left in the buffer")
d(F, "farewell", "let l ← l.run o x.retract", "let l ← some l", "C84: the retraction is sent")
