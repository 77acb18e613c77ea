SEEDS = []


def d(file, defn, old, new, claim, **k):
    SEEDS.append(dict(file=file, old=old, new=new, claim=claim, **{"def": defn}, **k))


F = "Model/Talk.lean"
d(F, "sendTwice", "if wait ≤ 0 then wait else second.rc", "if wait < 0 then wait else second.rc", "C82: a command fails if the socket does not become writable")
d(F, "sendTwice", "if wait ≤ 0 then wait else second.rc", "if wait ≤ 0 then wait else first.rc", "C82: a command is sent at the second attempt")
d(F, "sendTwice", "if first = .again then", "if first = .other then", "C82: a command is sent at the second attempt")
d(F, "shortSend", "< len", "≤ len", "C82: a command that was sent completely gets the kernel's result")
d(F, "shortSend", "decide ((rc % 4294967296).toNat < len)", "decide (rc < len)", "C82_failure_false: the code as it should be")
d(F, "shortSend", "decide ((rc % 4294967296).toNat < len)", "decide (rc = 0)", "C82: commands sent in part have failed")
d(F, "netlinkTalk", "let seqno := seqno + 1", "let seqno := seqno", "C82: the numbers of commands differ")
d(F, "netlinkTalk", "(seqno, some (.fail, rs))", "(seqno, some (.ok, rs))", "C82: commands sent in part have failed")
d(F, "netlinkTalk", "netlinkRead true pid", "netlinkRead false pid", "C82: only an answer to this very command counts")
d(F, "netlinkTalk", "netlinkRead true pid seqno.toNat none", "netlinkRead true pid seqno.toNat (some pid)", "C82: the kernel's answer is used")
d(F, "netlinkTalk", "netlinkRead true pid seqno.toNat", "netlinkRead true pid (seqno - 1).toNat", "C82: only an answer to this very command counts")
d(F, "netlinkTalk", "netlinkRead true pid seqno.toNat", "netlinkRead true 0 seqno.toNat", "C82: only an answer to this socket counts")
d(F, "sendDump", "if len = 0 then (seqno, -1)", "if len = 0 then (seqno, 0)", "C82: there must be some data")
d(F, "sendDump", "(16 + len)", "len", "C82: requests sent in part have failed")
d(F, "sendDump", "let seqno := seqno + 1", "let seqno := seqno", "C82: the numbers of requests differ")
N = "Model/NetlinkRead.lean"
d(N, "nlWalk", "if e = 0 then .ack else .error (-toInt e)", "if e ≠ 0 then .ack else .error (-toInt e)", "C82: only an acknowledgment counts")
d(N, "nlWalk", "(p != pid || seq != seqno)", "(p != pid)", "C82: only an answer to this very command counts")
d(N, "nlWalk", "(p != pid || seq != seqno)", "(seq != seqno)", "C82: only an answer to this socket counts")
d(N, "netlinkRead", "if sender ≠ 0 then ([], some (.fail, rs))", "if False then ([], some (.fail, rs))", "C82: only the kernel's answers count")
