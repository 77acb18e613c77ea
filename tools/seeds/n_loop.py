L="Model/Loop.lean"
def d(f,defn,old,new,claim,**k): return dict(file=f,**{"def":defn},old=old,new=new,claim=claim,**k)
SEEDS=[
 d(L,"Timer.secs","  | .dump => true","  | .dump => false","the loop sleeps until the next deadline"),
 d(L,"Timer.secs","  | .sources => true\n","","the loop sleeps until the next deadline"),
 d(L,"Loop.timers","[.nbrs, .ifs, .expiry, .sources]","[.nbrs, .ifs, .expiry]","the loop wakes up for every job"),
 d(L,"Loop.timers","(if c.check > 0 then [.dump] else [])","[.dump]","with check interval 0 the kernel is not polled"),
 d(L,"Loop.timers","++ [.resend] ++","++","the loop wakes up for every job"),
 d(L,"Loop.timers","[.buf p.1, .hello p.1, .update p.1, .flush p.1]","[.buf p.1, .hello p.1, .update p.1]","the loop wakes up for every job"),
 d(L,"Loop.timers","[.buf p.1, .hello p.1, .update p.1, .flush p.1]","[.hello p.1, .update p.1, .flush p.1]","the loop wakes up for every job"),
 d(L,"Loop.timers","(s.ifs.filter (·.2))","s.ifs","interfaces that are down do not wake the loop up"),
 d(L,"Loop.timers"," ++ s.nbrs.map .nbuf","","the loop wakes up for every job"),
 d(L,"Loop.meet","if t.secs then timevalMinSec (r t) tv (s.due t).sec else timevalMin tv (s.due t)","timevalMin tv (s.due t)","deadlines in whole seconds are spread"),
 d(L,"Loop.wake","l.foldl (s.meet r) (s.due t)","(s.due t)","the loop wakes up for every job"),
 d(L,"Loop.polls","> 0","≥ 0","the sockets are read if there is something to wait for"),
 d(L,"Loop.ready","| .nbrs => decide (timevalCompare (s.due t) s.now < 0)","| .nbrs => decide (timevalCompare (s.due t) s.now > 0)","neighbours are checked in time"),
 d(L,"Loop.ready","| .nbrs => decide (timevalCompare (s.due t) s.now < 0)","| .nbrs => decide (timevalCompare (s.due t) s.now ≤ 0)","exact test"),
 d(L,"Loop.ready","| .expiry => decide (s.now.sec ≥ (s.due t).sec)","| .expiry => decide (s.now.sec > (s.due t).sec)","routes are expired in time"),
 d(L,"Loop.ready","decide (c.check > 0) && decide","decide (c.check > 1) && decide","the kernel is polled"),
 d(L,"Loop.ready","| .hello _ => decide (timevalCompare s.now (s.due t) ≥ 0)","| .hello _ => decide (timevalCompare s.now (s.due t) > 0)","hellos in time"),
 d(L,"Loop.ready","| .resend => decide ((s.due t).sec ≠ 0) && decide","| .resend => decide","a timer that is not set does not fire"),
 d(L,"Loop.ready","| .buf _ => decide ((s.due t).sec ≠ 0) && decide","| .buf _ => decide","a timer that is not set does not fire"),
 d(L,"Loop.ready","| .nbuf _ => decide ((s.due t).sec ≠ 0) && decide (timevalCompare s.now (s.due t) ≥ 0)","| .nbuf _ => false","buffers of neighbours are flushed"),
 d(L,"Loop.apply","(timevalMin (s.due t) (setTimeout s.now r msecs))","(setTimeout s.now r msecs)","a check is never put off"),
 d(L,"Loop.apply","let s := s.put (.update i) (setTimeout s.now r (c.update i))\n    { s with log","{ s with log","updates are periodic"),
 d(L,"Loop.apply",".addNbr n => { s.put (.nbuf n) ⟨0, 0⟩ with nbrs := n :: s.nbrs }",".addNbr n => { s.put (.nbuf n) ⟨0, 0⟩ with nbrs := s.nbrs }","buffers of neighbours are flushed"),
 d(L,"Loop.apply","then (i, false) else p","then (i, true) else p","an interface that is down is not served"),
 d(L,"Loop.apply","let s := s.put (.hello i) (setTimeout s.now r3 (c.hello i))","let s := s.put (.hello i) ⟨0, 0⟩","hellos are periodic"),
 d(L,"Loop.apply","ifs := (i, true) :: s.ifs.filter (·.1 != i)","ifs := s.ifs","an interface that came up is served"),
 d(L,"Loop.again","max (3 * w.msecs / 2) 10","3 * w.msecs / 2","the loop does not spin"),
 d(L,"Loop.again","| .ifs => setTimeout s.now w.r 30000","| .ifs => setTimeout s.now w.r 300000","interfaces are checked every 30 s"),
 d(L,"Loop.again","roughly w.r 30, 0⟩","roughly w.r 300, 0⟩","routes are expired every 30 s"),
 d(L,"Loop.again","roughly w.r 300, 0⟩","roughly w.r 3000, 0⟩","sources are expired every 5 min"),
 d(L,"Loop.again","roughly w.r c.check","roughly w.r 30","the configured check interval"),
 d(L,"Loop.again","| .resend => w.next","| .resend => ⟨0, 0⟩","requests are resent"),
 d(L,"Loop.again","if w.failed then s.due (.buf i) else ⟨0, 0⟩","s.due (.buf i)","a buffer is flushed once"),
 d(L,"Loop.again","if w.failed then s.due (.nbuf n) else ⟨0, 0⟩","⟨0, 0⟩","a packet that cannot be signed is kept"),
 d(L,"Loop.again","| .hello i => setTimeout s.now w.r (c.hello i)","| .hello i => setTimeout s.now w.r (c.update i)","hellos are periodic"),
 d(L,"Loop.again","| .update i => setTimeout s.now w.r (c.update i)","| .update i => setTimeout s.now w.r (c.hello i)","updates are periodic"),
 d(L,"Loop.again","| .flush _ => ⟨0, 0⟩","| .flush i => s.due (.flush i)","updates are flushed once"),
 d(L,"Loop.serve","w.writes.foldl (Loop.apply c) s","s","jobs change timers"),
 d(L,"Loop.test","if s.ready c t then s.serve c j t else s","s.serve c j t","a job is done when its time has come"),
 d(L,"Loop.live","(s.ifs.filter (·.2))","s.ifs","an interface that is down is not served"),
 d(L,"Loop.pass","if force then s.serve c j .dump else s.test c j .dump","s.test c j .dump","the kernel is read again when addresses change"),
 d(L,"Loop.pass","[Timer.nbrs, .ifs, .expiry, .sources]","[Timer.nbrs, .ifs, .sources]","routes are expired in time"),
 d(L,"Loop.pass","[Timer.hello i, .update i, .flush i]","[Timer.hello i, .update i]","queued updates are sent in time"),
 d(L,"Loop.pass","let s := s.test c j .resend\n","","requests are resent in time"),
 d(L,"Loop.pass","(s.live.map Timer.buf).foldl (Loop.test c j) s","s","buffers are flushed in time"),
 d(L,"Loop.pass","(s.nbrs.map Timer.nbuf).foldl (Loop.test c j) s","s","buffers are flushed in time"),
 d(L,"Loop.reopen","((s.put .dump ⟨s.now.sec, 0⟩).put .nbrs s.now)","(s.put .nbrs s.now)","SIGUSR2 makes the kernel be read again"),
 d(L,"Loop.reopen",".put .expiry ⟨s.now.sec, 0⟩","","SIGUSR2 makes routes expire"),
 d(L,"Loop.turn","if p then T.input.foldl (Loop.apply c) s else s","T.input.foldl (Loop.apply c) s","a loop that has something to do does not read its sockets"),
 d(L,"Loop.turn","{ s with now := T.finish }","{ s with now := T.start }","the time after sleeping"),
 d(L,"Loop.turn","if T.reopen then s.reopen else s","s","SIGUSR2"),
]
