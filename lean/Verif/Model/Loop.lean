import Verif.Model.Queue
/-
The main loop (babeld.c:588-787): how long it sleeps, and what it does when it wakes up.

Simplifications: what a job does besides setting its own timer again is left open, except that other timers are set
with `set_timeout` or cleared; the contents of the messages, tables and sockets are in the other
models.  Errors of `select` are left out.
-/
namespace Babel

/-- The timers: `check_neighbours_timeout`, `check_interfaces_timeout`, `expiry_time`,
`source_expiry_time`, `kernel_dump_time`, `resend_time`, and those of interfaces and neighbours. -/
inductive Timer
  | nbrs | ifs | expiry | sources | dump | resend
  /-- `ifp->buf.timeout` -/
  | buf (i : IfId)
  /-- `ifp->hello_timeout` -/
  | hello (i : IfId)
  /-- `ifp->update_timeout` -/
  | update (i : IfId)
  /-- `ifp->update_flush_timeout` -/
  | flush (i : IfId)
  /-- `neigh->buf.timeout` -/
  | nbuf (n : NeighId)
deriving DecidableEq, Repr

/-- Timers in whole seconds. -/
def Timer.secs : Timer → Bool
  | .expiry => true
  | .sources => true
  | .dump => true
  | _ => false

/-- The state of the loop.  A deadline of 0 seconds means none; those of timers in whole seconds have no
microseconds.  `log` records when each job was done, and the deadline because of which it was done, or 0 seconds if it was done for
another reason (last first).  When an interface comes up a hello is sent; in the log, a full update is recorded as well, although there
is not always one. -/
structure Loop where
  now : Timeval
  due : Timer → Timeval
  ifs : List (IfId × Bool)
  nbrs : List NeighId
  log : List (Timeval × Timer × Timeval) := []

/-- interface.h:98-99 and babeld.c:69: `hello_interval` and `update_interval` in milliseconds,
`kernel_check_interval` in seconds. -/
structure LoopCfg where
  hello : IfId → Nat
  update : IfId → Nat
  check : Nat

/-- Changes of timers made by jobs and in reply to packets, messages of the kernel and local clients. -/
inductive Write
  /-- `set_timeout(t, msecs)`; `r` is `random()` -/
  | set (t : Timer) (r msecs : Nat)
  | clear (t : Timer)
  /-- babeld.c:914-935 `schedule_neighbours_check` and `schedule_interfaces_check` without `override` -/
  | sooner (t : Timer) (r msecs : Nat)
  /-- message.c:1847: a full update on interface `i` -/
  | dumped (i : IfId) (r : Nat)
  | addNbr (n : NeighId)
  | delNbr (n : NeighId)
  | down (i : IfId)
  /-- interface.c:483-485: the interface comes up; `r1`, `r2`, `r3` are `random()` -/
  | up (i : IfId) (r1 r2 r3 : Nat)

/-- What a job does: a random number, the result of `check_neighbours` or the new `resend_time`, and
changes of other timers.  `failed`: a packet cannot be signed (message.c:1145-1150). -/
structure Work where
  r : Nat
  msecs : Nat
  next : Timeval
  writes : List Write
  failed : Bool

/-- What jobs do. -/
structure Jobs where
  work : Loop → Timer → Work

/-- Assignment to a timer. -/
def Loop.put (s : Loop) (t : Timer) (v : Timeval) : Loop := { s with due := fun x => if x = t then v else s.due x }

/-- babeld.c:593-612: the timers that are considered, in that order. -/
def Loop.timers (c : LoopCfg) (s : Loop) : List Timer :=
  [.nbrs, .ifs, .expiry, .sources] ++ (if c.check > 0 then [.dump] else []) ++ [.resend] ++
    (s.ifs.filter (·.2)).flatMap (fun p => [.buf p.1, .hello p.1, .update p.1, .flush p.1]) ++ s.nbrs.map .nbuf

/-- babeld.c:594-612: one `timeval_min` or `timeval_min_sec`; `r` is `random()`. -/
def Loop.meet (s : Loop) (r : Timer → Nat) (tv : Timeval) (t : Timer) : Timeval :=
  if t.secs then timevalMinSec (r t) tv (s.due t).sec else timevalMin tv (s.due t)

/-- babeld.c:594-612: the time until which to sleep.  The first timer is copied. -/
def Loop.wake (c : LoopCfg) (r : Timer → Nat) (s : Loop) : Timeval :=
  match s.timers c with
  | [] => ⟨0, 0⟩
  | t :: l => l.foldl (s.meet r) (s.due t)

/-- babeld.c:614-639: the sockets are only looked at when there is something to wait for. -/
def Loop.polls (c : LoopCfg) (r : Timer → Nat) (now : Timeval) (s : Loop) : Bool :=
  decide (timevalCompare (s.wake c r) now > 0)

/-- babeld.c:713-779: the tests. -/
def Loop.ready (c : LoopCfg) (s : Loop) (t : Timer) : Bool :=
  match t with
  | .nbrs => decide (timevalCompare (s.due t) s.now < 0)
  | .ifs => decide (timevalCompare (s.due t) s.now < 0)
  | .expiry => decide (s.now.sec ≥ (s.due t).sec)
  | .sources => decide (s.now.sec ≥ (s.due t).sec)
  | .dump => decide (c.check > 0) && decide (s.now.sec ≥ (s.due t).sec)
  | .hello _ => decide (timevalCompare s.now (s.due t) ≥ 0)
  | .update _ => decide (timevalCompare s.now (s.due t) ≥ 0)
  | .flush _ => decide (timevalCompare s.now (s.due t) ≥ 0)
  | .resend => decide ((s.due t).sec ≠ 0) && decide (timevalCompare s.now (s.due t) ≥ 0)
  | .buf _ => decide ((s.due t).sec ≠ 0) && decide (timevalCompare s.now (s.due t) ≥ 0)
  | .nbuf _ => decide ((s.due t).sec ≠ 0) && decide (timevalCompare s.now (s.due t) ≥ 0)

/-- A change. -/
def Loop.apply (c : LoopCfg) (s : Loop) : Write → Loop
  | .set t r msecs => s.put t (setTimeout s.now r msecs)
  | .clear t => s.put t ⟨0, 0⟩
  | .sooner t r msecs => s.put t (timevalMin (s.due t) (setTimeout s.now r msecs))
  | .dumped i r =>
    let s := s.put (.update i) (setTimeout s.now r (c.update i))
    { s with log := (s.now, .update i, ⟨0, 0⟩) :: s.log }
  | .addNbr n => { s.put (.nbuf n) ⟨0, 0⟩ with nbrs := n :: s.nbrs }
  | .delNbr n => { s with nbrs := s.nbrs.filter (· != n) }
  | .down i => { s with ifs := s.ifs.map fun p => if p.1 = i then (i, false) else p }
  | .up i r1 r2 r3 =>
    let s := (s.put (.hello i) (setTimeout s.now r1 (c.hello i))).put (.update i) (setTimeout s.now r2 (c.update i))
    let s := s.put (.hello i) (setTimeout s.now r3 (c.hello i))
    { s with
      ifs := (i, true) :: s.ifs.filter (·.1 != i)
      log := (s.now, .update i, ⟨0, 0⟩) :: (s.now, .hello i, ⟨0, 0⟩) :: s.log }

/-- The deadline that is set when a job is done: babeld.c:721, 726-729, 734, 740, 745; message.c:1188, 1393, 1737,
1847; resend.c:293.  A packet that cannot be signed is kept, and so is the timer of its buffer
(message.c:1148-1149). -/
def Loop.again (c : LoopCfg) (s : Loop) (w : Work) : Timer → Timeval
  | .nbrs => setTimeout s.now w.r (max (3 * w.msecs / 2) 10)
  | .ifs => setTimeout s.now w.r 30000
  | .expiry => ⟨s.now.sec + roughly w.r 30, 0⟩
  | .sources => ⟨s.now.sec + roughly w.r 300, 0⟩
  | .dump => ⟨s.now.sec + roughly w.r c.check, 0⟩
  | .resend => w.next
  | .buf i => if w.failed then s.due (.buf i) else ⟨0, 0⟩
  | .hello i => setTimeout s.now w.r (c.hello i)
  | .update i => setTimeout s.now w.r (c.update i)
  | .flush _ => ⟨0, 0⟩
  | .nbuf n => if w.failed then s.due (.nbuf n) else ⟨0, 0⟩

/-- A job is done. -/
def Loop.serve (c : LoopCfg) (j : Jobs) (s : Loop) (t : Timer) : Loop :=
  let w := j.work s t
  let s1 := w.writes.foldl (Loop.apply c) s
  { s1.put t (s1.again c w t) with log := (s.now, t, s.due t) :: s1.log }

/-- A job is done if its time has come. -/
def Loop.test (c : LoopCfg) (j : Jobs) (s : Loop) (t : Timer) : Loop := if s.ready c t then s.serve c j t else s

/-- The interfaces that are up. -/
def Loop.live (s : Loop) : List IfId := (s.ifs.filter (·.2)).map (·.1)

/-- babeld.c:713-779.  With `force`, addresses have changed (`kernel_addr_changed`). -/
def Loop.pass (c : LoopCfg) (j : Jobs) (force : Bool) (s : Loop) : Loop :=
  let s := if force then s.serve c j .dump else s.test c j .dump
  let s := [Timer.nbrs, .ifs, .expiry, .sources].foldl (Loop.test c j) s
  let s := (s.live.flatMap fun i => [Timer.hello i, .update i, .flush i]).foldl (Loop.test c j) s
  let s := s.test c j .resend
  let s := (s.live.map Timer.buf).foldl (Loop.test c j) s
  (s.nbrs.map Timer.nbuf).foldl (Loop.test c j) s

/-- One turn of the loop: the time when it begins, the random numbers used to compute how long to sleep, the time when it
goes on, what arrives on the sockets, `reopening` and `kernel_addr_changed`. -/
structure Turn where
  start : Timeval
  rnd : Timer → Nat
  finish : Timeval
  input : List Write
  reopen : Bool
  force : Bool

/-- babeld.c:693-697. -/
def Loop.reopen (s : Loop) : Loop :=
  ((s.put .dump ⟨s.now.sec, 0⟩).put .nbrs s.now).put .expiry ⟨s.now.sec, 0⟩

/-- babeld.c:588-787. -/
def Loop.turn (c : LoopCfg) (j : Jobs) (s : Loop) (T : Turn) : Loop :=
  let p := s.polls c T.rnd T.start
  let s := { s with now := T.finish }
  let s := if p then T.input.foldl (Loop.apply c) s else s
  let s := if T.reopen then s.reopen else s
  s.pass c j T.force

/-- Several turns. -/
def Loop.run (c : LoopCfg) (j : Jobs) (s : Loop) (l : List Turn) : Loop := l.foldl (Loop.turn c j) s

end Babel
