import Verif.Model.Buffer
/-
What is sent when the daemon exits (babeld.c:789-805).
-/
namespace Babel

/-- An interface when the daemon exits: its parameters, whether it has the flag IF_UNICAST, the buffers of its neighbours, the updates
that `flushupdates` would send (message.c:1616-1742; the router-id, the destination, the seqno and the metric), `myseqno`, and the next `hello_seqno`. -/
structure LastIf where
  c : SIf
  now : Timeval
  unicast : Bool
  nbrs : List Nat
  queue : List (Bytes × PKey × Nat × Nat)
  myseqno : Nat
  helloSeqno : Nat

/-- The buffers that messages for all neighbours are written to (message.c:1556-1565, 1898-1907). -/
def LastIf.targets (x : LastIf) : List Nat := if x.unicast then x.nbrs else [0]

/-- message.c:1886-1908 `send_wildcard_retraction`. -/
def LastIf.retract (x : LastIf) : List Act := x.targets.map fun i => ⟨x.c, x.now, i, .retraction x.myseqno⟩

/-- message.c:1616-1742 `flushupdates` followed by `flushbuf(&ifp->buf, ifp)`.  What `schedule_flush_now`
does to the timeouts is left out: the daemon does not look at them any more. -/
def LastIf.updates (x : LastIf) : List Act :=
  (x.queue.flatMap fun u => x.targets.map fun i => (⟨x.c, x.now, i, .update u.1 u.2.1 u.2.2.1 u.2.2.2⟩ : Act)) ++ [⟨x.c, x.now, 0, .flush⟩]

/-- babeld.c:794-801 for one interface: `send_wildcard_retraction`, `send_multicast_hello(ifp, 10, 1)` (message.c:1370-1399), which
empties the queue of updates and the buffer if there is a hello in the buffer, and `flushbuf(&ifp->buf, ifp)`. -/
def farewell (o : Orc) (x : LastIf) (l : Link) : Option Link :=
  if !x.c.up then some l
  else do
    let l ← l.run o x.retract
    l.run o ((if (l.bufs 0).hello.isSome then x.updates else []) ++
      [⟨x.c, x.now, 0, .hello x.helloSeqno 10 false true⟩, ⟨x.c, x.now, 0, .flush⟩])

end Babel
