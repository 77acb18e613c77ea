import Verif.Model.Daemon
/-
Hellos and IHUs: when they are sent, to whom and with which contents.  In Model/Daemon these are arbitrary
(`DEv.say`).

Simplifications: the IHU that answers a request for everything (message.c:993) is an event of its own; timers are in Model/Loop.
`neigh->hello_send_us = 0` (message.c:2027) is left out: the conditions under which it is done are not met again
before the next hello of the neighbour, if the clock does not go back.
-/
namespace Babel

/-- The daemon with the numbers of the last hellos: `ifp->hello_seqno` (interface.h:141) and `neigh->hello_seqno`
(neighbour.h:39). -/
structure Talk where
  d : Daemon
  seq : IfId → UInt16
  useq : NeighId → UInt16

/-- `ifp->hello_interval`, in milliseconds. -/
def helloMs (d : Daemon) (i : IfId) : Nat := match getIf d.st i with | some x => x.helloInterval | none => 0

/-- An operation on a buffer. -/
def Talk.write (e : DCfg) (t : Talk) (i : IfId) (j : Nat) (op : Snd) : Option Talk := do
  return { t with d := ← t.d.write e i j op }

/-- The rest of message.c:1370-1399, after the tests. -/
def Talk.newHello (e : DCfg) (t : Talk) (i : IfId) (interval : Nat) : Option Talk :=
  let q := t.seq i + 1
  Talk.write e { t with seq := fun x => if x = i then q else t.seq x } i 0 (.hello q.toNat interval false true)

/-- message.c:1370-1399 `send_multicast_hello`. -/
def Talk.multicastHello (e : DCfg) (t : Talk) (i : IfId) (interval : Nat) (force : Bool) : Option Talk :=
  if ifUp t.d.st i = false then some t
  else if interval = 0 ∧ (sifOf e t.d.st i).rfc6126 then some t
  else if ((t.d.link i).bufs 0).hello.isSome then
    if force then do
      let d ← t.d.node e (.flushUpdates i)
      let t ← Talk.write e { t with d := d } i 0 .flush
      t.newHello e i interval
    else some t
  else t.newHello e i interval

/-- message.c:1401-1424 `send_unicast_hello`, with `interval` and `force` 0 as in its only call. -/
def Talk.unicastHello (e : DCfg) (t : Talk) (n : NeighId) (x : DNbr) : Option Talk :=
  let i := e.node.ifOf n
  if ifUp t.d.st i = false then some t
  else if (sifOf e t.d.st i).rfc6126 then some t
  else if ((t.d.link i).bufs x.buf).hello.isSome then some t
  else
    let q := t.useq n + 1
    Talk.write e { t with useq := fun m => if m = n then q else t.useq m } i x.buf (.hello q.toNat 0 true false)

/-- message.c:2014-2018: the IHU goes to the buffer of the neighbour. -/
def ihuPrivate (e : DCfg) (d : Daemon) (i : IfId) (x : DNbr) : Bool :=
  (e.ifs i).unicast || (!((d.link i).bufs x.buf).bytes.isEmpty && !(sifOf e d.st i).rfc6126)

/-- message.c:2021-2029: the timestamps sent with an IHU. -/
def ihuTimes (e : DCfg) (d : Daemon) (i : IfId) (x : DNbr) : Option (Nat × Nat) :=
  if (e.ifs i).timestamps ∧ x.sendUs % 4294967296 ≠ 0 ∧ timevalMinusMsec d.st.now x.recvTime < 1000000 then
    some (x.sendUs % 4294967296, timeUs x.recvTime)
  else none

/-- message.c:2006-2007 and 1947-1948: cost and interval, as `unsigned short`. -/
def ihuOf (e : DCfg) (d : Daemon) (n : NeighId) (x : DNbr) : Snd :=
  let i := e.node.ifOf n
  .ihu (rxcost d.st.now (linkCfgOf e d.st i) x.link % 65536) ((helloMs d i * 3 + 9) / 10 % 65536) (e.addr n) (ihuTimes e d i x)

/-- message.c:1974-2045 `send_ihu` for one neighbour. -/
def Talk.sendIhu (e : DCfg) (t : Talk) (n : NeighId) : Option Talk :=
  match t.d.nbr n with
  | none => some t
  | some x =>
    let i := e.node.ifOf n
    if ifUp t.d.st i = false then some t
    else
      let one := ihuPrivate e t.d i x
      let j := if one then x.buf else 0
      let ihu := ihuOf e t.d n x
      if (ihuTimes e t.d i x).isSome then do
        let t ← t.write e i j (.ensure 30)
        let t ← if one then t.unicastHello e n x else t.multicastHello e i 0 false
        t.write e i j ihu
      else t.write e i j ihu

/-- message.c:2054-2055: a neighbour whose link is not good. -/
def marginal (x : DNbr) : Bool := x.link.txcost ≥ 384 || x.link.hello.reach &&& 0xF000 != 0xF000

/-- message.c:1991-1997 and 2047-2058: `send_ihu` for all neighbours on an interface, or `send_marginal_ihu`. -/
def Talk.sendIhus (e : DCfg) (t : Talk) (i : IfId) (all : Bool) : Option Talk :=
  ((t.d.nbrs.filter fun p => e.node.ifOf p.1 == i && (all || marginal p.2)).map (·.1)).foldlM (fun t n => t.sendIhu e n) t

/-- message.c:1426-1435 `send_hello`. -/
def Talk.hello (e : DCfg) (t : Talk) (i : IfId) : Option Talk := do
  let t ← t.multicastHello e i ((helloMs t.d i + 9) / 10) true
  t.sendIhus e i (t.seq i % 3 == 0)

/-- What happens: something else (`ev`), a hello (babeld.c:752, interface.c:485), the last hellos (babeld.c:800), or an
IHU in answer to a request for everything (message.c:993). -/
inductive TEv
  | ev (x : DEv)
  | hello (i : IfId)
  | last (i : IfId)
  | ihu (n : NeighId)

/-- Hellos and IHUs are not among the other events. -/
def isOther : DEv → Bool
  | .say _ _ .flush => true
  | .say _ _ _ => false
  | _ => true

/-- One event.  The numbers of the hellos of a new neighbour start at 0 (neighbour.c:96, 107-110); a neighbour is still
the same if it has the same buffer. -/
def tstep (e : DCfg) (t : Talk) : TEv → Option Talk
  | .ev x =>
    if isOther x then do
      let d ← dstep e t.d x
      return { t with d := d, useq := fun n => if (d.nbr n).map (·.buf) = (t.d.nbr n).map (·.buf) then t.useq n else 0 }
    else some t
  | .hello i => t.hello e i
  | .last i => t.multicastHello e i 10 true
  | .ihu n => t.sendIhu e n

/-- A run. -/
def trun (e : DCfg) (t : Talk) (evs : List TEv) : Option Talk := evs.foldlM (tstep e) t

end Babel
