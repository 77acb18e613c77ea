import Verif.Model.Util
/-
Model of neighbour.c (reachability, link cost, RTT cost) and of the RTT estimator at the end
of `parse_packet` (message.c:1066-1104).

The neighbour record is restricted to the fields used by link-quality estimation; the
authentication fields are in `Model/Auth.lean` and the send buffer in `Model/Buffer.lean`.
-/
namespace Babel

/-- neighbour.h:23-29 `struct hello_history`.  `seqno = -1` ("unknown") is `none`;
`interval` is in centiseconds; `reach` is an `unsigned short` kept below 2^16. -/
structure Hist where
  reach : Nat
  interval : Nat
  seqno : Option UInt16
  time : Timeval
deriving DecidableEq, Repr, Inhabited

/-- neighbour.c:104,108 the history of a new neighbour. -/
def Hist.fresh : Hist := ⟨0, 0, none, ⟨0, 0⟩⟩

/-- `hist->seqno` as a C int reduced modulo 2^16 (`seqno_plus` masks its result). -/
def Hist.seq (h : Hist) : UInt16 := h.seqno.getD 65535

/-- neighbour.c:131-138, the number of hellos missed according to the clock.
`timeval_minus_msec` is at most 2000000000, so the `int` arithmetic does not overflow;
C division truncates towards zero. -/
def missedByClock (now : Timeval) (h : Hist) : Int :=
  if h.interval > 0 then
    ((timevalMinusMsec now h.time : Int) - h.interval * 7).tdiv (h.interval * 10)
  else 16

/-- neighbour.c:172-179, shifting in `missed` unanswered hellos. -/
def Hist.skip (h : Hist) (missed : Nat) : Hist :=
  { h with
    reach := if missed ≥ 16 then 0 else h.reach >>> missed
    seqno := some (seqnoPlus h.seq missed) }

/-- neighbour.c:124-190 `update_neighbour` with `hello < 0` (periodic check).
The second component is the "something changed" result. -/
def Hist.check (now : Timeval) (h : Hist) : Hist × Bool :=
  let missed := missedByClock now h
  if missed ≤ 0 then (h, false)
  else
    let h1 := { h with time := timevalAddMsec h.time (missed * h.interval * 10) }
    (h1.skip missed.toNat, true)

/-- neighbour.c:144-165: what a hello with number `hello` says about the past: the number of
hellos missed, the corrected register and whether that is a change.  A hello more than 8
behind resets the register, a hello up to 8 behind rewinds it. -/
def Hist.resync (h : Hist) (hello : UInt16) : Int × Nat × Bool :=
  match h.seqno with
  | none => (0, h.reach, false)
  | some s =>
    if h.reach > 0 then
      let missed := seqnoMinus hello s - 1
      if missed < -8 then (0, 0, true)
      else if missed < 0 then (0, u16 (h.reach <<< (-missed).toNat), true)
      else (missed, h.reach, false)
    else (0, h.reach, false)

/-- neighbour.c:124-190 `update_neighbour` with `hello ≥ 0` (reception of a hello).
`interval = 0` leaves the recorded time and interval unchanged. -/
def Hist.hear (now : Timeval) (h : Hist) (hello : UInt16) (interval : Nat) : Hist × Bool :=
  let (missed, reach, rc) := h.resync hello
  let h1 := { h with reach := reach }
  let h2 := if interval ≠ 0 then { h1 with time := now, interval := interval } else h1
  let (h3, rc) := if missed > 0 then (h2.skip missed.toNat, true) else (h2, rc)
  let reach := (h3.reach >>> 1) ||| 0x8000
  ({ h3 with seqno := some hello, reach := reach },
   if reach &&& 0xFC00 ≠ 0xFC00 then true else rc)

/-- The fields of `struct interface` (interface.h:113-150) used in cost computation. -/
structure LinkCfg where
  up : Bool
  lq : Bool
  cost : Nat
  rttDecay : Nat
  rttMin : Nat
  rttMax : Nat
  maxRttPenalty : Nat
deriving DecidableEq, Repr, Inhabited

/-- The fields of `struct neighbour` (neighbour.h:32-60) used in cost computation. -/
structure Nbr where
  hello : Hist
  uhello : Hist
  txcost : Nat
  ihuTime : Timeval
  ihuInterval : Nat
  rtt : Nat
  rttTime : Timeval
deriving DecidableEq, Repr, Inhabited

/-- neighbour.c:77-122 `find_neighbour`, the fields of a new neighbour. -/
def Nbr.fresh (now : Timeval) : Nbr :=
  ⟨Hist.fresh, Hist.fresh, INFINITY, now, 0, 0, ⟨0, 0⟩⟩

/-- neighbour.c:192-212 `reset_txcost`. -/
def Nbr.resetTxcost (now : Timeval) (n : Nbr) : Nbr × Bool :=
  let delay := timevalMinusMsec now n.ihuTime
  if n.ihuInterval > 0 ∧ delay < n.ihuInterval * 10 * 3 then (n, false)
  else if delay ≥ 180000 ∨ n.hello.reach &&& 0xFFF0 = 0 ∨
      (n.ihuInterval > 0 ∧ delay ≥ n.ihuInterval * 10 * 10) then
    ({ n with txcost := INFINITY, ihuTime := now }, true)
  else (n, false)

/-- neighbour.c:232-257, what `check_neighbours` does to one neighbour: `none` when it is
flushed, otherwise the neighbour and the "changed" flag given to
`update_neighbour_metric`. -/
def Nbr.check (now : Timeval) (n : Nbr) : Option (Nbr × Bool) :=
  let (hello, c1) := n.hello.check now
  let (uhello, c2) := n.uhello.check now
  if hello.reach = 0 ∨ hello.time.sec > now.sec ∨ timevalMinusMsec now hello.time > 300000 then
    none
  else
    let (n, c3) := Nbr.resetTxcost now { n with hello := hello, uhello := uhello }
    some (n, c1 || c2 || c3)

/-- neighbour.c:259-264, the delay before the next check required by one neighbour. -/
def Nbr.nextCheck (msecs : Nat) (n : Nbr) : Nat :=
  let m := if n.hello.interval > 0 then min msecs (n.hello.interval * 10) else msecs
  let m := if n.uhello.interval > 0 then min m (n.uhello.interval * 10) else m
  if n.ihuInterval > 0 then min m (n.ihuInterval * 10) else m

/-- neighbour.c:221-269 `check_neighbours`: the remaining neighbours, with their "changed"
flags, and the delay in milliseconds before the next check.  Flushing the routes and
buffered requests of a removed neighbour and updating routing metrics are modelled in
`Model/Node.lean` (`Ev.flushNeigh`, `Ev.updNeigh`). -/
def checkNeighbours (now : Timeval) (ns : List Nbr) : List (Nbr × Bool) × Nat :=
  let left := ns.filterMap (Nbr.check now)
  (left, left.foldl (fun m x => x.1.nextCheck m) 50000)

/-- neighbour.c:272-283 `two_three`. -/
def twoThree (reach : Nat) : Bool :=
  if reach &&& 0xC000 = 0xC000 then true
  else if reach &&& 0xC000 = 0 then false
  else reach &&& 0x2000 ≠ 0

/-- neighbour.c:295-296, 297-298: no recent hello in a history. -/
def Hist.dead (now : Timeval) (h : Hist) : Prop :=
  h.reach &&& 0xFFF0 = 0 ∨ timevalMinusMsec now h.time ≥ 180000

instance (now : Timeval) (h : Hist) : Decidable (h.dead now) := by
  unfold Hist.dead; infer_instance

/-- neighbour.c:300-303 `sreach`. -/
def sreach (reach : Nat) : Nat :=
  ((reach &&& 0x8000) >>> 2) + ((reach &&& 0x4000) >>> 1) + (reach &&& 0x3FFF)

/-- neighbour.c:305-309, the link-quality cost.  `0x8000 * cost` fits an `int` because
`cost` is an `unsigned short`; `cost * (delay - 20000) + 10000` is computed on 32-bit
`unsigned` and wraps. -/
def lqCost (ifcost reach delay : Nat) : Nat :=
  let cost := (0x8000 * ifcost) / (sreach reach + 1)
  let cost := if delay ≥ 40000 then u32 (u32 (cost * (delay - 20000)) + 10000) / 20000 else cost
  min cost INFINITY

/-- neighbour.c:285-317 `neighbour_rxcost`. -/
def rxcost (now : Timeval) (i : LinkCfg) (n : Nbr) : Nat :=
  if n.hello.dead now ∧ n.uhello.dead now then INFINITY
  else if i.lq then lqCost i.cost n.hello.reach (timevalMinusMsec now n.hello.time)
  else if twoThree n.hello.reach || twoThree n.uhello.reach then i.cost
  else INFINITY

/-- neighbour.c:372-376 `valid_rtt`. -/
def validRtt (now : Timeval) (n : Nbr) : Prop := timevalMinusMsec now n.rttTime < 180000

instance (now : Timeval) (n : Nbr) : Decidable (validRtt now n) := by
  unfold validRtt; infer_instance

/-- neighbour.c:319-340 `neighbour_rttcost`; `none` is a failed assertion (abort).
The product is computed on 64 bits, which is enough for two 32-bit factors; the subtraction
cannot wrap because of the enclosing comparisons. -/
def rttcost (now : Timeval) (i : LinkCfg) (n : Nbr) : Option Nat :=
  if i.maxRttPenalty = 0 ∨ ¬ validRtt now n then some 0
  else if n.rtt ≤ i.rttMin then some 0
  else if n.rtt ≤ i.rttMax then
    let tmp := i.maxRttPenalty * (n.rtt - i.rttMin) / (i.rttMax - i.rttMin)
    if tmp < 2147483648 then some tmp else none
  else some i.maxRttPenalty

/-- neighbour.c:342-370 `neighbour_cost`; `none` is a failed assertion. -/
def neighbourCost (now : Timeval) (i : LinkCfg) (n : Nbr) : Option Nat :=
  if ¬ i.up then some INFINITY
  else
    let a := n.txcost
    if a ≥ INFINITY then some INFINITY
    else
      let b := rxcost now i n
      if b ≥ INFINITY then some INFINITY
      else
        let cost :=
          if ¬ i.lq ∨ (a < 256 ∧ b < 256) then a
          else u32 (u32 (max a 256 * max b 256) + 128) >>> 8
        match rttcost now i n with
        | none => none
        | some p => some (min (u32 (cost + p)) INFINITY)

/-- message.c:1071-1081: the RTT sample computed from the four timestamps of a packet,
`none` when outside the 10 minute window.  The differences are 32-bit, reinterpreted as
`int`. `helloSend`/`helloRecv` are the timestamps in the received IHU (when we sent our hello
and when the peer received it), `theirSend`/`ourRecv` those of the peer's last hello. -/
def rttSample (theirSend helloRecv ourRecv helloSend : Nat) : Option Nat :=
  let remote := toInt32 (theirSend + 4294967296 - helloRecv)
  let loc := toInt32 (ourRecv + 4294967296 - helloSend)
  if remote < 0 ∨ loc < 0 ∨ remote > 600000000 ∨ loc > 600000000 then none
  else some (loc - remote).toNat
where
  /-- Conversion of a 32-bit quantity to `int`. -/
  toInt32 (x : Nat) : Int := if u32 x < 2147483648 then (u32 x : Int) else (u32 x : Int) - 4294967296

/-- message.c:1086-1092, the running average, on 32-bit `unsigned`. -/
def smoothRtt (decay old rtt : Nat) : Nat :=
  let s := u32 (decay * rtt + u32 (256 - decay) * old)
  if old ≥ rtt then s / 256 else u32 (s + 255) / 256

/-- message.c:1083-1103, taking a sample into account.  The assertion `rtt ≤ 0x7FFFFFFF` holds
because samples are at most 600000000.  The second component is the `changed` flag given to
`update_neighbour_metric`, which is computed before `rtt_time` is updated. -/
def Nbr.addRtt (now : Timeval) (i : LinkCfg) (n : Nbr) (rtt : Nat) : Nbr × Bool :=
  let n1 := { n with
    rtt := if validRtt now n then smoothRtt i.rttDecay n.rtt rtt else u32 (2 * rtt) }
  ({ n1 with rttTime := now }, decide (rttcost now i n1 ≠ rttcost now i n))

/-- message.c:708-711, the effect of a hello TLV on the neighbour (the RTT timestamps are
kept by the packet parser). -/
def Nbr.hearHello (now : Timeval) (n : Nbr) (unicast : Bool) (seqno : UInt16) (interval : Nat) :
    Nbr × Bool :=
  if unicast then
    let (h, rc) := n.uhello.hear now seqno interval
    ({ n with uhello := h }, rc)
  else
    let (h, rc) := n.hello.hear now seqno interval
    ({ n with hello := h }, rc)

/-- message.c:746-750, the effect of an IHU TLV addressed to us. -/
def Nbr.hearIhu (now : Timeval) (n : Nbr) (txcost interval : Nat) : Nbr × Bool :=
  ({ n with txcost := txcost, ihuTime := now, ihuInterval := interval },
   decide (txcost ≠ n.txcost))

/-- interface.c:398-417, the RTT parameters of an interface that comes up, from the
configured values (0 when not configured); `tunnel` is the interface type. -/
def rttParams (decay rmin rmax penalty : Nat) (tunnel : Bool) : Nat × Nat × Nat × Nat :=
  let decay := if decay > 0 then decay else 42
  let rmin := if rmin > 0 then rmin else 10000
  let rmax := if rmax > 0 then rmax else 120000
  let rmax := if rmax ≤ rmin then u32 (rmin + 10000) else rmax
  (decay, rmin, rmax, if penalty = 0 && tunnel then 96 else penalty)

end Babel
