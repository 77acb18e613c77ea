F="Model/Neighbour.lean"
def d(defn,old,new,claim): return dict(file=F,**{"def":defn},old=old,new=new,claim=claim)
SEEDS=[
 d("missedByClock","- h.interval * 7)","- h.interval * 5)","C18 a hello is missed after 1.7 intervals"),
 d("missedByClock","else 16\n","else 1\n","C18 unknown interval clears the history"),
 d("Hist.skip","if missed ≥ 16 then 0 else h.reach >>> missed","if missed ≥ 16 then h.reach else h.reach >>> missed","C18 long outage clears the register"),
 d("Hist.skip","seqno := some (seqnoPlus h.seq missed)","seqno := h.seqno","C18 missed hellos are numbered"),
 d("Hist.check","if missed ≤ 0 then (h, false)","if missed < 0 then (h, false)","C18 nothing missed, nothing changed"),
 d("Hist.check","{ h with time := timevalAddMsec h.time (missed * h.interval * 10) }","h","C18 hellos counted missed twice"),
 d("Hist.check","(missed * h.interval * 10)","(missed * h.interval)","C18 time accounting in centiseconds"),
 d("Hist.resync","let missed := seqnoMinus hello s - 1","let missed := seqnoMinus hello s","C18 consecutive hello means none missed"),
 d("Hist.resync","if missed < -8 then (0, 0, true)","if missed < -8 then (0, h.reach, true)","C18 restart clears the history"),
 d("Hist.resync","if missed < -8 then","if missed < -9 then","C18 restart threshold"),
 d("Hist.resync","u16 (h.reach <<< (-missed).toNat)","h.reach","C18 late hello rewinds"),
 d("Hist.resync","u16 (h.reach <<< (-missed).toNat)","h.reach <<< (-missed).toNat","C18 register is 16 bits"),
 d("Hist.hear","if interval ≠ 0 then { h1 with time := now, interval := interval } else h1","{ h1 with time := now, interval := interval }","C18 unscheduled hello keeps the schedule"),
 d("Hist.hear","(h3.reach >>> 1) ||| 0x8000","(h3.reach >>> 1) ||| 0x4000","C18 most recent hello is bit 15"),
 d("Hist.hear","(h3.reach >>> 1) ||| 0x8000","h3.reach ||| 0x8000","C18 register shifts"),
 d("Hist.hear","seqno := some hello, reach := reach","reach := reach","C18 number of last hello recorded"),
 d("Hist.hear","if reach &&& 0xFC00 ≠ 0xFC00 then true else rc","if reach &&& 0xC000 ≠ 0xC000 then true else rc","C18 unreported change affects cost"),
 d("Nbr.resetTxcost","n.ihuInterval * 10 * 3","n.ihuInterval * 10 * 2","C19 transmit cost kept three intervals"),
 d("Nbr.resetTxcost","n.hello.reach &&& 0xFFF0 = 0 ∨\n","n.hello.reach &&& 0xFF00 = 0 ∨\n","C19 early expiry only if no hello in 12"),
 d("Nbr.resetTxcost","delay ≥ n.ihuInterval * 10 * 10","delay ≥ n.ihuInterval * 10 * 100","C19 expiry after ten intervals"),
 d("Nbr.resetTxcost","{ n with txcost := INFINITY, ihuTime := now }","{ n with txcost := 0, ihuTime := now }","C19 unknown transmit cost is infinite"),
 d("Nbr.check","if hello.reach = 0 ∨ hello.time.sec","if uhello.reach = 0 ∨ hello.time.sec","C19 removal depends on multicast hellos"),
 d("Nbr.check","> 300000 then","> 3000000 then","C19 silent neighbour removed after five minutes"),
 d("Nbr.check","some (n, c1 || c2 || c3)","some (n, c1 || c3)","C19 change reported"),
 d("Nbr.nextCheck","min m (n.uhello.interval * 10) else m","n.uhello.interval * 10 else m","C19 next check bounded by hello interval"),
 d("twoThree","else reach &&& 0x2000 ≠ 0","else reach &&& 0x1000 ≠ 0","C19 third most recent hello"),
 d("twoThree","if reach &&& 0xC000 = 0xC000 then true","if reach &&& 0x8000 = 0x8000 then true","C19 two of three"),
 d("Hist.dead","now h.time ≥ 180000","now h.time ≥ 1800000","C19 dead after three minutes"),
 d("sreach","((reach &&& 0x8000) >>> 2)","((reach &&& 0x8000) >>> 1)","C19 cost at least configured cost"),
 d("lqCost","(sreach reach + 1)","(sreach reach + 2)","C19 cost value"),
 d("lqCost","if delay ≥ 40000","if delay ≥ 10000","C19 recent hello: no ageing"),
 d("lqCost","min cost INFINITY","cost","C19 cost at most infinity"),
 d("rxcost","if n.hello.dead now ∧ n.uhello.dead now then INFINITY","if n.hello.dead now ∨ n.uhello.dead now then INFINITY","C19 unicast hellos keep a link alive"),
 d("rxcost","if twoThree n.hello.reach || twoThree n.uhello.reach then","if twoThree n.hello.reach then","C19 unicast hellos count"),
 d("validRtt","< 180000","< 18000","C20 sample valid three minutes")|dict(tightened=["C20_penalty","C20_penalty_stale","C20_add"]),
 d("rttcost","else if n.rtt ≤ i.rttMin then some 0","else if n.rtt < i.rttMin then some 0","C20 zero at rtt-min"),
 d("rttcost","(n.rtt - i.rttMin) / (i.rttMax - i.rttMin)","n.rtt / i.rttMax","C20 linear between min and max"),
 d("rttcost","else some i.maxRttPenalty","else some 0","C20 maximum from rtt-max on"),
 d("neighbourCost","if ¬ i.up then some INFINITY","if False then some INFINITY","C19 down interface costs infinity"),
 d("neighbourCost","else u32 (u32 (max a 256 * max b 256) + 128) >>> 8","else u32 (u32 (a * b) + 128) >>> 8","C19 cost at least the transmit cost"),
 d("neighbourCost","(a < 256 ∧ b < 256) then a","(a < 256 ∧ b < 256) then b","C19 cost uses transmit cost"),
 d("neighbourCost","some (min (u32 (cost + p)) INFINITY)","some (u32 (cost + p))","C19 cost at most infinity"),
 d("rttSample","remote > 600000000","remote > 6000000000","C20 ten minute window"),
 d("rttSample","some (loc - remote).toNat","some (loc + remote).toNat","C20 time at the neighbour is subtracted"),
 d("smoothRtt","if old ≥ rtt then s / 256 else u32 (s + 255) / 256","s / 256","C20 estimate converges to the sample"),
 d("smoothRtt","decay * rtt + u32 (256 - decay) * old","decay * old + u32 (256 - decay) * rtt","C20 weights"),
 d("Nbr.addRtt","else u32 (2 * rtt)","else rtt","C20 first sample is doubled"),
 d("Nbr.addRtt","({ n1 with rttTime := now },","(n1,","C20 sample is dated"),
 d("Nbr.hearHello","if unicast then","if !unicast then","C19 unicast hellos go to their own history"),
 d("Nbr.hearIhu","decide (txcost ≠ n.txcost)","decide (txcost > n.txcost)","C19 change of transmit cost reported"),
 d("rttParams","let rmax := if rmax ≤ rmin then u32 (rmin + 10000) else rmax","let rmax := if rmax < rmin then u32 (rmin + 10000) else rmax","C20 rtt-min < rtt-max"),
]
