def d(file, df, old, new, claim, **k):
    return dict(file=file, **{"def": df}, old=old, new=new, claim=claim, **k)
H = "Model/Hello.lean"
SEEDS = [
 d(H,"Talk.newHello","let q := t.seq i + 1","let q := t.seq i","hellos have consecutive numbers"),
 d(H,"Talk.newHello","if x = i then q else t.seq x","q","hellos of different interfaces are numbered apart"),
 d(H,"Talk.newHello","if x = i then q else t.seq x","t.seq x","hellos have consecutive numbers"),
 d(H,"Talk.newHello","(.hello q.toNat interval false true)","(.hello q.toNat 0 false true)","scheduled hellos carry the interval"),
 d(H,"Talk.newHello","(.hello q.toNat interval false true)","(.hello q.toNat interval true true)","multicast hellos are not unicast hellos"),
 d(H,"Talk.newHello","i 0 (.hello","i 1 (.hello","hellos go to everyone"),
 d(H,"Talk.multicastHello","if force then do","if !force then do","a scheduled hello is sent even when one is waiting"),
 d(H,"Talk.multicastHello","let d ← t.d.node e (.flushUpdates i)\n","let d ← some t.d\n","updates are flushed before a second hello"),
 d(H,"Talk.multicastHello","let t ← Talk.write e { t with d := d } i 0 .flush","let t ← some { t with d := d }","one hello to a packet"),
 d(H,"Talk.multicastHello","    else some t\n  else t.newHello e i interval","    else t.newHello e i interval\n  else some t","hellos are sent"),
 d(H,"Talk.multicastHello","if ifUp t.d.st i = false then some t","if ifUp t.d.st i = true then some t","hellos are sent on interfaces that are up"),
 d(H,"Talk.multicastHello","if interval = 0 ∧ (sifOf e t.d.st i).rfc6126 then some t","if interval = 0 then some t","unscheduled hellos with timestamps"),
 d(H,"Talk.multicastHello","if interval = 0 ∧ (sifOf e t.d.st i).rfc6126 then some t","if (sifOf e t.d.st i).rfc6126 then some t","hellos are sent for RFC 6126"),
 d(H,"Talk.unicastHello","let q := t.useq n + 1","let q := t.useq n","unicast hellos are numbered from 1"),
 d(H,"Talk.unicastHello","if m = n then q else t.useq m","q","unicast hellos are numbered for each neighbour"),
 d(H,"Talk.unicastHello","(.hello q.toNat 0 true false)","(.hello q.toNat 100 true false)","unicast hellos are unscheduled"),
 d(H,"Talk.unicastHello","(.hello q.toNat 0 true false)","(.hello q.toNat 0 false false)","unicast hellos have the U flag"),
 d(H,"Talk.unicastHello","i x.buf (.hello","i 0 (.hello","unicast hellos go to one neighbour"),
 d(H,"ihuOf","(rxcost d.st.now (linkCfgOf e d.st i) x.link % 65536)","(x.link.txcost % 65536)","an IHU has the cost of receiving"),
 d(H,"ihuOf","(helloMs d i * 3 + 9) / 10","(helloMs d i + 9) / 10","the interval of an IHU is three times the hello interval"),
 d(H,"ihuOf","(e.addr n) (ihuTimes","[] (ihuTimes","an IHU names the neighbour"),
 d(H,"ihuOf","let i := e.node.ifOf n","let i := 0","an IHU has the parameters of the interface"),
 d(H,"Talk.sendIhu","let j := if one then x.buf else 0","let j := if one then 0 else x.buf","the hello for the timestamps is in the same packet"),
 d(H,"Talk.sendIhu","if ifUp t.d.st i = false then some t","if ifUp t.d.st i = true then some t","IHUs are sent"),
 d(H,"Talk.sendIhu","if one then t.unicastHello e n x else t.multicastHello e i 0 false","if one then t.unicastHello e n x else t.multicastHello e i 0 true","a second hello is not forced"),
 d(H,"Talk.sendIhu","if one then t.unicastHello e n x else t.multicastHello e i 0 false","if one then t.unicastHello e n x else t.multicastHello e i 400 false","hellos sent for timestamps are unscheduled"),
 d(H,"Talk.sendIhu","        t.write e i j ihu\n      else t.write e i j ihu","        t.write e i j ihu\n      else some t","IHUs are sent without timestamps"),
 d(H,"Talk.sendIhu","        t.write e i j ihu\n      else t.write e i j ihu","        return t\n      else t.write e i j ihu","IHUs are sent with timestamps"),
 d(H,"marginal","x.link.txcost ≥ 384","x.link.txcost > 384","marginal neighbours"),
 d(H,"marginal","0xF000 != 0xF000","0xF000 == 0xF000","marginal neighbours"),
 d(H,"marginal","0xF000 != 0xF000","0xC000 != 0xC000","marginal neighbours"),
 d(H,"marginal"," || "," && ","marginal neighbours"),
 d(H,"Talk.sendIhus","e.node.ifOf p.1 == i && ","","IHUs are sent on the interface of the hello"),
 d(H,"Talk.sendIhus","(all || marginal p.2)","(all && marginal p.2)","all neighbours get IHUs"),
 d(H,"Talk.sendIhus","(all || marginal p.2)","all","marginal neighbours get IHUs with each hello"),
 d(H,"Talk.hello","t.seq i % 3 == 0","t.seq i % 3 == 1","every third hello comes with all IHUs"),
 d(H,"Talk.hello","t.seq i % 3 == 0","t.seq i % 4 == 0","every third hello comes with all IHUs"),
 d(H,"Talk.hello","(helloMs t.d i + 9) / 10","helloMs t.d i / 10","the interval is not rounded down"),
 d(H,"Talk.hello","((helloMs t.d i + 9) / 10) true","((helloMs t.d i + 9) / 10) false","a hello is forced"),
 d(H,"Talk.hello","((helloMs t.d i + 9) / 10) true","0 true","a hello is scheduled"),
 d(H,"tstep","t.multicastHello e i 10 true","t.multicastHello e i 20 true","the last hellos have interval 10"),
 d(H,"tstep","| .ihu n => t.sendIhu e n","| .ihu n => t.sendIhus e (e.node.ifOf n) true","only the neighbour who asks gets an IHU"),
 d(H,"tstep","then t.useq n else 0","then t.useq n else t.useq n","the numbers of a new neighbour start at 1"),
 d(H,"ihuPrivate","(e.ifs i).unicast ||","!(e.ifs i).unicast ||","IHUs are multicast unless configured otherwise"),
 d(H,"ihuTimes","(e.ifs i).timestamps ∧ ","","timestamps are sent only if enabled"),
]
