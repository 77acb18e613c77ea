F="Model/Buffer.lean"
def d(defn,old,new,claim,**k): return dict(file=F,**{"def":defn},old=old,new=new,claim=claim,**k)
SEEDS=[
 d("htons","UInt8.ofNat (n / 256 % 256), UInt8.ofNat (n % 256)","UInt8.ofNat (n % 256), UInt8.ofNat (n / 256 % 256)","C11 byte order"),
 d("hmacSpace","48 + 6 + 8","6 + 8","C12 room for the trailer"),
 d("hmacSpace","48 + 6 + 8","48","C12 room for the counter and the MAC"),
 d("SIf.auth","if k.none then none else some k","some k","C12 keys of type none do not sign"),
 d("sendPc","some { t with index := i, draws := t.draws + 1 }","some { t with draws := t.draws + 1 }","C17 a new index when the counter wraps"),
 d("sendPc","if t.pc = 0 then\n        match","if t.pc = 1 then\n        match","C17 an index is drawn before the first packet"),
 d("sendPc","pc := u32 (t.pc + 1)","pc := t.pc","C17 the counter increases"),
 d("sendPc","pc := u32 (t.pc + 1)","pc := u16 (t.pc + 1)","C17 the counter has 32 bits"),
 d("sendPc","htonl t.pc ++ t.index)","htonl t.pc)","C17 the packet carries the index"),
 d("stamp","l.drop (i + 6)","l.drop (i + 4)","C11 timestamp replaces the padding"),
 d("fillRtt","let x ← rd b.bytes (h + 8)","let x ← rd b.bytes (h + 6)","C11 position of the timestamp"),
 d("fillRtt","if x = 1 ∧ y = 4 then","if x = 3 ∧ y = 4 then","C11 the hello is stamped"),
 d("fillRtt","stamp b.bytes (h + 8) (timeUs now)","stamp b.bytes (h + 8) 0","C11 time of sending"),
 d("padding","if n - 2 > 255 then 255 else n - 2","n - 2","C12 length of a padding TLV"),
 d("padding","else [0]","else []","C12 probing fills the packet"),
 d("addHmac","if b.bytes.length + 2 + 32 > b.size then some none","if b.bytes.length + 2 + 64 > b.size then some none","C12 the MAC fits"),
 d("addHmac","k.mac src b.dst (header b.bytes.length) b.bytes","k.mac b.dst src (header b.bytes.length) b.bytes","C12 the MAC covers source and destination"),
 d("addHmac","k.mac src b.dst (header b.bytes.length) b.bytes","k.mac src b.dst (header 0) b.bytes","C12 the MAC covers the header"),
 d("addHmac","[16, UInt8.ofNat m.length] ++ m","[17, UInt8.ofNat m.length] ++ m","C12 type of the MAC TLV"),
 d("Buf.reset","bytes := [], hello := none, id := none","bytes := [], hello := none","C10 router-id is sent again in each packet"),
 d("Buf.reset","nh := none, prefix_ := none","prefix_ := none","C10 next hop is sent again in each packet"),
 d("Buf.reset","nh := none, prefix_ := none","nh := none","C10 default prefix is forgotten with the packet"),
 d("Buf.reset","bytes := [], hello := none","bytes := []","C11 hello is forgotten with the packet"),
 d("Buf.reset","{ b with bytes := [],","{ b with","C12 the buffer is emptied"),
 d("flushbuf","let t ← addPc o c t\n    let b ← fillRtt c now t.buf","let b ← fillRtt c now t.buf","C17 every packet carries a counter"),
 d("flushbuf","let b ← fillRtt c now t.buf","let b := t.buf","C11 time of sending"),
 d("flushbuf","[header b.bytes.length ++ b.bytes ++ tr ++ pad]","[header (b.bytes.length + tr.length) ++ b.bytes ++ tr ++ pad]","C12 body length excludes the trailer"),
 d("flushbuf","++ b.bytes ++ tr ++ pad]","++ b.bytes ++ pad ++ tr]","C12 padding follows the MAC"),
 d("flushbuf","| none => return t\n","| none => return { t with buf := b.reset }\n","C12 failure to sign (makes the counterexample fail)"),
 d("jitter","min flushInterval 20 else min flushInterval 2000","min flushInterval 20 else min flushInterval 8000000000","C13 jitter is bounded"),
 d("scheduleFlushMs","(timevalMinusMsec t.buf.timeout now : Int) < msecs then t","(timevalMinusMsec t.buf.timeout now : Int) > msecs then t","C13 an earlier deadline wins"),
 d("scheduleFlushMs","if t.buf.timeout.sec ≠ 0 ∧","if","C13 unset timeouts are set"),
 d("scheduleFlushMs","setTimeout now (o.rnd t.rnds) msecs }","setTimeout now (o.rnd t.rnds) (2 * msecs) }","C13 deadline"),
 d("ensureSpace","if c.key.isSome then space + hmacSpace else space","space","C12 room for the trailer"),
 d("ensureSpace","- t.buf.bytes.length < space then","- t.buf.bytes.length + 2 < space then","C12 boundary of the free space"),
 d("startMessage","ensureSpace o c now (len + 2) t","ensureSpace o c now len t","C12 room for the TLV header"),
 d("startMessage","[UInt8.ofNat ty, UInt8.ofNat len]","[UInt8.ofNat ty, UInt8.ofNat (len + 2)]","C11 length of a TLV"),
 d("sendAck","(interval * 6 : Nat)","(interval * 9 : Nat)","C13 deadline"),
 d("sendAck","message o c now 3 2 (htons nonce) t","message o c now 2 2 (htons nonce) t","C11 acknowledgments"),
 d("sendAck","message o c now 3 2 (htons nonce) t","message o c now 3 2 (htons interval) t","C11 nonce of acknowledgments"),
 d("bufferChallenge","message o c now 18 8 nonce t","message o c now 19 8 nonce t","C11 challenge request"),
 d("bufferReply","message o c now 19 nonce.length nonce t","message o c now 18 nonce.length nonce t","C11 challenge reply"),
 d("bufferHello","if unicast then 0x8000 else 0","if unicast then 0 else 0x8000","C11 unicast flag"),
 d("bufferHello","if interval > 0xFFFF then 0xFFFF else interval","interval","C11 long hello intervals"),
 d("bufferHello","hello := some (t.buf.bytes.length - 2)","hello := some t.buf.bytes.length","C11 position of the hello"),
 d("bufferHello","[1, 4] ++ htonl 0","[1, 6] ++ htonl 0","C12 padding for the timestamp"),
 d("sendHello","let t ← flushbuf o c now t\n      bufferHello","bufferHello","C11 one hello per packet"),
 d("sendHello","else some t\n  else bufferHello","else bufferHello o c now seqno interval unicast t\n  else bufferHello","C11 one hello per packet"),
 d("sharedBytes","((d.zip p).take n)","(d.zip p)","C10 omitted bytes within the prefix length"),
 d("omittedBytes","sharedBytes (k.plen / 8)","sharedBytes ((k.plen + 7) / 8)","C10 last byte is not omitted"),
 d("omittedBytes","| none, _ => 0","| none, _ => 1","C10 nothing omitted without default prefix"),
 d("srcSubTlv","UInt8.ofNat (1 + spb), UInt8.ofNat k.srcPlen]","UInt8.ofNat spb, UInt8.ofNat k.srcPlen]","C10 length of the source prefix sub-TLV"),
 d("srcSubTlv","let spb := (k.srcPlen + 7) / 8","let spb := k.srcPlen / 8","C10 last byte of the source prefix"),
 d("srcSubTlv","UInt8.ofNat (k.srcPlen - 96)] ++","UInt8.ofNat k.srcPlen] ++","C10 IPv4 source prefix length"),
 d("keyIsV4","k.plen ≥ 96 && v4mapped k.prefix_","v4mapped k.prefix_","C10 short mapped prefixes"),
 d("bufferNh","if t.buf.nh = some ip then some t","if t.buf.nh.isSome then some t","C10 next hop changes"),
 d("bufferNh","return { t with buf := { t.buf with nh := some ip } }","return t","C10 next hop state (redundant TLVs only)",equiv=True),
 d("bufferId","if t.buf.id = some id then some (0, t)","if t.buf.id.isSome then some (0, t)","C10 router-id changes"),
 d("bufferId","some (0x40, { t with","some (0x80, { t with","C10 router-id flag"),
 d("bufferUpdateTlv","htons seqno ++ htons metric ++","htons metric ++ htons seqno ++","C10 fields"),
 d("bufferUpdateTlv","(pfx.drop om).take","pfx.take","C10 compression"),
 d("bufferUpdateTlv","(c.updateInterval + 5) / 10","c.updateInterval","C10 interval"),
 d("bufferUpdate4","bufferUpdateTlv o c now 4 fl","bufferUpdateTlv o c now 1 fl","C10 IPv4 prefix with IPv6 next hop"),
 d("bufferUpdate4","if !c.v4viav6 then some t","if false then some t","C10 interface without IPv4 next hop"),
 d("bufferUpdate4","let t ← bufferNh o c now ip t\n","","C10 next hop is sent"),
 d("bufferUpdate6","decide (t.buf.prefix_ = none ∨ k.plen ≥ 48)","decide (k.plen ≥ 48)","C10 default prefix policy (only affects size)",equiv=True),
 d("bufferUpdate6","(if dflt then 0x80 else 0) + fl","fl","C10 default prefix flag"),
 d("bufferUpdate6","k.plen == 128 && (k.prefix_.drop 8).take 8 == id","(k.prefix_.drop 8).take 8 == id","C10 router-id from prefix",equiv=True),
 d("bufferUpdate6","k.plen == 128 && (k.prefix_.drop 8).take 8 == id","k.plen == 128","C10 router-id from prefix"),
 d("bufferUpdate6","return if dflt then { t with","return if !dflt then { t with","C10 default prefix state"),
 d("reallyBufferUpdate","if !c.up then some t","if false then some t","C10 nothing is sent on an interface that is down"),
 d("reallyBufferUpdate","else if k.isSS && c.rfc6126 then some t","else if false then some t","C10 RFC 6126 mode"),
 d("reallyBufferUpdate","if add ≥ INFINITY then some t","if add > INFINITY then some t","C10 output filter"),
 d("reallyBufferUpdate","min (metric + add) INFINITY","metric + add","C10 metric saturates"),
 d("reallyBufferUpdate","(20 + 12 + 28 + 18)","(20 + 12)","C10 router-id, next hop and update in the same packet"),
 d("bufferRetraction","return { t with buf := { t.buf with id := none } }","return t","C10 wildcard update and router-id (the receiver keeps it)",equiv=True),
 d("bufferRetraction","htons 0xFFFF ++ htons seqno ++ htons 0xFFFF","htons 0xFFFF ++ htons seqno ++ htons 0","C10 retraction"),
 d("rttSubTlv","htonl t1 ++ htonl t2","htonl t2 ++ htonl t1","C11 order of the times"),
 d("bufferIhu","(if ll then 14 else 22)","(if ll then 14 else 14)","C11 length of IHU"),
 d("bufferIhu","htons rxcost ++ htons interval","htons interval ++ htons rxcost","C11 fields of IHU"),
 d("bufferIhu","(addr.drop 8).take 8","addr.take 8","C11 address of IHU"),
 d("bufferRequest","message o c now 9 2 [0, 0] t","message o c now 9 2 [0, 128] t","C11 wildcard request"),
 d("bufferRequest","if v4 then k.plen - 96 else k.plen","k.plen","C11 length of IPv4 prefix in request"),
 d("sendMultihop","UInt8.ofNat hop,","UInt8.ofNat (hop - 1),","C11 hop count"),
 d("sendMultihop","message o c now 10 (6 + 8 + pb","message o c now 9 (6 + 8 + pb","C11 type of seqno request"),
 d("sendMultihop","++ htons seqno ++\n          [UInt8.ofNat hop,","++ htons (seqno + 1) ++\n          [UInt8.ofNat hop,","C11 seqno of request"),
 d("Link.step","t.pc, t.index, t.draws","l.pc, l.index, l.draws","C17 counters are shared by the buffers"),
 d("Buf.up","if mtu < 512 then 512 else mtu) - 4 - 48","if mtu < 512 then 512 else mtu) - 4","C12 room for IPv6 and UDP headers"),
]
