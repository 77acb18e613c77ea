import Verif.Model.Wire
import Verif.Model.Queue
/-
Model of the send buffers of message.c (lines 1107-1545, 1868-1882, 1946-1972, 2060-2109, 2158-2202) and of
the trailer written by hmac.c:210-239.

An operation either yields the new state or is undefined, `none`: it writes or reads outside the
buffer, or an assertion fails.  `read_random_bytes` and `random` are oracles: `rand n` is the
result of the n-th call of the former (`none` is a failure), `rnd n` of the n-th call of the
latter.  Each operation happens at one instant `now`.  What is sent is recorded in `out`; failures
of `sendmsg` are not modelled.
-/
namespace Babel

/-- interface.h:38-44 `struct key`; `none` is `AUTH_TYPE_NONE`, `mac` is hmac.c:109-208
`compute_hmac` with its arguments `src`, `dst`, `packet_header`, `body`; its result is `none` when
it fails. -/
structure Key where
  none : Bool
  mac : Bytes → Bytes → Bytes → Bytes → Option Bytes

/-- The fields of `struct interface`, and the parts of the configuration, that matter for sending.
`probe` is the condition of message.c:1152. -/
structure SIf where
  up : Bool
  key : Option Key
  ll : List Bytes
  timestamps : Bool
  rfc6126 : Bool
  v4viav6 : Bool
  probe : Bool
  ipv4 : Option Bytes
  updateInterval : Nat
  filter : Bytes → PKey → Nat

/-- The random sources. -/
structure Orc where
  rand : Nat → Option Bytes
  rnd : Nat → Nat

/-- interface.h:103-119 `struct buffered`; `bytes` are the first `len` bytes of `buf`.  A `have_…`
flag and its array are one `Option`. -/
structure Buf where
  dst : Bytes
  size : Nat
  flushInterval : Nat
  bytes : Bytes := []
  timeout : Timeval := ⟨0, 0⟩
  id : Option Bytes := none
  nh : Option Bytes := none
  prefix_ : Option Bytes := none
  hello : Option Nat := none

/-- A buffer, the counters of its interface (`pc`, `index`), the number of oracle calls made, and
the packets sent. -/
structure Tx where
  buf : Buf
  pc : Nat := 0
  index : Bytes := List.replicate 8 0
  draws : Nat := 0
  rnds : Nat := 0
  out : List Bytes := []

/-- util.h:31-38 `DO_HTONS`, `DO_HTONL`. -/
def htons (n : Nat) : Bytes := [UInt8.ofNat (n / 256 % 256), UInt8.ofNat (n % 256)]
def htonl (n : Nat) : Bytes := htons (n / 65536 % 65536) ++ htons (n % 65536)

/-- message.c:1243-1269 `accumulate_byte` etc.: writing at the end of the buffer. -/
def Buf.put (b : Buf) (l : Bytes) : Option Buf :=
  if b.bytes.length + l.length ≤ b.size then some { b with bytes := b.bytes ++ l } else none

/-- message.c:1217, 1227, 1274 `MAX_HMAC_SPACE + 6 + INDEX_LEN`. -/
def hmacSpace : Nat := 48 + 6 + 8

/-- message.c:1140, 1145: authentication is in use. -/
def SIf.auth (c : SIf) : Option Key :=
  match c.key with
  | some k => if k.none then none else some k
  | none => none

/-- message.c:1271-1291 `send_pc`; failure is ignored by its caller. -/
def sendPc (o : Orc) (t : Tx) : Option Tx :=
  if (t.buf.size : Int) - t.buf.bytes.length < hmacSpace then some t
  else
    let r : Option Tx :=
      if t.pc = 0 then
        match o.rand t.draws with
        | none => none
        | some i => some { t with index := i, draws := t.draws + 1 }
      else some t
    match r with
    | none => some { t with draws := t.draws + 1 }
    | some t => do
      let b ← t.buf.put ([17, 12] ++ htonl t.pc ++ t.index)
      return { t with buf := b, pc := u32 (t.pc + 1) }

/-- message.c:1115-1118: overwriting six bytes. -/
def stamp (l : Bytes) (i time : Nat) : Bytes :=
  l.take i ++ ([3, 4] ++ htonl time) ++ l.drop (i + 6)

/-- message.c:1107-1128 `fill_rtt_message`.  The time is taken modulo 2^32. -/
def fillRtt (c : SIf) (now : Timeval) (b : Buf) : Option Buf :=
  match c.timestamps, b.hello with
  | true, some h => do
    let x ← rd b.bytes (h + 8)
    let y ← rd b.bytes (h + 9)
    if x = 1 ∧ y = 4 then
      if h + 14 ≤ b.bytes.length then
        return { b with bytes := stamp b.bytes (h + 8) (timeUs now) }
      else none
    else return b
  | _, _ => some b

/-- message.c:1153-1172: padding up to the size of the buffer, `n` being the space left. -/
def padding : Nat → Nat → Bytes
  | 0, _ => []
  | fuel + 1, n =>
    if n = 0 then []
    else if n ≥ 2 then
      let l := if n - 2 > 255 then 255 else n - 2
      [1, UInt8.ofNat l] ++ List.replicate l 0 ++ padding fuel (n - 2 - l)
    else [0]

/-- message.c:1143 and 1174-1175, the packet header. -/
def header (len : Nat) : Bytes := [42, 2] ++ htons len

/-- hmac.c:210-239 `add_hmac`: the trailer; inner `none` is failure. -/
def addHmac (c : SIf) (k : Key) (b : Buf) : Option (Option Bytes) :=
  match c.ll with
  | [] => some none
  | src :: _ =>
    if b.bytes.length + 2 + 32 > b.size then some none
    else
      match k.mac src b.dst (header b.bytes.length) b.bytes with
      | none => some none
      | some m =>
        if b.bytes.length + 2 + m.length ≤ b.size then
          some (some ([16, UInt8.ofNat m.length] ++ m))
        else none

/-- message.c:1183-1189. -/
def Buf.reset (b : Buf) : Buf :=
  { b with bytes := [], hello := none, id := none, nh := none, prefix_ := none, timeout := ⟨0, 0⟩ }

/-- message.c:1145-1151: the trailer of a packet; inner `none` is a failure to sign. -/
def trailer (c : SIf) (b : Buf) : Option (Option Bytes) :=
  match c.auth with
  | some k => addHmac c k b
  | none => some (some [])

/-- message.c:1140-1141. -/
def addPc (o : Orc) (c : SIf) (t : Tx) : Option Tx := if c.auth.isSome then sendPc o t else some t

/-- message.c:1130-1190 `flushbuf`. -/
def flushbuf (o : Orc) (c : SIf) (now : Timeval) (t : Tx) : Option Tx :=
  if t.buf.bytes.length > t.buf.size then none
  else if t.buf.bytes.length > 0 then do
    let t ← addPc o c t
    let b ← fillRtt c now t.buf
    let t := { t with buf := b }
    match ← trailer c b with
    | none => return t
    | some tr =>
      let pad := if c.probe then padding b.size (b.size - (b.bytes.length + tr.length)) else []
      return { t with buf := b.reset, out := t.out ++ [header b.bytes.length ++ b.bytes ++ tr ++ pad] }
  else return { t with buf := t.buf.reset }

/-- interface.c:136-145 `jitter`. -/
def jitter (r : Nat) (flushInterval : Nat) (urgent : Bool) : Int :=
  roughly r ((if urgent then min flushInterval 20 else min flushInterval 2000) / 2 : Nat)

/-- message.c:1192-1199 `schedule_flush_ms`. -/
def scheduleFlushMs (o : Orc) (now : Timeval) (msecs : Int) (t : Tx) : Tx :=
  if t.buf.timeout.sec ≠ 0 ∧ (timevalMinusMsec t.buf.timeout now : Int) < msecs then t
  else { t with
    buf := { t.buf with timeout := setTimeout now (o.rnd t.rnds) msecs }, rnds := t.rnds + 1 }

/-- message.c:1201-1205 `schedule_flush`. -/
def scheduleFlush (o : Orc) (now : Timeval) (t : Tx) : Tx :=
  scheduleFlushMs o now (jitter (o.rnd t.rnds) t.buf.flushInterval false) { t with rnds := t.rnds + 1 }

/-- message.c:1207-1211 `schedule_flush_now`. -/
def scheduleFlushNow (o : Orc) (now : Timeval) (t : Tx) : Tx :=
  scheduleFlushMs o now (roughly (o.rnd t.rnds) 10) { t with rnds := t.rnds + 1 }

/-- message.c:1213-1220 `ensure_space`. -/
def ensureSpace (o : Orc) (c : SIf) (now : Timeval) (space : Nat) (t : Tx) : Option Tx :=
  let space := if c.key.isSome then space + hmacSpace else space
  if (t.buf.size : Int) - t.buf.bytes.length < space then flushbuf o c now t else some t

/-- message.c:1222-1232 `start_message`. -/
def startMessage (o : Orc) (c : SIf) (now : Timeval) (ty len : Nat) (t : Tx) : Option Tx := do
  let t ← ensureSpace o c now (len + 2) t
  let b ← t.buf.put [UInt8.ofNat ty, UInt8.ofNat len]
  return { t with buf := b }

/-- message.c:1234-1241 `end_message`. -/
def endMessage (o : Orc) (now : Timeval) (ty bytes : Nat) (t : Tx) : Option Tx :=
  if bytes + 2 ≤ t.buf.bytes.length ∧
      rd t.buf.bytes (t.buf.bytes.length - bytes - 2) = some ty ∧
      rd t.buf.bytes (t.buf.bytes.length - bytes - 1) = some bytes
  then some (scheduleFlush o now t) else none

/-- `start_message`, the accumulated bytes, `end_message`: all messages are written this way. -/
def message (o : Orc) (c : SIf) (now : Timeval) (ty len : Nat) (body : Bytes) (t : Tx) : Option Tx := do
  let t ← startMessage o c now ty len t
  let b ← t.buf.put body
  endMessage o now ty len { t with buf := b }

/-- message.c:1293-1303 `send_ack`; `interval` in centiseconds. -/
def sendAck (o : Orc) (c : SIf) (now : Timeval) (nonce interval : Nat) (t : Tx) : Option Tx := do
  let t ← message o c now 3 2 (htons nonce) t
  return scheduleFlushMs o now (roughly (o.rnd t.rnds) (interval * 6 : Nat)) { t with rnds := t.rnds + 1 }

/-- message.c:1321-1327: the message sent by `send_challenge_request`. -/
def bufferChallenge (o : Orc) (c : SIf) (now : Timeval) (nonce : Bytes) (t : Tx) : Option Tx := do
  let t ← message o c now 18 8 nonce t
  return scheduleFlushNow o now t

/-- message.c:1341-1346: the message sent by `send_challenge_reply`. -/
def bufferReply (o : Orc) (c : SIf) (now : Timeval) (nonce : Bytes) (t : Tx) : Option Tx := do
  let t ← message o c now 19 nonce.length nonce t
  return scheduleFlushNow o now t

/-- message.c:1350-1368 `buffer_hello`.  `buf->hello` is set after `start_message`. -/
def bufferHello (o : Orc) (c : SIf) (now : Timeval) (seqno interval : Nat) (unicast : Bool) (t : Tx) :
    Option Tx := do
  let len := if c.timestamps then 12 else 6
  let t ← startMessage o c now 4 len t
  let t := { t with buf := { t.buf with hello := some (t.buf.bytes.length - 2) } }
  let b ← t.buf.put (htons (if unicast then 0x8000 else 0) ++ htons seqno ++
    htons (if interval > 0xFFFF then 0xFFFF else interval) ++
    if c.timestamps then [1, 4] ++ htonl 0 else [])
  endMessage o now 4 len { t with buf := b }

/-- message.c:1370-1424 `send_multicast_hello` and `send_unicast_hello`, for one buffer: at most one
hello per packet.  The update queue is flushed separately. -/
def sendHello (o : Orc) (c : SIf) (now : Timeval) (seqno interval : Nat) (unicast force : Bool) (t : Tx) :
    Option Tx :=
  if t.buf.hello.isSome then
    if force then do
      let t ← flushbuf o c now t
      bufferHello o c now seqno interval unicast t
    else some t
  else bufferHello o c now seqno interval unicast t

/-- message.c:1495-1497: the number of leading bytes shared with the default prefix, up to
`n`. -/
def sharedBytes (n : Nat) (d p : Bytes) : Nat :=
  (((d.zip p).take n).takeWhile fun x => x.1 == x.2).length

/-- message.c:1493-1499: the number of bytes omitted, given the default prefix. -/
def omittedBytes : Option Bytes → PKey → Nat
  | some d, k => sharedBytes (k.plen / 8) d k.prefix_
  | none, _ => 0

/-- The source prefix sub-TLV (message.c:1534-1539, 2099-2107, 2192-2200). -/
def srcSubTlv (v4 : Bool) (k : PKey) : Option Bytes :=
  if k.isSS then
    if v4 then
      if k.srcPlen < 96 then none
      else
        let spb := (k.srcPlen - 96 + 7) / 8
        some ([128, UInt8.ofNat (1 + spb), UInt8.ofNat (k.srcPlen - 96)] ++ (k.srcPrefix.drop 12).take spb)
    else
      let spb := (k.srcPlen + 7) / 8
      some ([128, UInt8.ofNat (1 + spb), UInt8.ofNat k.srcPlen] ++ k.srcPrefix.take spb)
  else some []

/-- message.c:1466, 2087, 2174. -/
def keyIsV4 (k : PKey) : Bool := k.plen ≥ 96 && v4mapped k.prefix_

/-- message.c:1475-1484: the next hop TLV. -/
def bufferNh (o : Orc) (c : SIf) (now : Timeval) (ip : Bytes) (t : Tx) : Option Tx :=
  if t.buf.nh = some ip then some t
  else do
    let t ← message o c now 7 6 ([1, 0] ++ ip) t
    return { t with buf := { t.buf with nh := some ip } }

/-- message.c:1507-1518: the router-id TLV, or flag 0x40; the result includes the flag. -/
def bufferId (o : Orc) (c : SIf) (now : Timeval) (id : Bytes) (fromPrefix : Bool) (t : Tx) :
    Option (Nat × Tx) :=
  if t.buf.id = some id then some (0, t)
  else if fromPrefix then some (0x40, { t with buf := { t.buf with id := some id } })
  else do
    let t ← message o c now 6 10 (htons 0 ++ id) t
    return (0, { t with buf := { t.buf with id := some id } })

/-- message.c:1520-1540: the update TLV itself. -/
def bufferUpdateTlv (o : Orc) (c : SIf) (now : Timeval) (ae flags plen om seqno metric : Nat)
    (pfx sub : Bytes) (t : Tx) : Option Tx :=
  message o c now 8 (10 + ((plen + 7) / 8 - om) + sub.length)
    ([UInt8.ofNat ae, UInt8.ofNat flags, UInt8.ofNat plen, UInt8.ofNat om] ++
      htons ((c.updateInterval + 5) / 10) ++ htons seqno ++ htons metric ++
      (pfx.drop om).take ((plen + 7) / 8 - om) ++ sub) t

/-- message.c:1468-1540: an IPv4 update.  A source-specific prefix whose source length is below 96
is undefined (`spb` is negative or zero and the length byte wraps). -/
def bufferUpdate4 (o : Orc) (c : SIf) (now : Timeval) (id : Bytes) (k : PKey) (seqno metric : Nat)
    (t : Tx) : Option Tx :=
  match c.ipv4 with
  | none =>
    if !c.v4viav6 then some t
    else do
      let sub ← srcSubTlv true k
      let (fl, t) ← bufferId o c now id false t
      bufferUpdateTlv o c now 4 fl (k.plen - 96) 0 seqno metric (k.prefix_.drop 12) sub t
  | some ip => do
    let sub ← srcSubTlv true k
    let t ← bufferNh o c now ip t
    let (fl, t) ← bufferId o c now id false t
    bufferUpdateTlv o c now 1 fl (k.plen - 96) 0 seqno metric (k.prefix_.drop 12) sub t

/-- message.c:1491-1544: an IPv6 update. -/
def bufferUpdate6 (o : Orc) (c : SIf) (now : Timeval) (id : Bytes) (k : PKey) (seqno metric : Nat)
    (t : Tx) : Option Tx := do
  let om := omittedBytes t.buf.prefix_ k
  let dflt := decide (t.buf.prefix_ = none ∨ k.plen ≥ 48)
  let sub ← srcSubTlv false k
  let (fl, t) ← bufferId o c now id (k.plen == 128 && (k.prefix_.drop 8).take 8 == id) t
  let t ← bufferUpdateTlv o c now 2 ((if dflt then 0x80 else 0) + fl) k.plen om seqno metric k.prefix_ sub t
  return if dflt then { t with buf := { t.buf with prefix_ := some k.prefix_ } } else t

/-- message.c:1437-1545 `really_buffer_update`. -/
def reallyBufferUpdate (o : Orc) (c : SIf) (now : Timeval) (id : Bytes) (k : PKey) (seqno metric : Nat)
    (t : Tx) : Option Tx :=
  if !c.up then some t
  else if k.isSS && c.rfc6126 then some t
  else
    let add := c.filter id k
    if add ≥ INFINITY then some t
    else do
      let metric := min (metric + add) INFINITY
      let t ← ensureSpace o c now (20 + 12 + 28 + 18) t
      if keyIsV4 k then bufferUpdate4 o c now id k seqno metric t
      else bufferUpdate6 o c now id k seqno metric t

/-- message.c:1868-1882 `buffer_wildcard_retraction`. -/
def bufferRetraction (o : Orc) (c : SIf) (now : Timeval) (seqno : Nat) (t : Tx) : Option Tx := do
  let t ← message o c now 8 10 ([0, 0, 0, 0] ++ htons 0xFFFF ++ htons seqno ++ htons 0xFFFF) t
  return { t with buf := { t.buf with id := none } }

/-- message.c:1966-1970: the timestamps in an IHU. -/
def rttSubTlv : Option (Nat × Nat) → Bytes
  | some (t1, t2) => [3, 8] ++ htonl t1 ++ htonl t2
  | none => []

/-- message.c:1946-1972 `buffer_ihu`. -/
def bufferIhu (o : Orc) (c : SIf) (now : Timeval) (rxcost interval : Nat) (addr : Bytes)
    (rtt : Option (Nat × Nat)) (t : Tx) : Option Tx :=
  let ll := linklocal addr
  message o c now 5 ((if ll then 14 else 22) + if rtt.isSome then 10 else 0)
    ([if ll then 3 else 2, 0] ++ htons rxcost ++ htons interval ++
      (if ll then (addr.drop 8).take 8 else addr.take 16) ++
      rttSubTlv rtt) t

/-- message.c:2060-2109 `send_request`; `none` is the null pointer. -/
def bufferRequest (o : Orc) (c : SIf) (now : Timeval) (k : Option PKey) (t : Tx) : Option Tx :=
  match k with
  | none => message o c now 9 2 [0, 0] t
  | some k =>
    if k.isSS && c.rfc6126 then some t
    else
      let v4 := keyIsV4 k
      let plen := if v4 then k.plen - 96 else k.plen
      let pb := (plen + 7) / 8
      do
        let sub ← srcSubTlv v4 k
        message o c now 9 (2 + pb + sub.length)
          ([if v4 then 1 else 2, UInt8.ofNat plen] ++
            ((if v4 then k.prefix_.drop 12 else k.prefix_).take pb) ++ sub) t

/-- message.c:2158-2202 `send_multihop_request`. -/
def sendMultihop (o : Orc) (c : SIf) (now : Timeval) (k : PKey) (seqno : Nat) (id : Bytes) (hop : Nat)
    (t : Tx) : Option Tx :=
  if k.isSS && c.rfc6126 then some t
  else
    let v4 := keyIsV4 k
    let plen := if v4 then k.plen - 96 else k.plen
    let pb := (plen + 7) / 8
    do
      let sub ← srcSubTlv v4 k
      message o c now 10 (6 + 8 + pb + sub.length)
        ([if v4 then 1 else 2, UInt8.ofNat plen] ++ htons seqno ++
          [UInt8.ofNat hop, UInt8.ofNat (k.srcPlen + if v4 then 160 else 0)] ++ id ++
          ((if v4 then k.prefix_.drop 12 else k.prefix_).take pb) ++ sub) t

/-- The operations on a send buffer. -/
inductive Snd
  | ack (nonce interval : Nat)
  | challenge (nonce : Bytes)
  | reply (nonce : Bytes)
  | hello (seqno interval : Nat) (unicast force : Bool)
  | update (id : Bytes) (k : PKey) (seqno metric : Nat)
  | retraction (seqno : Nat)
  | ihu (rxcost interval : Nat) (addr : Bytes) (rtt : Option (Nat × Nat))
  | request (k : Option PKey)
  | seqnoRequest (k : PKey) (seqno : Nat) (id : Bytes) (hop : Nat)
  /-- message.c:2033: making sure that a hello and an IHU fit -/
  | ensure (space : Nat)
  | flush

/-- One operation. -/
def Snd.run (o : Orc) (c : SIf) (now : Timeval) : Snd → Tx → Option Tx
  | .ack n i, t => sendAck o c now n i t
  | .challenge n, t => bufferChallenge o c now n t
  | .reply n, t => bufferReply o c now n t
  | .hello s i u f, t => sendHello o c now s i u f t
  | .update id k s m, t => reallyBufferUpdate o c now id k s m t
  | .retraction s, t => bufferRetraction o c now s t
  | .ihu r i a rtt, t => bufferIhu o c now r i a rtt t
  | .request k, t => bufferRequest o c now k t
  | .seqnoRequest k s id h, t => sendMultihop o c now k s id h t
  | .ensure n, t => ensureSpace o c now n t
  | .flush, t => flushbuf o c now t

/-- An interface: its own buffer (number 0) and those of its neighbours, which share the counters
(interface.h:123-154, neighbour.h). -/
structure Link where
  bufs : Nat → Buf
  pc : Nat := 0
  index : Bytes := List.replicate 8 0
  draws : Nat := 0
  rnds : Nat := 0
  out : List (Nat × Bytes) := []

/-- What an operation on buffer `i` works on. -/
def Link.tx (l : Link) (i : Nat) : Tx := ⟨l.bufs i, l.pc, l.index, l.draws, l.rnds, []⟩

/-- One operation on buffer `i`. -/
def Link.step (o : Orc) (c : SIf) (now : Timeval) (i : Nat) (op : Snd) (l : Link) : Option Link := do
  let t ← op.run o c now (l.tx i)
  return ⟨fun j => if j = i then t.buf else l.bufs j, t.pc, t.index, t.draws, t.rnds,
    l.out ++ t.out.map fun p => (i, p)⟩

/-- An operation with its circumstances. -/
structure Act where
  c : SIf
  now : Timeval
  i : Nat
  op : Snd

/-- A sequence of operations. -/
def Link.run (o : Orc) : Link → List Act → Option Link
  | l, [] => some l
  | l, a :: as => do Link.run o (← l.step o a.c a.now a.i a.op) as

/-- interface.c:489-496: the buffer when the interface goes down. -/
def Buf.down (b : Buf) : Buf := { b with bytes := [], size := 0 }

/-- interface.c:279-318: the buffer when the interface comes up. -/
def Buf.up (group : Bytes) (mtu flushInterval : Nat) (b : Buf) : Buf :=
  { b with dst := group, size := (if mtu < 512 then 512 else mtu) - 4 - 48, hello := none,
           flushInterval := flushInterval }

end Babel
