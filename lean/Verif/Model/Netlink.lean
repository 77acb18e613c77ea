import Verif.Model.Xroute
/-
Model of kernel_netlink.c: the requests sent to the kernel, and the decoding of what the kernel sends.
The host is little-endian, with 4-byte `int`s.
-/
namespace Babel

/-- A 16-bit field in host order. -/
def hle16 (n : Nat) : Bytes := [UInt8.ofNat n, UInt8.ofNat (n / 256)]

/-- A 32-bit field in host order. -/
def hle32 (n : Nat) : Bytes :=
  [UInt8.ofNat n, UInt8.ofNat (n / 256), UInt8.ofNat (n / 65536), UInt8.ofNat (n / 16777216)]

/-- Reading a 16-bit field; `none` if it is not inside. -/
def hrd16 (b : Bytes) (i : Nat) : Option Nat := do
  let x ← b[i]?
  let y ← b[i + 1]?
  return x.toNat + 256 * y.toNat

/-- Reading a 32-bit field; `none` if it is not inside. -/
def hrd32 (b : Bytes) (i : Nat) : Option Nat := do
  let x ← hrd16 b i
  let y ← hrd16 b (i + 2)
  return x + 65536 * y

/-- Reading `n` bytes; `none` if they are not all inside. -/
def rdBytes (b : Bytes) (i n : Nat) : Option Bytes :=
  if i + n ≤ b.length then some ((b.drop i).take n) else none

/-- Interpretation of 32 bits as an `int`. -/
def toInt (n : Nat) : Int := if n < 2147483648 then n else (n : Int) - 4294967296

/-- `RTA_ALIGN`, `NLMSG_ALIGN` (linux/rtnetlink.h, linux/netlink.h). -/
def align4 (n : Nat) : Nat := (n + 3) / 4 * 4

def AF_INET : Nat := 2
def AF_INET6 : Nat := 10
def RTM_NEWLINK : Nat := 16
def RTM_DELLINK : Nat := 17
def RTM_NEWADDR : Nat := 20
def RTM_DELADDR : Nat := 21
def RTM_GETADDR : Nat := 22
def RTM_NEWROUTE : Nat := 24
def RTM_DELROUTE : Nat := 25
def RTM_GETROUTE : Nat := 26
def NLMSG_ERROR : Nat := 2
def NLMSG_DONE : Nat := 3
def NLM_F_REQUEST : Nat := 1
def NLM_F_ACK : Nat := 4
def NLM_F_EXCL : Nat := 0x200
def NLM_F_CREATE : Nat := 0x400
def NLM_F_DUMP : Nat := 0x300
def RTA_DST : Nat := 1
def RTA_SRC : Nat := 2
def RTA_OIF : Nat := 4
def RTA_GATEWAY : Nat := 5
def RTA_PRIORITY : Nat := 6
def RTA_PREFSRC : Nat := 7
def RTA_TABLE : Nat := 15
def RTA_VIA : Nat := 18
def RTN_UNICAST : Nat := 1
def RTN_UNREACHABLE : Nat := 7
def RTNH_F_ONLINK : Nat := 4
def RTPROT_BABEL : Nat := 42
def RTM_F_CLONED : Nat := 0x200

/-! ### Requests -/

/-- kernel_netlink.c:963-966: the buffer of `kernel_route`, and the offset of `rta`.  `bad`: a read or
write outside the buffer. -/
structure NlBuf where
  raw : Bytes
  rta : Nat
  bad : Bool
deriving DecidableEq, Repr, Inhabited

/-- An assignment to `bs.length` bytes of the buffer. -/
def NlBuf.store (b : NlBuf) (off : Nat) (bs : Bytes) : NlBuf :=
  if off + bs.length ≤ b.raw.length then
    { b with raw := b.raw.take off ++ bs ++ b.raw.drop (off + bs.length) }
  else { b with bad := true }

/-- `rta = RTA_NEXT(rta, len)`. -/
def NlBuf.next (b : NlBuf) : NlBuf :=
  match hrd16 b.raw b.rta with
  | some l => { b with rta := b.rta + align4 l }
  | none => { b with bad := true }

/-- kernel_netlink.c:1075-1084 and the like: the next attribute. -/
def NlBuf.attr (b : NlBuf) (type : Nat) (data : Bytes) : NlBuf :=
  let b := b.next
  ((b.store b.rta (hle16 (4 + data.length))).store (b.rta + 2) (hle16 type)).store (b.rta + 4) data

/-- kernel_netlink.c:1107-1124 `ADD_IPARG`. -/
def NlBuf.ipArg (b : NlBuf) (type : Nat) (addr : Bytes) : NlBuf :=
  if v4mapped addr then b.attr type ((addr.drop 12).take 4)
  else if type = RTA_VIA then b.attr type (hle16 AF_INET6 ++ addr.take 16)
  else b.attr type (addr.take 16)

/-- kernel_netlink.c:1051-1072: the headers.  `rtm_table`, `rtm_dst_len` and `rtm_src_len` are
`unsigned char`s. -/
def kernelRouteHeader (add : Bool) (table : Nat) (k : PKey) (metric : Nat) : NlBuf :=
  let ipv4 := v4mapped k.prefix_
  let b : NlBuf := ⟨List.replicate 1024 0, 28, false⟩
  let b := b.store 6 (hle16 (if add then NLM_F_REQUEST + NLM_F_CREATE + NLM_F_EXCL else NLM_F_REQUEST))
  let b := b.store 4 (hle16 (if add then RTM_NEWROUTE else RTM_DELROUTE))
  let b := b.store 16 [UInt8.ofNat (if ipv4 then AF_INET else AF_INET6)]
  let b := b.store 17 [if ipv4 then UInt8.ofNat k.plen - 96 else UInt8.ofNat k.plen]
  let b := if k.isSS then b.store 18 [UInt8.ofNat k.srcPlen] else b
  let b := b.store 20 [UInt8.ofNat table]
  let b := b.store 22 [0]
  let b := if metric < KERNEL_INFINITY then
      (b.store 23 [UInt8.ofNat RTN_UNICAST]).store 24 (hle32 RTNH_F_ONLINK)
    else b.store 23 [UInt8.ofNat RTN_UNREACHABLE]
  b.store 21 [UInt8.ofNat RTPROT_BABEL]

/-- kernel_netlink.c:1074-1093: destination and source prefix. -/
def kernelRoutePrefix (b : NlBuf) (k : PKey) : NlBuf :=
  if v4mapped k.prefix_ then b.attr RTA_DST ((k.prefix_.drop 12).take 4)
  else
    let b := b.attr RTA_DST (k.prefix_.take 16)
    if k.isSS then b.attr RTA_SRC (k.srcPrefix.take 16) else b

/-- kernel_netlink.c:1095-1134: metric, interface, next hop, preferred source address. -/
def kernelRouteTarget (b : NlBuf) (k : PKey) (prefSrc : Option Bytes) (gate : Bytes) (ifindex metric : Nat) :
    NlBuf :=
  if metric < KERNEL_INFINITY then
    let b := b.attr RTA_PRIORITY (hle32 metric)
    let b := b.attr RTA_OIF (hle32 ifindex)
    let b := if v4mapped k.prefix_ && !v4mapped gate then b.ipArg RTA_VIA gate else b.ipArg RTA_GATEWAY gate
    match prefSrc with
    | some a => b.ipArg RTA_PREFSRC a
    | none => b
  else b.attr RTA_PRIORITY (hle32 4294967295)

/-- kernel_netlink.c:1136 and 540-541: the length; `netlink_talk` sets the flag that asks for an
acknowledgment and the sequence number. -/
def kernelRouteFinish (b : NlBuf) (seqno : UInt16) : Option Bytes :=
  match hrd16 b.raw b.rta, hrd16 b.raw 6 with
  | some l, some fl =>
    let n := b.rta + l
    let b := b.store 0 (hle32 n)
    let b := b.store 6 (hle16 (fl ||| NLM_F_ACK))
    let b := b.store 8 (hle32 seqno.toNat)
    if b.bad || n > b.raw.length then none else some (b.raw.take n)
  | _, _ => none

/-- What a call of `kernel_route` does: fail at once, nothing, or send requests.  `undef`: something
outside the buffer is accessed. -/
inductive NlReq
  | fail
  | skip
  | send (msg : Bytes)
  | undef
deriving DecidableEq, Repr, Inhabited

/-- kernel_netlink.c:955-1139 `kernel_route`, `ROUTE_ADD` and `ROUTE_FLUSH`; the sockets are open. `seqno`
is the number of the request. -/
def kernelRouteMsg (subtrees add : Bool) (table : Nat) (k : PKey) (prefSrc : Option Bytes) (gate : Bytes)
    (ifindex metric : Nat) (seqno : UInt16) : NlReq :=
  if !familyOk k gate then .fail
  else if k.isSS && (v4mapped k.prefix_ || !subtrees) then .fail
  else if skippedDefault k metric then .skip
  else match kernelRouteFinish (kernelRouteTarget (kernelRoutePrefix (kernelRouteHeader add table k metric) k)
      k prefSrc gate ifindex metric) seqno with
    | some m => .send m
    | none => .undef

/-- kernel_netlink.c:955-1026 `kernel_route`, `ROUTE_MODIFY`: the requests, in order. -/
def kernelRouteModify (subtrees : Bool) (table : Nat) (k : PKey) (prefSrc : Option Bytes) (gate : Bytes)
    (ifindex metric : Nat) (newgate : Bytes) (newifindex newmetric newtable : Nat) (seqno : UInt16) :
    List NlReq :=
  if !familyOk k gate then [.fail]
  else if newmetric = metric ∧ newgate.take 16 = gate.take 16 ∧ newifindex = ifindex then [.skip]
  else
    let r := kernelRouteMsg subtrees false table k prefSrc gate ifindex metric seqno
    let seqno := match r with
      | .send _ => seqno + 1
      | _ => seqno
    [r, kernelRouteMsg subtrees true newtable k prefSrc newgate newifindex newmetric seqno]

/-- kernel_netlink.c:568-622, 1284-1333 `kernel_dump`, `netlink_send_dump`: a request for the routes of a
table (`struct rtmsg`, 12 bytes). -/
def dumpRoutesMsg (family table : Nat) (seqno : UInt16) : Bytes :=
  hle32 28 ++ hle16 RTM_GETROUTE ++ hle16 (NLM_F_DUMP + NLM_F_REQUEST) ++ hle32 seqno.toNat ++ hle32 0 ++
  [UInt8.ofNat family, 0, 0, 0, UInt8.ofNat table, 0, 0, 0] ++ hle32 0

/-! ### Decoding -/

/-- Result of decoding: `undef` if something outside the message is read. -/
inductive NlRes (α : Type)
  | undef
  | reject
  | ok (a : α)
deriving DecidableEq, Repr, Inhabited

/-- kernel.h:28-37 `struct kernel_route`, and the variable `table`. -/
structure RtaSt where
  pfx : Bytes
  plen : Nat
  srcPfx : Bytes
  srcPlen : Nat
  metric : Nat
  ifindex : Nat
  gw : Bytes
  table : Int
deriving DecidableEq, Repr, Inhabited

/-- kernel_netlink.c:68-79 `COPY_ADDR`. -/
def copyAddr (m : Bytes) (off payload : Nat) (v4 : Bool) : NlRes Bytes :=
  if payload < (if v4 then 4 else 16) then .reject
  else match rdBytes m off (if v4 then 4 else 16) with
    | some a => .ok (if v4 then v4tov6 a else a)
    | none => .undef

/-- kernel_netlink.c:1163-1191: one attribute. -/
def rtaOne (m : Bytes) (v4 : Bool) (dstLen srcLen : Nat) (off type payload : Nat) (s : RtaSt) : NlRes RtaSt :=
  if type = RTA_DST then
    match copyAddr m off payload v4 with
    | .ok a => .ok { s with plen := if v4 then dstLen + 96 else dstLen, pfx := a }
    | .reject => .reject
    | .undef => .undef
  else if type = RTA_SRC then
    match copyAddr m off payload v4 with
    | .ok a => .ok { s with srcPlen := if v4 then srcLen + 96 else srcLen, srcPfx := a }
    | .reject => .reject
    | .undef => .undef
  else if type = RTA_GATEWAY then
    match copyAddr m off payload v4 with
    | .ok a => .ok { s with gw := a }
    | .reject => .reject
    | .undef => .undef
  else if type = RTA_OIF then
    match hrd32 m off with
    | some v => .ok { s with ifindex := v }
    | none => .undef
  else if type = RTA_PRIORITY then
    match hrd32 m off with
    | some v => .ok { s with metric :=
        (if toInt v < 0 || toInt v > KERNEL_INFINITY then KERNEL_INFINITY else v) }
    | none => .undef
  else if type = RTA_TABLE then
    match hrd32 m off with
    | some v => .ok { s with table := toInt v }
    | none => .undef
  else .ok s

/-- `while(RTA_OK(rta, len)) { …; rta = RTA_NEXT(rta, len); }`.  Each attribute takes at least 4
bytes. -/
def rtaLoop {σ : Type} (m : Bytes) (one : (off type payload : Nat) → σ → NlRes σ) :
    (fuel : Nat) → (off : Nat) → (len : Int) → σ → NlRes σ
  | 0, _, _, _ => .undef
  | fuel + 1, off, len, s =>
    if len < 4 then .ok s
    else match hrd16 m off, hrd16 m (off + 2) with
      | some l, some type =>
        if l < 4 || (l : Int) > len then .ok s
        else match one (off + 4) type (l - 4) s with
          | .ok s' => rtaLoop m one fuel (off + align4 l) (len - align4 l) s'
          | .reject => .reject
          | .undef => .undef
      | _, _ => .undef

/-- kernel_netlink.c:1141-1200 `parse_kernel_route_rta`; `m` is the whole message, the `rtmsg` is at
offset 16. -/
def parseKernelRouteRta (imports : List Int) (m : Bytes) : NlRes RtaSt :=
  match rdBytes m 16 12 with
  | none => .undef
  | some h =>
    let v4 := (h.getD 0 0).toNat == AF_INET
    let z : Bytes := if v4 then v4tov6 [0, 0, 0, 0] else zeroes16
    let s : RtaSt := ⟨z, if v4 then 96 else 0, z, if v4 then 96 else 0, 0, 0, zeroes16, ((h.getD 4 0).toNat : Int)⟩
    match rtaLoop m (rtaOne m v4 (h.getD 1 0).toNat (h.getD 2 0).toNat) (m.length + 1) 28
        ((m.length : Int) - 28) s with
    | .ok s' => if imports.contains s'.table then .ok s' else .reject
    | r => r

/-- kernel_netlink.c:1239-1281 `filter_kernel_routes`. -/
def filterKernelRoutes (imports : List Int) (m : Bytes) : NlRes (KRoute × Bytes) :=
  match hrd16 m 4 with
  | none => .undef
  | some type =>
    if type ≠ RTM_NEWROUTE ∧ type ≠ RTM_DELROUTE then .reject
    else match m[21]? with
    | none => .undef
    | some proto =>
      if proto.toNat = RTPROT_BABEL then .reject
      else match hrd32 m 24 with
      | none => .undef
      | some flags =>
        if flags &&& RTM_F_CLONED ≠ 0 then .reject
        else match parseKernelRouteRta imports m with
          | .undef => .undef
          | .reject => .reject
          | .ok s =>
            if s.plen = 0 ∧ s.metric ≥ KERNEL_INFINITY then .reject
            else .ok (⟨⟨s.pfx, s.plen, s.srcPfx, s.srcPlen⟩, s.metric, s.ifindex, proto.toNat⟩, s.gw)

/-- kernel_netlink.c:1357-1398: the state of `parse_addr_rta`: the address (`none`: not initialised), and
whether the function has returned. -/
structure AddrSt where
  addr : Option Bytes
  stop : Bool
deriving DecidableEq, Repr, Inhabited

def IFA_ADDRESS : Nat := 1
def IFA_LOCAL : Nat := 2

/-- kernel_netlink.c:1365-1394: one attribute. -/
def addrOne (m : Bytes) (family : Nat) (off type _payload : Nat) (s : AddrSt) : NlRes AddrSt :=
  if s.stop then .ok s
  else if type = IFA_LOCAL ∨ type = IFA_ADDRESS then
    if family = AF_INET then
      match rdBytes m off 4 with
      | some a => .ok ⟨some (v4tov6 a), type == IFA_LOCAL⟩
      | none => .undef
    else if family = AF_INET6 then
      match rdBytes m off 16 with
      | some a => .ok ⟨some a, type == IFA_LOCAL⟩
      | none => .undef
    else .reject
  else .ok s

/-- kernel_netlink.c:1357-1398, 1429-1459 `filter_addresses`: the address and the interface.  The
`ifaddrmsg` (8 bytes) is at offset 16. -/
def filterAddresses (m : Bytes) : NlRes (Option Bytes × Nat) :=
  match hrd16 m 4 with
  | none => .undef
  | some type =>
    if type ≠ RTM_NEWADDR ∧ type ≠ RTM_DELADDR then .reject
    else match m[16]?, hrd32 m 20 with
      | some family, some ifindex =>
        match rtaLoop m (addrOne m family.toNat) (m.length + 1) 24 ((m.length : Int) - 24) ⟨none, false⟩ with
        | .ok s => .ok (s.addr, ifindex)
        | .reject => .reject
        | .undef => .undef
      | _, _ => .undef

end Babel
