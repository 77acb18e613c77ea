import Verif.Model.Table
/-
Model of the packet decoder of message.c (lines 56-430, 573-1065).

A C pointer into the received packet is modelled by the list of bytes from that address to the
end of the receive buffer: `p + k` is `p.drop k`, and reading beyond the end of the list is a
distinct outcome, `none` ("outside the buffer").  All decoding functions therefore return an
`Option`, whose `none` never stands for a protocol error.  Loops carry fuel, and running
out of fuel is also `none`.

Decoding is separated from acting on the decoded TLVs: the handlers called by `parse_packet`
(`update_route`, `send_ack`, ...) do not modify any variable the decoder reads, so the decoder
returns the list of calls made, in order (`Item`).  `gettime`, debugging output and the
diagnostics on `stderr` are not modelled.
-/
namespace Babel

/-- message.c:56-60 `known_ae`. -/
def knownAe (ae : Nat) : Bool := ae ≤ 3 || ae == 4

/-- `p[i]`. -/
def rd (p : Bytes) (i : Nat) : Option Nat := (p[i]?).map UInt8.toNat

/-- `memcpy(_, p, n)`: all `n` bytes must be inside the buffer. -/
def rdN (p : Bytes) (n : Nat) : Option Bytes := if n ≤ p.length then some (p.take n) else none

/-- util.h:23-26 `DO_NTOHS`. -/
def rd16 (p : Bytes) (i : Nat) : Option Nat := do
  let a ← rd p i
  let b ← rd p (i + 1)
  return 256 * a + b

/-- util.h:27-30 `DO_NTOHL`. -/
def rd32 (p : Bytes) (i : Nat) : Option Nat := do
  let a ← rd16 p i
  let b ← rd16 p (i + 2)
  return 65536 * a + b

/-- message.c:73-78, the number of bytes of a prefix. -/
def prefixBytes (ae : Nat) (plen : Option Nat) : Nat :=
  match plen with
  | some l => (l + 7) / 8
  | none => if ae == 1 then 4 else 16

/-- message.c:121-122, the length given to `normalize_prefix`. -/
def normLen (ae : Nat) (plen : Option Nat) : Nat :=
  match plen with
  | none => 128
  | some l => if aeIsV4 ae then l + 96 else l

/-- message.c:93-97, the bytes taken from `v4prefix` or the default prefix; `none` is failure. -/
def v4Base (omitted : Nat) (dp : Option Bytes) : Option Bytes :=
  if omitted > 0 then
    match dp with
    | none => none
    | some d => if v4mapped d then some (d.take (12 + omitted)) else none
  else some (v4prefix.take 12)

/-- message.c:103-106, the bytes taken from the default prefix; `none` is failure. -/
def v6Base (omitted : Nat) (dp : Option Bytes) : Option Bytes :=
  if omitted > 0 then
    match dp with
    | none => none
    | some d => if v4mapped d then none else some (d.take omitted)
  else some []

/-- The array `prefix`, cleared first (message.c:83), with its first bytes set. -/
def padPrefix (b : Bytes) : Bytes := b ++ List.replicate (16 - b.length) 0

/-- message.c:62-124 `network_prefix`.  `plen = none` is the C value -1, `p` points to the
encoded bytes, of which `len` may be used, `dp` is the default prefix.  The inner result is
`none` on failure; the C function returns the (possibly negative) number of bytes used, and
all callers treat a negative value as a failure. -/
def networkPrefix (ae : Nat) (plen : Option Nat) (omitted : Nat) (p : Bytes) (dp : Option Bytes)
    (len : Nat) : Option (Option (Nat × Bytes)) :=
  let pb := prefixBytes ae plen
  if pb > 16 then some none
  else if ae = 0 then some (some (0, normalizePrefix zeroes16 (normLen ae plen)))
  else if ae = 1 ∨ ae = 4 then
    if omitted > 4 ∨ pb > 4 ∨ (pb > omitted ∧ len < pb - omitted) then some none
    else
      match v4Base omitted dp with
      | none => some none
      | some base => do
        let tail ← rdN p (pb - omitted)
        if pb < omitted then return none
        else return some (pb - omitted, normalizePrefix (padPrefix (base ++ tail)) (normLen ae plen))
  else if ae = 2 then
    if omitted > 16 ∨ (pb > omitted ∧ len < pb - omitted) then some none
    else
      match v6Base omitted dp with
      | none => some none
      | some base => do
        let tail ← rdN p (pb - omitted)
        if pb < omitted then return none
        else return some (pb - omitted, normalizePrefix (padPrefix (base ++ tail)) (normLen ae plen))
  else if ae = 3 then
    if pb > 8 ∧ len < pb - 8 then some none
    else do
      let tail ← rdN p (pb - 8)
      if pb < 8 then return none
      else return some (pb - 8, normalizePrefix (padPrefix (llprefix.take 8 ++ tail)) (normLen ae plen))
  else some none

/-- message.c:425-430 `network_address`. -/
def networkAddress (ae : Nat) (a : Bytes) (len : Nat) : Option (Option (Nat × Bytes)) :=
  networkPrefix ae none 0 a none len

/-- The loop common to the sub-TLV parsers (message.c:134-174, 189-225, 243-281, 298-339,
353-387, 399-418; the six loops only differ in what they do with a sub-TLV).  `a` is the C
pointer `a + i` and `alen` the remaining length `alen - i`.  `f` handles one sub-TLV given its
type, a pointer to its body and its length; its inner result is `none` for `goto fail` and
`return -1`, which have the same effect. -/
def subTlvs (f : σ → Nat → Bytes → Nat → Option (Option σ)) :
    Nat → Bytes → Int → σ → Option (Option σ)
  | 0, _, _, _ => none
  | fuel + 1, a, alen, s =>
    if alen ≤ 0 then some (some s)
    else do
      let ty ← rd a 0
      if ty = 0 then subTlvs f fuel (a.drop 1) (alen - 1) s
      else if 2 > alen then return none
      else
        let len ← rd a 1
        if (len : Int) + 2 > alen then return none
        else
          match ← f s ty (a.drop 2) len with
          | none => return none
          | some s => subTlvs f fuel (a.drop (len + 2)) (alen - (len + 2)) s

/-- One sub-TLV with an unknown type: mandatory ones (bit 0x80) make the TLV be ignored. -/
def unknownSub (s : σ) (ty : Nat) : Option (Option σ) :=
  if ty &&& 0x80 ≠ 0 then some none else some (some s)

/-- message.c:149-165 and 314-330: the source prefix sub-TLV of updates and requests.  The state
is the source prefix found, if any. -/
def srcSub (ae : Nat) (s : Option (Bytes × Nat)) (ty : Nat) (p : Bytes) (len : Nat) :
    Option (Option (Option (Bytes × Nat))) :=
  if ty = 1 then some (some s)
  else if ty = 128 then
    if len < 1 then some none
    else do
      let l ← rd p 0
      if l = 0 then return none
      else if s.isSome then return none
      else
        match ← networkPrefix ae (some l) 0 (p.drop 1) none (len - 1) with
        | none => return none
        | some (_, sp) => return some (some (sp, if aeIsV4 ae then l + 96 else l))
  else unknownSub s ty

/-- message.c:126-180 `parse_update_subtlv` and 291-345 `parse_request_subtlv`. -/
def parseSrcSub (ae : Nat) (a : Bytes) (alen : Int) : Option (Option (Option (Bytes × Nat))) :=
  subTlvs (srcSub ae) (alen.toNat + 1) a alen none

/-- message.c:368-378: the source prefix sub-TLV of seqno requests (no check for a zero length
or for repetition; the last one counts). -/
def seqSub (ae : Nat) (s : Option (Bytes × Nat)) (ty : Nat) (p : Bytes) (len : Nat) :
    Option (Option (Option (Bytes × Nat))) :=
  if ty = 1 then some (some s)
  else if ty = 128 then
    if len < 1 then some none
    else do
      let l ← rd p 0
      match ← networkPrefix ae (some l) 0 (p.drop 1) none (len - 1) with
      | none => return none
      | some (_, sp) => return some (some (sp, if aeIsV4 ae then l + 96 else l))
  else unknownSub s ty

/-- message.c:347-392 `parse_seqno_request_subtlv`. -/
def parseSeqSub (ae : Nat) (a : Bytes) (alen : Int) : Option (Option (Option (Bytes × Nat))) :=
  subTlvs (seqSub ae) (alen.toNat + 1) a alen none

/-- message.c:208-216: the timestamp sub-TLV of hellos. -/
def helloSub (s : Option Nat) (ty : Nat) (p : Bytes) (len : Nat) :
    Option (Option (Option Nat)) :=
  if ty = 1 then some (some s)
  else if ty = 3 then
    if len ≥ 4 then do return some (some (← rd32 p 0)) else some (some s)
  else unknownSub s ty

/-- message.c:182-231 `parse_hello_subtlv`. -/
def parseHelloSub (a : Bytes) (alen : Int) : Option (Option (Option Nat)) :=
  subTlvs helloSub (alen.toNat + 1) a alen none

/-- message.c:263-272: the timestamp sub-TLV of IHUs. -/
def ihuSub (s : Option (Nat × Nat)) (ty : Nat) (p : Bytes) (len : Nat) :
    Option (Option (Option (Nat × Nat))) :=
  if ty = 1 then some (some s)
  else if ty = 3 then
    if len ≥ 8 then do return some (some (← rd32 p 0, ← rd32 p 4)) else some (some s)
  else unknownSub s ty

/-- message.c:233-289 `parse_ihu_subtlv`. -/
def parseIhuSub (a : Bytes) (alen : Int) : Option (Option (Option (Nat × Nat))) :=
  subTlvs ihuSub (alen.toNat + 1) a alen none

/-- message.c:412-415. -/
def otherSub (_ : Unit) (ty : Nat) (_ : Bytes) (_ : Nat) : Option (Option Unit) :=
  unknownSub () ty

/-- message.c:394-423 `parse_other_subtlv`. -/
def parseOtherSub (a : Bytes) (alen : Int) : Option (Option Unit) :=
  subTlvs otherSub (alen.toNat + 1) a alen ()

/-- What `parse_packet` asks the rest of the program to do, in order. -/
inductive Item
  /-- message.c:683 `send_ack`. -/
  | ackReq (nonce interval : Nat)
  /-- message.c:708-720: `update_neighbour`, and recording of the timestamp. -/
  | hello (unicast : Bool) (seqno interval : Nat) (ts : Option Nat)
  /-- message.c:747-754: an IHU addressed to us. -/
  | ihu (txcost interval : Nat)
  /-- message.c:941 `retract_neighbour_routes`. -/
  | retractAll
  /-- message.c:954-956 `update_route`. -/
  | update (id : Option Bytes) (k : PKey) (seqno metric interval : Nat) (nh : Option Bytes)
  /-- message.c:993-1001: `send_ihu` and perhaps a full update. -/
  | requestAll
  /-- message.c:1009 `send_update`. -/
  | request (k : PKey)
  /-- message.c:1047 `handle_request`. -/
  | seqnoRequest (k : PKey) (hop seqno : Nat) (id : Bytes)
deriving DecidableEq, Repr

/-- The local variables of `parse_packet` that survive from one TLV to the next
(message.c:583-590).  A `have_…` flag and its array are one `Option`. -/
structure PState where
  routerId : Option Bytes := none
  v4Prefix : Option Bytes := none
  v6Prefix : Option Bytes := none
  v4v6Prefix : Option Bytes := none
  v4Nh : Option Bytes := none
  v6Nh : Option Bytes := none
  haveHelloRtt : Bool := false
  /-- `hello_send_us`, `hello_rtt_receive_time`. -/
  echo : Nat × Nat := (0, 0)
deriving DecidableEq, Repr

/-- What decoding depends on besides the packet: the sender's address, which addresses are ours
on this interface (`interface_ll_address`) and kernel support for v4-via-v6 routes. -/
structure PEnv where
  sender : Bytes
  isOurs : Bytes → Bool
  v4viav6 : Bool

/-- The source prefix assumed when there is no source prefix sub-TLV (message.c:853-859,
970-976, 1025-1031). -/
def defaultSrc (ae : Nat) : Bytes × Nat :=
  if aeIsV4 ae then (v4tov6 zeroes16, 96) else (zeroes16, 0)

/-- The length of a prefix in the IPv6 (mapped) representation, an `unsigned char`
(message.c:867, 969, 1038). -/
def realLen (ae l : Nat) : Nat := (l + if aeIsV4 ae then 96 else 0) % 256

/-- message.c:840-842, 846-849: the default prefix for an address encoding. -/
def PState.defaultPrefix (s : PState) (ae : Nat) : Option Bytes :=
  if ae = 1 then s.v4Prefix else if ae = 2 then s.v6Prefix else if ae = 4 then s.v4v6Prefix
  else none

/-- message.c:869-889: recording a default prefix. -/
def PState.setDefault (s : PState) (ae : Nat) (p : Bytes) : PState :=
  if ae = 1 then { s with v4Prefix := some p }
  else if ae = 2 then { s with v6Prefix := some p }
  else if ae = 4 then { s with v4v6Prefix := some p }
  else s

/-- message.c:821, 862: an unusable update that would have set the default prefix. -/
def PState.noDefaults (s : PState) : PState :=
  { s with v4Prefix := none, v6Prefix := none, v4v6Prefix := none }

/-- message.c:890-898: the router-id carried by a prefix. -/
def idOfPrefix (ae : Nat) (p : Bytes) : Bytes :=
  if aeIsV4 ae then [0, 0, 0, 0] ++ (p.drop 12).take 4 else (p.drop 8).take 8

/-- message.c:910-922: the next hop of an update; `none` is `goto fail`, `some none` is the null
pointer. -/
def nextHop (e : PEnv) (s : PState) (ae metric : Nat) : Option (Option Bytes) :=
  if ae = 1 then
    match s.v4Nh with
    | some nh => some (some nh)
    | none => if metric < INFINITY then none else some none
  else match s.v6Nh with
    | some nh => some (some nh)
    | none => some (some e.sender)

/-- message.c:672-683, an acknowledgment request TLV. -/
def tlvAckReq (s : PState) (m : Bytes) (len : Nat) : Option (PState × List Item) :=
  if len < 6 then some (s, [])
  else do
    let nonce ← rd16 m 4
    let interval ← rd16 m 6
    match ← parseOtherSub (m.drop 8) ((len : Int) - 6) with
    | none => return (s, [])
    | some _ => return (s, [.ackReq nonce interval])

/-- message.c:684-691, an acknowledgment TLV (its length is not checked). -/
def tlvAck (s : PState) (m : Bytes) (len : Nat) : Option (PState × List Item) := do
  let _ ← parseOtherSub (m.drop 4) ((len : Int) - 2)
  return (s, [])

/-- message.c:692-720, a hello TLV. -/
def tlvHello (s : PState) (m : Bytes) (len : Nat) : Option (PState × List Item) :=
  if len < 6 then some (s, [])
  else do
    let f ← rd m 2
    let seqno ← rd16 m 4
    let interval ← rd16 m 6
    match ← parseHelloSub (m.drop 8) ((len : Int) - 6) with
    | none => return (s, [])
    | some ts =>
      return ({ s with haveHelloRtt := s.haveHelloRtt || ts.isSome },
        [.hello (f &&& 0x80 != 0) seqno interval ts])

/-- message.c:721-755, an IHU TLV. -/
def tlvIhu (e : PEnv) (s : PState) (m : Bytes) (len : Nat) : Option (PState × List Item) :=
  if len < 6 then some (s, [])
  else do
    let ae ← rd m 2
    if !knownAe ae then return (s, [])
    else
      let txcost ← rd16 m 4
      let interval ← rd16 m 6
      match ← networkAddress ae (m.drop 8) (len - 6) with
      | none => return (s, [])
      | some (rc, addr) =>
        if ae = 0 || e.isOurs addr then
          match ← parseIhuSub (m.drop (8 + rc)) ((len : Int) - 6 - rc) with
          | none => return (s, [])
          | some ts =>
            return (match ts with | some t => { s with echo := t } | none => s,
              [.ihu txcost interval])
        else return (s, [])

/-- message.c:756-768, a router-id TLV.  The sub-TLVs are checked after the effect. -/
def tlvRouterId (s : PState) (m : Bytes) (len : Nat) : Option (PState × List Item) :=
  if len < 10 then some ({ s with routerId := none }, [])
  else do
    let id ← rdN (m.drop 4) 8
    let _ ← parseOtherSub (m.drop 12) ((len : Int) - 10)
    return ({ s with routerId := some id }, [])

/-- message.c:769-813, a next hop TLV.  The sub-TLVs are checked after the effect. -/
def tlvNh (s : PState) (m : Bytes) (len : Nat) : Option (PState × List Item) :=
  if len < 2 then some ({ s with v4Nh := none, v6Nh := none }, [])
  else do
    let ae ← rd m 2
    let r ← networkAddress ae (m.drop 4) (len - 2)
    if !knownAe ae then return (s, [])
    else if ae = 0 then return (s, [])
    else
      match r with
      | none => return ({ s with v4Nh := none, v6Nh := none }, [])
      | some (rc, nh) =>
        if ae = 1 then
          let _ ← parseOtherSub (m.drop (4 + rc)) ((len : Int) - 2 - rc)
          return ({ s with v4Nh := some nh }, [])
        else if ae = 2 || ae = 3 then
          let _ ← parseOtherSub (m.drop (4 + rc)) ((len : Int) - 2 - rc)
          return ({ s with v6Nh := some nh }, [])
        else return (s, [])

/-- message.c:839-852: the prefix of an update. -/
def updatePrefix (s : PState) (ae l omitted : Nat) (p : Bytes) (len : Nat) :
    Option (Option (Nat × Bytes)) :=
  if omitted = 0 ∨ (s.defaultPrefix ae).isSome then
    networkPrefix ae (some l) omitted p (s.defaultPrefix ae) len
  else some none

/-- message.c:869-898: the effect of the flags of an update on the parser state. -/
def PState.applyFlags (s : PState) (flags ae : Nat) (pfx : Bytes) : PState :=
  let s := if flags &&& 0x80 ≠ 0 then s.setDefault ae pfx else s
  if flags &&& 0x40 ≠ 0 then { s with routerId := some (idOfPrefix ae pfx) } else s

/-- message.c:899-956: what an update with a valid prefix does; `a`, `alen` are its sub-TLVs. -/
def updateItems (e : PEnv) (s : PState) (ae l : Nat) (pfx : Bytes) (seqno metric interval : Nat)
    (a : Bytes) (alen : Int) : Option (List Item) :=
  if metric < INFINITY ∧ s.routerId = none ∧ ae ≠ 0 then some []
  else
    match nextHop e s ae metric with
    | none => some []
    | some nh => do
      match ← parseSrcSub ae a alen with
      | none => return []
      | some src =>
        let (sp, sl) := src.getD (defaultSrc ae)
        if ae = 0 then
          if metric < 0xFFFF then return []
          else if sl > 0 then return []
          else return [.retractAll]
        else
          return [.update s.routerId ⟨pfx, realLen ae l, sp, sl⟩ seqno metric interval nh]

/-- message.c:814-956, an update TLV. -/
def tlvUpdate (e : PEnv) (s : PState) (m : Bytes) (len : Nat) : Option (PState × List Item) :=
  if len < 10 then
    if len < 2 then some (s.noDefaults, [])
    else do
      let flags ← rd m 3
      if flags &&& 0x80 ≠ 0 then return (s.noDefaults, []) else return (s, [])
  else do
    let ae ← rd m 2
    if !knownAe ae then return (s, [])
    else if ae = 4 && !e.v4viav6 then return (s, [])
    else
      let flags ← rd m 3
      let l ← rd m 4
      let omitted ← rd m 5
      let interval ← rd16 m 6
      let seqno ← rd16 m 8
      let metric ← rd16 m 10
      match ← updatePrefix s ae l omitted (m.drop 12) (len - 10) with
      | none => return (if flags &&& 0x80 ≠ 0 then s.noDefaults else s, [])
      | some (rc, pfx) =>
        let s := s.applyFlags flags ae pfx
        let items ← updateItems e s ae l pfx seqno metric interval (m.drop (12 + rc))
          ((len : Int) - 10 - rc)
        return (s, items)

/-- message.c:957-1010, a route request TLV. -/
def tlvRequest (s : PState) (m : Bytes) (len : Nat) : Option (PState × List Item) :=
  if len < 2 then some (s, [])
  else do
    let ae ← rd m 2
    if !knownAe ae then return (s, [])
    else
      let l ← rd m 3
      match ← networkPrefix ae (some l) 0 (m.drop 4) none (len - 2) with
      | none => return (s, [])
      | some (rc, pfx) =>
        match ← parseSrcSub ae (m.drop (4 + rc)) ((len : Int) - 2 - rc) with
        | none => return (s, [])
        | some src =>
          let (sp, sl) := src.getD (defaultSrc ae)
          if ae = 0 then
            if !isDefault sp sl then return (s, []) else return (s, [.requestAll])
          else return (s, [.request ⟨pfx, realLen ae l, sp, sl⟩])

/-- message.c:1011-1048, a seqno request TLV. -/
def tlvSeqno (s : PState) (m : Bytes) (len : Nat) : Option (PState × List Item) :=
  if len < 14 then some (s, [])
  else do
    let ae ← rd m 2
    if !knownAe ae then return (s, [])
    else
      let l ← rd m 3
      let seqno ← rd16 m 4
      match ← networkPrefix ae (some l) 0 (m.drop 16) none (len - 14) with
      | none => return (s, [])
      | some (rc, pfx) =>
        match ← parseSeqSub ae (m.drop (16 + rc)) ((len : Int) - 14 - rc) with
        | none => return (s, [])
        | some src =>
          let (sp, sl) := src.getD (defaultSrc ae)
          let hop ← rd m 6
          let id ← rdN (m.drop 8) 8
          return (s, [.seqnoRequest ⟨pfx, realLen ae l, sp, sl⟩ hop seqno id])

/-- message.c:669-1056: one TLV, `m` pointing to its type byte, `len` being its length byte. -/
def parseTlv (e : PEnv) (s : PState) (ty : Nat) (m : Bytes) (len : Nat) :
    Option (PState × List Item) :=
  if ty = 2 then tlvAckReq s m len
  else if ty = 3 then tlvAck s m len
  else if ty = 4 then tlvHello s m len
  else if ty = 5 then tlvIhu e s m len
  else if ty = 6 then tlvRouterId s m len
  else if ty = 7 then tlvNh s m len
  else if ty = 8 then tlvUpdate e s m len
  else if ty = 9 then tlvRequest s m len
  else if ty = 10 then tlvSeqno s m len
  else some (s, [])

/-- message.c:649-1065: the TLVs of a packet body; `m` is the C pointer `packet + 4 + i` and
`left` the remaining length `bodylen - i`. -/
def parseBody (e : PEnv) : Nat → Bytes → Int → PState → Option (PState × List Item)
  | 0, _, _, _ => none
  | fuel + 1, m, left, s =>
    if left ≤ 0 then some (s, [])
    else do
      let ty ← rd m 0
      if ty = 0 then parseBody e fuel (m.drop 1) (left - 1) s
      else if 2 > left then return (s, [])
      else
        let len ← rd m 1
        if (len : Int) + 2 > left then return (s, [])
        else
          let (s, out) ← parseTlv e s ty m len
          let (s, out') ← parseBody e fuel (m.drop (len + 2)) (left - (len + 2)) s
          return (s, out ++ out')

/-- message.c:597-622: the checks on the packet header.  `packet` is the receive buffer and
`packetlen` the length of the packet in it.  The inner result is `none` when the packet is
rejected and otherwise the length of the body. -/
def packetHeader (e : PEnv) (packet : Bytes) (packetlen : Nat) : Option (Option Int) :=
  if !linklocal e.sender then some none
  else do
    let b0 ← rd packet 0
    if b0 ≠ 42 then return none
    else
      let b1 ← rd packet 1
      if b1 ≠ 2 then return none
      else
        let bodylen ← rd16 packet 2
        if bodylen + 4 > packetlen then return some ((packetlen : Int) - 4)
        else return some (bodylen : Int)

/-- message.c:573-1065 `parse_packet` on an interface without a key. -/
def parsePacket (e : PEnv) (packet : Bytes) (packetlen : Nat) :
    Option (PState × List Item) := do
  match ← packetHeader e packet packetlen with
  | none => return ({}, [])
  | some bodylen => parseBody e (bodylen.toNat + 1) (packet.drop 4) bodylen {}

end Babel
