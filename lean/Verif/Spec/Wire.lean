import Verif.Model.Wire
/-
The layout of packets, independently of how the decoder walks through them
(RFC 8966, sections 4.2 to 4.6).
-/
namespace Babel.Spec

/-- A TLV or a sub-TLV: a single padding byte, or a type and a body. -/
inductive Tlv
  | pad1
  | tlv (ty : UInt8) (body : Bytes)
deriving DecidableEq, Repr

/-- Its bytes on the wire. -/
def Tlv.enc : Tlv → Bytes
  | .pad1 => [0]
  | .tlv ty body => ty :: UInt8.ofNat body.length :: body

/-- Type 0 is reserved for padding, and the length is one byte. -/
def Tlv.Ok : Tlv → Prop
  | .pad1 => True
  | .tlv ty body => ty ≠ 0 ∧ body.length ≤ 255

instance (t : Tlv) : Decidable t.Ok := by
  cases t <;> unfold Tlv.Ok <;> infer_instance

/-- The bytes of a sequence of TLVs. -/
def encAll (ts : List Tlv) : Bytes := ts.flatMap Tlv.enc

/-- Network byte order. -/
def be16 (n : Nat) : Bytes := [UInt8.ofNat (n / 256), UInt8.ofNat n]
def be32 (n : Nat) : Bytes := be16 (n / 65536) ++ be16 n

/-- A packet: magic 42, version 2, length of the body, body, trailer. -/
def packet (body trailer : Bytes) : Bytes := 42 :: 2 :: (be16 body.length ++ body ++ trailer)

/-- What is left after the last complete TLV. -/
def Truncated (b : Bytes) : Prop :=
  b = [] ∨ (∃ ty, ty ≠ 0 ∧ b = [ty]) ∨
    ∃ ty len rest, ty ≠ 0 ∧ b = ty :: len :: rest ∧ rest.length < len.toNat

/-- The result of decoding the packet with the given TLVs, sent with the given trailer: the
final parser state and the decoded items. -/
def decode (e : PEnv) (ts : List Tlv) (tail trailer : Bytes) : Option (PState × List Item) :=
  let p := packet (encAll ts ++ tail) trailer
  parsePacket e p p.length

end Babel.Spec

namespace Babel.Spec

/-! Prefixes -/

/-- The number of bytes needed for `plen` bits. -/
def bytesOf (plen : Nat) : Nat := (plen + 7) / 8

/-- The 16-byte array starting with `b`, the rest being zero. -/
def zeroPadded (b : Bytes) : Bytes := b ++ List.replicate (16 - b.length) 0

/-- `wire` is the encoding of the prefix `pfx` of (wire) length `plen` with address encoding
`ae`, of which the first `omitted` bytes are taken from the default prefix `dp`.  IPv4 prefixes
are represented as IPv4-mapped IPv6 prefixes. -/
inductive Encoded : (ae plen omitted : Nat) → (dp : Option Bytes) → (wire pfx : Bytes) → Prop
  | wildcard (plen omitted dp) : plen ≤ 128 → Encoded 0 plen omitted dp [] zeroes16
  | v4 (ae plen wire dp) : ae = 1 ∨ ae = 4 → plen ≤ 32 → wire.length = bytesOf plen →
      Encoded ae plen 0 dp wire
        (normalizePrefix (zeroPadded (v4prefix.take 12 ++ wire)) (96 + plen))
  | v4omit (ae plen omitted wire d) : ae = 1 ∨ ae = 4 → plen ≤ 32 → 0 < omitted →
      omitted + wire.length = bytesOf plen → v4mapped d →
      Encoded ae plen omitted (some d) wire
        (normalizePrefix (zeroPadded (d.take (12 + omitted) ++ wire)) (96 + plen))
  | v6 (plen wire dp) : plen ≤ 128 → wire.length = bytesOf plen →
      Encoded 2 plen 0 dp wire (normalizePrefix (zeroPadded wire) plen)
  | v6omit (plen omitted wire d) : plen ≤ 128 → 0 < omitted →
      omitted + wire.length = bytesOf plen → ¬ v4mapped d →
      Encoded 2 plen omitted (some d) wire
        (normalizePrefix (zeroPadded (d.take omitted ++ wire)) plen)
  | linkLocal (plen omitted wire dp) : plen ≤ 128 → 8 + wire.length = bytesOf plen →
      Encoded 3 plen omitted dp wire
        (normalizePrefix (zeroPadded (llprefix.take 8 ++ wire)) plen)

/-- `wire` is the encoding of the address `addr`. -/
inductive EncodedAddr : (ae : Nat) → (wire addr : Bytes) → Prop
  | wildcard : EncodedAddr 0 [] zeroes16
  | v4 (wire) : wire.length = 4 → EncodedAddr 1 wire (v4tov6 wire)
  | v6 (wire) : wire.length = 16 → EncodedAddr 2 wire wire
  | linkLocal (wire) : wire.length = 8 → EncodedAddr 3 wire (llprefix.take 8 ++ wire)

end Babel.Spec

namespace Babel.Spec

/-! Sub-TLVs -/

/-- The bodies of the sub-TLVs of a type. -/
def bodies (ty : UInt8) : List Tlv → List Bytes
  | [] => []
  | .pad1 :: ss => bodies ty ss
  | .tlv t b :: ss => if t = ty then b :: bodies ty ss else bodies ty ss

/-- All mandatory sub-TLVs (those with a type of at least 128) are known. -/
def Understood (known : List UInt8) (ss : List Tlv) : Prop :=
  ∀ t b, Tlv.tlv t b ∈ ss → 128 ≤ t → t ∈ known

/-- The body of a source prefix sub-TLV denotes the source prefix `src` (IPv6 representation). -/
def SourceBody (ae : Nat) (b : Bytes) (src : Bytes × Nat) : Prop :=
  ∃ (plen : UInt8) (wire extra : Bytes), b = plen :: (wire ++ extra) ∧
    Encoded ae plen.toNat 0 none wire src.1 ∧
    src.2 = plen.toNat + if ae = 1 ∨ ae = 4 then 96 else 0

/-- The source prefix of a TLV without source prefix sub-TLV. -/
def anySource (ae : Nat) : Bytes × Nat := if ae = 1 ∨ ae = 4 then (v4prefix, 96) else (zeroes16, 0)

/-- The source prefix of an update or route request with sub-TLVs `ss`: there may be at most one
source prefix sub-TLV, and its prefix length may not be 0. -/
inductive Source (ae : Nat) (ss : List Tlv) : Bytes × Nat → Prop
  | absent : bodies 128 ss = [] → Source ae ss (anySource ae)
  | present (b src) : bodies 128 ss = [b] → SourceBody ae b src → b.head? ≠ some 0 →
      Source ae ss src

/-- The source prefix of a seqno request: the last source prefix sub-TLV counts, but they must
all be well-formed. -/
inductive SeqnoSource (ae : Nat) (ss : List Tlv) : Bytes × Nat → Prop
  | absent : bodies 128 ss = [] → SeqnoSource ae ss (anySource ae)
  | present (bs b src) : bodies 128 ss = bs ++ [b] → (∀ b' ∈ bs, ∃ src', SourceBody ae b' src') →
      SourceBody ae b src → SeqnoSource ae ss src

/-- The big-endian number in the first `n` bytes. -/
def number (n : Nat) (b : Bytes) : Nat := (b.take n).foldl (fun a x => 256 * a + x.toNat) 0

/-- The timestamp in a hello: that of the last long enough timestamp sub-TLV. -/
def helloTime (ss : List Tlv) : Option Nat :=
  (((bodies 3 ss).filter fun b => 4 ≤ b.length).getLast?).map (number 4)

/-- The timestamps in an IHU. -/
def ihuTimes (ss : List Tlv) : Option (Nat × Nat) :=
  (((bodies 3 ss).filter fun b => 8 ≤ b.length).getLast?).map
    fun b => (number 4 b, number 4 (b.drop 4))

/-- Decoding a single TLV in parser state `s`. -/
def runTlv (e : PEnv) (s : PState) (ty : UInt8) (body : Bytes) : Option (PState × List Item) :=
  parseTlv e s ty.toNat (Tlv.tlv ty body).enc body.length

end Babel.Spec

namespace Babel.Spec

/-- `subs` is the encoding of the sub-TLVs `ss`. -/
def SubTlvs (subs : Bytes) (ss : List Tlv) : Prop := subs = encAll ss ∧ ∀ t ∈ ss, t.Ok

/-- The sub-TLV area is well-formed, and contains no unknown mandatory sub-TLV. -/
def Readable (known : List UInt8) (subs : Bytes) : Prop :=
  ∃ ss, SubTlvs subs ss ∧ Understood known ss

/-- The sub-TLV area of an update or route request is good and gives the source prefix `src`. -/
def ReadSource (ae : Nat) (subs : Bytes) (src : Bytes × Nat) : Prop :=
  ∃ ss, SubTlvs subs ss ∧ Understood [128] ss ∧ Source ae ss src

/-- The sub-TLV area of a seqno request is good and gives the source prefix `src`. -/
def ReadSeqnoSource (ae : Nat) (subs : Bytes) (src : Bytes × Nat) : Prop :=
  ∃ ss, SubTlvs subs ss ∧ Understood [128] ss ∧ SeqnoSource ae ss src

/-- The default prefix for updates with address encoding `ae`. -/
def defaultFor (s : PState) : Nat → Option Bytes
  | 1 => s.v4Prefix
  | 2 => s.v6Prefix
  | 4 => s.v4v6Prefix
  | _ => none

/-- Flag 0x80 of an update makes its prefix the default prefix of its address encoding. -/
def withDefault (s : PState) (flags ae : Nat) (pfx : Bytes) : PState :=
  match flags.testBit 7, ae with
  | true, 1 => { s with v4Prefix := some pfx }
  | true, 2 => { s with v6Prefix := some pfx }
  | true, 4 => { s with v4v6Prefix := some pfx }
  | _, _ => s

/-- Flag 0x40 of an update takes the router-id from the prefix. -/
def withId (s : PState) (flags ae : Nat) (pfx : Bytes) : PState :=
  if flags.testBit 6 then
    { s with routerId := some (if ae = 1 ∨ ae = 4 then [0, 0, 0, 0] ++ pfx.drop 12 else pfx.drop 8) }
  else s

/-- The fixed part of an update. -/
def updateFixed (ae flags plen omitted : UInt8) (interval seqno metric : Nat) : Bytes :=
  [ae, flags, plen, omitted] ++ be16 interval ++ be16 seqno ++ be16 metric

/-- What an update announces in parser state `s`.  The wildcard update retracts everything.  A
finite update needs a router-id and, for IPv4, a next hop.  Without a next hop TLV, the next hop
of an IPv6 update is the sender. -/
def announces (e : PEnv) (s : PState) (ae plen : Nat) (pfx : Bytes) (src : Bytes × Nat)
    (seqno metric interval : Nat) : List Item :=
  if ae = 0 then (if metric = 65535 ∧ src.2 = 0 then [.retractAll] else [])
  else if metric < 65535 ∧ (s.routerId = none ∨ ae = 1 ∧ s.v4Nh = none) then []
  else [.update s.routerId ⟨pfx, plen + if ae = 1 ∨ ae = 4 then 96 else 0, src.1, src.2⟩
    seqno metric interval (if ae = 1 then s.v4Nh else some (s.v6Nh.getD e.sender))]

/-- `main` is a well-formed TLV of type `ty`, without its sub-TLVs, in parser state `s`. -/
inductive Main (e : PEnv) (s : PState) : (ty : UInt8) → (main : Bytes) → Prop
  | ackReq (res nonce interval) : nonce < 65536 → interval < 65536 →
      Main e s 2 (be16 res ++ be16 nonce ++ be16 interval)
  | ack (nonce) : Main e s 3 (be16 nonce)
  | hello (flags seqno interval) : flags < 65536 → seqno < 65536 → interval < 65536 →
      Main e s 4 (be16 flags ++ be16 seqno ++ be16 interval)
  | ihu (ae res txcost interval wire addr) : txcost < 65536 → interval < 65536 →
      EncodedAddr ae.toNat wire addr →
      Main e s 5 ([ae, res] ++ be16 txcost ++ be16 interval ++ wire)
  | routerId (res id) : id.length = 8 → Main e s 6 (be16 res ++ id)
  | nh (ae res wire addr) : EncodedAddr ae.toNat wire addr → Main e s 7 ([ae, res] ++ wire)
  | update (ae flags plen omitted interval seqno metric wire pfx) :
      interval < 65536 → seqno < 65536 → metric < 65536 → ae ≤ 4 → (ae = 4 → e.v4viav6 = true) →
      (omitted = 0 ∨ (defaultFor s ae.toNat).isSome) →
      Encoded ae.toNat plen.toNat omitted.toNat (defaultFor s ae.toNat) wire pfx →
      Main e s 8 (updateFixed ae flags plen omitted interval seqno metric ++ wire)
  | request (ae plen wire pfx) : Encoded ae.toNat plen.toNat 0 none wire pfx →
      Main e s 9 ([ae, plen] ++ wire)
  | seqnoRequest (ae plen hop res seqno id wire pfx) : seqno < 65536 → id.length = 8 →
      Encoded ae.toNat plen.toNat 0 none wire pfx →
      Main e s 10 ([ae, plen] ++ be16 seqno ++ [hop, res] ++ id ++ wire)

/-- The mandatory sub-TLVs allowed in a TLV: the source prefix. -/
def mandatory (ty : UInt8) : List UInt8 := if ty = 8 ∨ ty = 9 ∨ ty = 10 then [128] else []

end Babel.Spec
