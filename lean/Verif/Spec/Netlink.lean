import Verif.Model.Types
/-
The format of netlink messages about routes and addresses (netlink(7), rtnetlink(7)), on a
little-endian host.
-/
namespace Babel.Spec

/-- The `n` bytes of a number, least significant byte first. -/
def leBytes : Nat → Nat → Bytes
  | 0, _ => []
  | n + 1, v => UInt8.ofNat v :: leBytes n (v / 256)

/-- The number with these bytes. -/
def leVal : Bytes → Nat
  | [] => 0
  | b :: l => b.toNat + 256 * leVal l

/-- An attribute: a type and a value. -/
structure NlAttr where
  type : Nat
  data : Bytes
deriving DecidableEq, Repr

/-- Length (of the attribute without padding), type, value. -/
def NlAttr.bytes (a : NlAttr) : Bytes := leBytes 2 (4 + a.data.length) ++ leBytes 2 a.type ++ a.data

/-- The fields fit. -/
def NlAttr.Fits (a : NlAttr) : Prop := a.type < 65536 ∧ 4 + a.data.length < 65536

instance (a : NlAttr) : Decidable a.Fits := inferInstanceAs (Decidable (_ ∧ _))

/-- The bytes are those of the attributes, each of which starts at a multiple of 4 bytes. The padding is
arbitrary; the last attribute may or may not be followed by padding. -/
inductive NlAttrs : List NlAttr → Bytes → Prop
  | nil : NlAttrs [] []
  | last {a : NlAttr} : a.Fits → NlAttrs [a] a.bytes
  | cons {a : NlAttr} {l b} (pad : Bytes) : a.Fits → (4 + a.data.length + pad.length) % 4 = 0 → pad.length < 4 →
      NlAttrs l b → NlAttrs (a :: l) (a.bytes ++ pad ++ b)

/-- A message about a route: `struct nlmsghdr`, `struct rtmsg`, attributes. -/
structure RouteMsg where
  /-- Adds (24) or deletes (25) a route. -/
  type : Nat
  flags : Nat
  seq : Nat
  pid : Nat
  /-- 2 (IPv4) or 10 (IPv6). -/
  family : UInt8
  dstLen : UInt8
  srcLen : UInt8
  tos : UInt8
  table : UInt8
  protocol : UInt8
  scope : UInt8
  /-- 1 (unicast), 7 (unreachable). -/
  kind : UInt8
  rtFlags : Nat
  attrs : List NlAttr
deriving DecidableEq, Repr

/-- The bytes are those of the message. -/
def RouteMsg.Encoded (m : RouteMsg) (b : Bytes) : Prop :=
  ∃ a, NlAttrs m.attrs a ∧
    b = leBytes 4 (28 + a.length) ++ leBytes 2 m.type ++ leBytes 2 m.flags ++ leBytes 4 m.seq ++ leBytes 4 m.pid ++
      [m.family, m.dstLen, m.srcLen, m.tos, m.table, m.protocol, m.scope, m.kind] ++ leBytes 4 m.rtFlags ++ a

/-- The value of the attribute of a type; of the last one, if there are several. -/
def attrOf (l : List NlAttr) (t : Nat) : Option Bytes :=
  ((l.filter (·.type == t)).getLast?).map (·.data)

/-- An address; IPv4 addresses are represented as IPv4-mapped ones. -/
def addrBytes (family : UInt8) (d : Bytes) : Bytes :=
  if family = 2 then [0, 0, 0, 0, 0, 0, 0, 0, 0, 0, 0xFF, 0xFF] ++ d.take 4 else d.take 16

/-- A prefix; by default the one that contains all addresses of the family. -/
def prefixOf (family len : UInt8) (d : Option Bytes) : Bytes × Nat :=
  match d with
  | some d => (addrBytes family d, if family = 2 then len.toNat + 96 else len.toNat)
  | none => (addrBytes family (List.replicate 16 0), if family = 2 then 96 else 0)

/-- A 32-bit attribute; 0 if it is missing. -/
def intAttr (l : List NlAttr) (t : Nat) : Nat :=
  match attrOf l t with
  | some d => leVal (d.take 4)
  | none => 0

/-- The destination (1 is `RTA_DST`) and source prefix (2 is `RTA_SRC`) of the route. -/
def RouteMsg.key (m : RouteMsg) : PKey :=
  let d := prefixOf m.family m.dstLen (attrOf m.attrs 1)
  let s := prefixOf m.family m.srcLen (attrOf m.attrs 2)
  ⟨d.1, d.2, s.1, s.2⟩

/-- The table: attribute 15, `RTA_TABLE`, or else the field of the header. -/
def RouteMsg.tableOf (m : RouteMsg) : Nat :=
  match attrOf m.attrs 15 with
  | some d => leVal (d.take 4)
  | none => m.table.toNat

/-- The next hop: attribute 5, `RTA_GATEWAY`, an address of the same family; or attribute 18, `RTA_VIA`, a
family and an address. -/
def RouteMsg.gateway (m : RouteMsg) : Option Bytes :=
  match attrOf m.attrs 5, attrOf m.attrs 18 with
  | some d, _ => some (addrBytes m.family d)
  | none, some d => some (addrBytes (UInt8.ofNat (leVal (d.take 2))) (d.drop 2))
  | none, none => none

/-- What the route does with packets: next hop, interface (4, `RTA_OIF`), metric (6,
`RTA_PRIORITY`); `none` if it is an unreachable route. -/
def RouteMsg.target (m : RouteMsg) : Option (Bytes × Nat × Nat) :=
  if m.kind = 1 then m.gateway.map fun g => (g, intAttr m.attrs 4, intAttr m.attrs 6) else none

/-- A message about an address of an interface: `struct nlmsghdr`, `struct ifaddrmsg`, attributes. -/
structure AddrMsg where
  /-- Adds (20) or deletes (21) an address. -/
  type : Nat
  flags : Nat
  seq : Nat
  pid : Nat
  family : UInt8
  prefixLen : UInt8
  ifaFlags : UInt8
  scope : UInt8
  ifindex : Nat
  attrs : List NlAttr
deriving DecidableEq, Repr

/-- The bytes are those of the message. -/
def AddrMsg.Encoded (m : AddrMsg) (b : Bytes) : Prop :=
  ∃ a, NlAttrs m.attrs a ∧
    b = leBytes 4 (24 + a.length) ++ leBytes 2 m.type ++ leBytes 2 m.flags ++ leBytes 4 m.seq ++ leBytes 4 m.pid ++
      [m.family, m.prefixLen, m.ifaFlags, m.scope] ++ leBytes 4 m.ifindex ++ a

/-- The address: attribute 2, `IFA_LOCAL`, if there is one (on point-to-point links attribute 1 is the address
of the peer); or else attribute 1, `IFA_ADDRESS`. -/
def AddrMsg.address (m : AddrMsg) : Option Bytes :=
  match m.attrs.find? (·.type == 2) with
  | some a => some (addrBytes m.family a.data)
  | none => (attrOf m.attrs 1).map (addrBytes m.family)

/-- The prefix of all IPv4 addresses (::ffff:0:0/96), or of all IPv6 addresses. -/
def everything (v4 : Bool) : Bytes × Nat :=
  if v4 then ([0, 0, 0, 0, 0, 0, 0, 0, 0, 0, 0xFF, 0xFF, 0, 0, 0, 0], 96) else (List.replicate 16 0, 0)

end Babel.Spec
