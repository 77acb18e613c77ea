import Verif.Spec.Netlink
/-
Sequences of netlink messages (netlink(7)).
-/
namespace Babel.Spec

/-- A message. -/
structure NlMsg where
  type : Nat
  flags : Nat
  seq : Nat
  pid : Nat
  payload : Bytes
deriving DecidableEq, Repr

/-- `struct nlmsghdr` and the payload. -/
def NlMsg.bytes (m : NlMsg) : Bytes :=
  leBytes 4 (16 + m.payload.length) ++ leBytes 2 m.type ++ leBytes 2 m.flags ++ leBytes 4 m.seq ++ leBytes 4 m.pid ++ m.payload

/-- The fields fit; an error message (type 2) contains an error number. -/
def NlMsg.Fits (m : NlMsg) : Prop :=
  m.type < 65536 ∧ m.seq < 4294967296 ∧ m.pid < 4294967296 ∧ 16 + m.payload.length < 4294967296 ∧
  (m.type = 2 → 4 ≤ m.payload.length)

instance (m : NlMsg) : Decidable m.Fits := inferInstanceAs (Decidable (_ ∧ _))

/-- The datagram consists of the messages, each of which starts at a multiple of 4 bytes. -/
inductive NlDatagram : List NlMsg → Bytes → Prop
  | nil : NlDatagram [] []
  | last {m : NlMsg} : m.Fits → NlDatagram [m] m.bytes
  | cons {m : NlMsg} {l b} (pad : Bytes) : m.Fits → (16 + m.payload.length + pad.length) % 4 = 0 → pad.length < 4 →
      NlDatagram l b → NlDatagram (m :: l) (m.bytes ++ pad ++ b)

/-- A message that ends a sequence of messages: the end of a dump (type 3), or an error or acknowledgment (type 2). -/
def NlMsg.final (m : NlMsg) : Bool := m.type == 3 || m.type == 2

/-- The error number of an error message is 0 (an acknowledgment). -/
def NlMsg.isAck (m : NlMsg) : Bool := m.payload.take 4 == [0, 0, 0, 0]

end Babel.Spec
