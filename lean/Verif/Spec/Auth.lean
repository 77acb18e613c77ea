import Verif.Model.Auth
import Verif.Spec.Wire
import Verif.Spec.Util
/-
Authenticated packets (RFC 8967), independently of the code that checks them.
-/
namespace Babel.Spec

/-- The number represented by bytes in network order. -/
def value (b : Bytes) : Nat := b.foldl (fun n x => 256 * n + x.toNat) 0

/-- RFC 2104: HMAC with a hash function on blocks of 64 bytes, and a key already padded to that
size. -/
def hmac (h : Bytes → Bytes) (key text : Bytes) : Bytes :=
  h (key.map (· ^^^ 0x5c) ++ h (key.map (· ^^^ 0x36) ++ text))

/-- RFC 8967, section 4.1: the pseudo-header and the packet without its trailer. -/
def signedText (port : Nat) (src dst header body : Bytes) : Bytes :=
  src ++ be16 port ++ dst ++ be16 port ++ header ++ body

/-- The trailer contains a MAC TLV with value `m`, after other TLVs, none of them shorter than
two bytes. -/
def HasMac (trailer m : Bytes) : Prop :=
  ∃ (pre : List (UInt8 × Bytes)) (rest : Bytes), (∀ t ∈ pre, t.2.length ≤ 255) ∧ m.length ≤ 255 ∧
    trailer = pre.flatMap (fun t => t.1 :: UInt8.ofNat t.2.length :: t.2) ++
      (16 :: UInt8.ofNat m.length :: m ++ rest)

/-- `p` is a packet with body `body`, correctly signed with `k` by `src` for `dst`. -/
def SignedBody (k : Key) (src dst p body : Bytes) : Prop :=
  ∃ tr m, body.length < 65536 ∧ p = packet body tr ∧ k.mac src dst (p.take 4) body = some m ∧ HasMac tr m

def Signed (k : Key) (src dst p : Bytes) : Prop := ∃ body, SignedBody k src dst p body

/-- An address is a multicast address. -/
def multicast (a : Bytes) : Bool := a.head? == some 255

/-- The TLVs up to the first one that is relevant to authentication and has an unacceptable
length; challenge requests in multicast packets are not relevant, nor are counters after the
first one. -/
def usable (mc : Bool) : (seen : Bool) → List Tlv → List Tlv
  | _, [] => []
  | seen, .pad1 :: ts => .pad1 :: usable mc seen ts
  | seen, .tlv ty b :: ts =>
    if ty = 17 then
      if seen then .tlv ty b :: usable mc true ts
      else if 4 ≤ b.length ∧ b.length ≤ 36 then .tlv ty b :: usable mc true ts else []
    else if (ty = 18 ∧ mc = false ∨ ty = 19) ∧ 192 < b.length then []
    else .tlv ty b :: usable mc seen ts

/-- The bodies of the TLVs of type `ty`. -/
def bodiesOf (ty : UInt8) (ts : List Tlv) : List Bytes :=
  ts.filterMap fun t => match t with
    | .tlv t b => if t = ty then some b else none
    | .pad1 => none

/-- The packet counter and index of a packet: those of its first PC TLV. -/
def counter (mc : Bool) (ts : List Tlv) : Option (Bytes × Bytes) :=
  ((bodiesOf 17 (usable mc false ts)).head?).map fun b => (b.take 4, b.drop 4)

/-- The nonces in its challenge replies. -/
def replies (mc : Bool) (ts : List Tlv) : List Bytes := bodiesOf 19 (usable mc false ts)

/-- The nonce in its (last) challenge request. -/
def requested (mc : Bool) (ts : List Tlv) : Option Bytes :=
  if mc then none else (bodiesOf 18 (usable mc false ts)).getLast?

/-- The TLVs of the packet `p`. -/
def TlvsOf (p : Bytes) (ts : List Tlv) : Prop :=
  (∀ t ∈ ts, t.Ok) ∧ ∃ tail tr, Truncated tail ∧ (encAll ts ++ tail).length < 65536 ∧
    p = packet (encAll ts ++ tail) tr

/-- The bytes received. -/
def _root_.Babel.Rx.bytes (p : Rx) : Bytes := p.buf.take p.len

/-- What is known about the neighbour `x`; nothing, if it is not in the table. -/
def _root_.Babel.AState.ent (s : AState) (x : Bytes) : NAuth := (s.tab x).getD {}

/-- The last counter accepted in multicast or unicast packets. -/
def _root_.Babel.NAuth.last (a : NAuth) (mc : Bool) : Bytes := if mc then a.pcM else a.pcU

/-- The packet is inside the receive buffer, which holds at least a header (babeld.c:654-677), and
it was received at some normalised time other than zero. -/
def RxOk (p : Rx) : Prop := 4 ≤ p.buf.length ∧ p.len ≤ p.buf.length ∧ TvOk p.now ∧ 0 < micros p.now

/-- The events of a history are possible. -/
def EvOk : AEv → Prop
  | .packet _ p => RxOk p
  | .flush _ => True

/-- The event is about the neighbour `x`. -/
def about (x : Bytes) : AEv → Bool
  | .packet _ p => p.env.sender == x
  | .flush a => a == x

/-- The number of positions of a history with a property of the event and of its effect. -/
def tally (f : AEv → Effect → Bool) : List AEv → List Effect → Nat
  | ev :: evs, o :: os => (if f ev o then 1 else 0) + tally f evs os
  | _, _ => 0

/-- The packet was accepted by authentication. -/
def authentic (o : Effect) : Bool := o.verdict == .newer || o.verdict == .answered

/-- The event is the acceptance of a copy of the packet `P` from `x`. -/
def copy (x P : Bytes) (mc : Bool) : AEv → Effect → Bool
  | .packet _ p, o => p.env.sender == x && p.bytes == P && multicast p.dst == mc && authentic o
  | .flush _, _ => false

/-- A challenge request was sent. -/
def challenged (o : Effect) : Bool := o.challenges.any fun c => match c with | .request _ => true | _ => false

/-- The event is a packet from `x` that answers a challenge. -/
def answeredBy (x : Bytes) (ev : AEv) (o : Effect) : Bool := about x ev && o.verdict == .answered

/-- The event is a packet from `x` to which a challenge is sent. -/
def challengedBy (x : Bytes) (ev : AEv) (o : Effect) : Bool := about x ev && challenged o

end Babel.Spec
