import Verif.Model.Daemon
import Verif.Spec.Buffer
import Verif.Spec.Auth
import Verif.Spec.Util
/-
Runs of the whole daemon.
-/
namespace Babel.Spec

/-- The prefixes have the right lengths, and the source prefix of an IPv4 prefix is at least 96 bits long. -/
def KeyFits (k : PKey) : Prop :=
  k.prefix_.length = 16 ∧ k.plen ≤ 128 ∧ k.srcPrefix.length = 16 ∧ k.srcPlen ≤ 128 ∧
    (isV4 k → k.isSS = true → 96 ≤ k.srcPlen)

instance (k : PKey) : Decidable (KeyFits k) := by unfold KeyFits; infer_instance

/-- Byte strings have the lengths the code relies on. -/
def SndFits : Snd → Prop
  | .ack _ _ => True
  | .challenge n => n.length = 8
  | .reply n => n.length ≤ 192
  | .hello _ _ _ _ => True
  | .update id k _ _ => id.length = 8 ∧ KeyFits k
  | .retraction _ => True
  | .ihu _ _ a _ => a.length = 16
  | .request k => ∀ k', k = some k' → KeyFits k'
  | .seqnoRequest k _ id _ => KeyFits k ∧ id.length = 8
  | .ensure n => n ≤ 194
  | .flush => True

/-- The prefixes are normalised and the source prefix, if any, is of the family of the destination. -/
def Proper (k : PKey) : Prop := KeyOk k ∧ canonical k = k

/-- What is assumed of the configuration: byte strings have the right lengths, and packets can be signed on interfaces
which have a key. -/
structure DCfgOk (e : DCfg) : Prop where
  myid : e.node.myid.length = 8
  nonces : ∀ i n, (e.nonces i n).1.length = 8
  indices : ∀ i n x, (e.orc i).rand n = some x → x.length = 8
  penalty : ∀ i, (e.ifs i).maxRttPenalty < 2147483648
  ipv4 : ∀ i x, (e.ifs i).ipv4 = some x → x.length = 4
  signs : ∀ i k, (e.ifs i).key = some k → k.none = false →
    (e.ifs i).ll ≠ [] ∧ ∀ s d h b, ∃ m, k.mac s d h b = some m ∧ m.length ≤ 32

/-- A daemon that has just been started. -/
structure DStart (d : Daemon) : Prop where
  st : ∃ now q ifs nc rand kres, d.st = St.init now q ifs nc rand kres ∧ TvOk now ∧ 0 < micros now ∧ ∀ f ∈ ifs, f.queue = []
  nbrs : d.nbrs = []
  links : ∀ i, FreshLink (d.link i)
  fresh : ∀ i, d.fresh i = 1

/-- The packet comes in on an interface with a key, and is not correctly signed. -/
def Unsigned (e : DCfg) (n : NeighId) (buf : Bytes) (len : Nat) (dst : Bytes) : Prop :=
  ∃ k, (e.ifs (e.node.ifOf n)).key = some k ∧ (e.ifs (e.node.ifOf n)).acceptBad = false ∧
    ¬ Signed k (e.addr n) dst (buf.take len)

/-- The requests in the packet are for destinations in `P`. -/
def Asks (P : PKey → Prop) (E : PEnv) (buf : Bytes) (len : Nat) : Prop :=
  ∀ st items, parsePacket E buf len = some (st, items) →
    (∀ k, Item.request k ∈ items → P k) ∧ ∀ k h q id, Item.seqnoRequest k h q id ∈ items → P k

/-- What is assumed of an event.
* Packets fit in the receive buffer, which has room for a header; unless they are unsigned, the destinations requested
  in them are in `P`.
* The destinations of redistributed routes are in `X`.
* Hellos and IHUs are as `Q` says.
* Only interfaces without a key go down (otherwise packets to single neighbours could not be signed), and the MTU of an
  interface that comes up is at most 65536. -/
def DEvOk (e : DCfg) (P X : PKey → Prop) (Q : Snd → Prop) : DEv → Prop
  | .packet n buf len dst => 4 ≤ buf.length ∧ len ≤ buf.length ∧ (Unsigned e n buf len dst ∨ Asks P (penvOf e n) buf len)
  | .checkNbr _ => True
  | .node (.tick t) => TvOk t ∧ 0 < micros t
  | .node (.kernelRoute _ kr) => X (redistribute e.node kr).key
  | .node (.checkXroutes krs _) => ∀ kr ∈ krs, X (redistribute e.node kr).key
  | .node _ => True
  | .say _ _ op => Q op
  | .down i => (e.ifs i).key = none
  | .up _ mtu _ _ => mtu ≤ 65536

/-- No update has been written to the buffer since it was last flushed, so that no prefix, router-id or next hop can be
left out of the next one. -/
def Unprimed (b : Buf) : Prop := b.id = none ∧ b.nh = none ∧ b.prefix_ = none

/-- As `KeyFits`, where a prefix in ::ffff:0:0/96 has a source prefix of at least 96 bits. -/
def XFits (k : PKey) : Prop := KeyFits k ∧ (v4mapped k.prefix_ = true → 96 ≤ k.srcPlen)

instance (k : PKey) : Decidable (XFits k) := by unfold XFits; infer_instance

/-- The announcements made on interface `i`, as read by a neighbour, oldest first. -/
def toldBy (E : PEnv) (c : SIf) (i : IfId) (out : List Out) : List Item :=
  out.reverse.flatMap fun
    | .update i' id k q m => if i' = i then told E c false (.update id k q.toNat m) else []
    | _ => []

end Babel.Spec
