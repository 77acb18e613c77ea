import Verif.Model.Buffer
import Verif.Spec.Wire
/-
What the messages written to a send buffer mean to a receiver.
-/
namespace Babel.Spec

/-- An item without the time at which a hello was sent. -/
def untimed : Item → Item
  | .hello u s i _ => .hello u s i none
  | x => x

/-- What a receiver learns from a packet (timestamps apart). -/
def heard (e : PEnv) (p : Bytes) : List Item :=
  match parsePacket e p p.length with
  | some (_, items) => items.map untimed
  | none => []

/-- A normalised prefix. -/
def PrefixOk (p : Bytes) (plen : Nat) : Prop :=
  p.length = 16 ∧ plen ≤ 128 ∧ normalizePrefix p plen = p

/-- The destination of the key is an IPv4 prefix. -/
def isV4 (k : PKey) : Prop := 96 ≤ k.plen ∧ v4mapped k.prefix_ = true

instance (k : PKey) : Decidable (isV4 k) := by unfold isV4; infer_instance

/-- The key consists of normalised prefixes, the source prefix of an IPv4 prefix being an IPv4
prefix. -/
def KeyOk (k : PKey) : Prop :=
  PrefixOk k.prefix_ k.plen ∧
  (k.isSS = true → PrefixOk k.srcPrefix k.srcPlen ∧
    (isV4 k → 96 ≤ k.srcPlen ∧ v4mapped k.srcPrefix = true))

/-- The key, where an arbitrary source is represented by 0.0.0.0/0 or ::/0 according to the family
of the destination. -/
def canonical (k : PKey) : PKey :=
  if k.isSS then k
  else if isV4 k then { k with srcPrefix := v4prefix, srcPlen := 96 }
  else { k with srcPrefix := zeroes16, srcPlen := 0 }

/-- Values that fit in the types of the C arguments. -/
def SndOk : Snd → Prop
  | .ack n i => n < 65536 ∧ i < 65536
  | .challenge n => n.length = 8
  | .reply n => n.length ≤ 192
  | .hello s _ _ _ => s < 65536
  | .update id k s m => id.length = 8 ∧ KeyOk k ∧ s < 65536 ∧ m < 65536
  | .retraction s => s < 65536
  | .ihu r i a rtt => r < 65536 ∧ i < 65536 ∧ a.length = 16 ∧
      ∀ t1 t2, rtt = some (t1, t2) → t1 < 4294967296 ∧ t2 < 4294967296
  | .request k => ∀ k', k = some k' → KeyOk k'
  | .seqnoRequest k s id h => KeyOk k ∧ s < 65536 ∧ id.length = 8 ∧ h < 256
  | .ensure n => n ≤ 194
  | .flush => True

/-- Source-specific messages are not sent in RFC 6126 compatibility mode. -/
def sendable (c : SIf) (k : PKey) : Prop := ¬ (k.isSS = true ∧ c.rfc6126 = true)

instance (c : SIf) (k : PKey) : Decidable (sendable c k) := by unfold sendable; infer_instance

/-- The receiver is told about `k`, given the filter and the addresses of the sender: IPv4 prefixes
are announced with an IPv4 next hop or, if the sender does not have one, with an IPv6 next hop if
both the interface and the receiver can handle this. -/
def announced (e : PEnv) (c : SIf) (id : Bytes) (k : PKey) : Prop :=
  c.up = true ∧ sendable c k ∧ c.filter id k < 65535 ∧
    (isV4 k → c.ipv4.isSome = true ∨ (c.v4viav6 = true ∧ e.v4viav6 = true))

instance (e : PEnv) (c : SIf) (id : Bytes) (k : PKey) : Decidable (announced e c id k) := by
  unfold announced; infer_instance

/-- The next hop of an announcement. -/
def hopFor (e : PEnv) (c : SIf) (k : PKey) : Bytes :=
  match c.ipv4 with
  | some ip => if isV4 k then v4tov6 ip else e.sender
  | none => e.sender

/-- What the operation tells a receiver; `pending` says whether there is a hello in the buffer. -/
def told (e : PEnv) (c : SIf) (pending : Bool) : Snd → List Item
  | .hello s i u force =>
    if pending = true ∧ force = false then [] else [.hello u s (min i 65535) none]
  | .update id k s m =>
    if announced e c id k then
      [.update (some id) (canonical k) s (min (m + c.filter id k) 65535)
        ((c.updateInterval + 5) / 10 % 65536) (some (hopFor e c k))]
    else []
  | .retraction _ => [.retractAll]
  | .ihu r i a _ => if e.isOurs a then [.ihu r i] else []
  | .request none => [.requestAll]
  | .request (some k) => if sendable c k then [.request (canonical k)] else []
  | .seqnoRequest k s id h => if sendable c k then [.seqnoRequest (canonical k) h s id] else []
  | .ack _ _ | .challenge _ | .reply _ | .ensure _ | .flush => []

/-- The interface can sign packets. -/
def Signs (c : SIf) : Prop :=
  ∀ k, c.key = some k → k.none = false →
    c.ll ≠ [] ∧ ∀ s d h b, ∃ m, k.mac s d h b = some m ∧ m.length ≤ 32

/-- The trailer of a packet with body `body` sent to `dst`: the MAC if the interface has a key,
then padding if the MTU is to be probed. -/
def TrailerOk (c : SIf) (dst : Bytes) (size : Nat) (body tr : Bytes) : Prop :=
  ∃ mac pad, tr = mac ++ encAll pad ∧
    (∀ t ∈ pad, t.Ok ∧ (t = .pad1 ∨ ∃ n, t = .tlv 1 (List.replicate n 0))) ∧
    (c.probe = false → pad = []) ∧ (c.probe = true → body.length + tr.length = size) ∧
    match c.key with
    | none => mac = []
    | some k =>
      if k.none then mac = []
      else ∃ src m, c.ll.head? = some src ∧ k.mac src dst ((packet body []).take 4) body = some m ∧
        mac = (Tlv.tlv 16 m).enc

/-- The packet carries counter `n` and index `index`. -/
def Carries (p : Bytes) (n : Nat) (index : Bytes) : Prop :=
  ∃ ts tr, p = packet (encAll (ts ++ [.tlv 17 (be32 n ++ index)])) tr ∧ n < 4294967296 ∧
    (encAll (ts ++ [.tlv 17 (be32 n ++ index)])).length < 65536 ∧ index.length = 8 ∧
    ∀ t ∈ ts, t.Ok ∧ ∀ b, t ≠ .tlv 17 b

/-- The circumstances of a run: whether the interface has a key (`a`) and sends timestamps (`tf`)
does not change, signing works, and the arguments have the right types. -/
def Steady (a tf : Bool) (o : Orc) (acts : List Act) : Prop :=
  (∀ n i, o.rand n = some i → i.length = 8) ∧
  ∀ x ∈ acts, x.c.key.isSome = a ∧ x.c.timestamps = tf ∧ Signs x.c ∧
    (∀ i, x.c.ipv4 = some i → i.length = 4) ∧ SndOk x.op

/-- An interface that has just come up for the first time, with its neighbours. -/
def FreshLink (l : Link) : Prop :=
  (∀ i, 256 ≤ (l.bufs i).size ∧ (l.bufs i).size < 65536 ∧ (l.bufs i).bytes = [] ∧ (l.bufs i).id = none ∧
    (l.bufs i).nh = none ∧ (l.bufs i).prefix_ = none ∧ (l.bufs i).hello = none) ∧
  l.pc = 0 ∧ l.index.length = 8 ∧ l.out = []

/-- The packets sent from buffer `i`. -/
def sentOn (l : Link) (i : Nat) : List Bytes := (l.out.filter fun p => p.1 == i).map (·.2)

/-- What a receiver would learn from the contents of buffer `i`. -/
def unsent (e : PEnv) (l : Link) (i : Nat) : List Item := heard e (packet (l.bufs i).bytes [])

def isHello : Item → Bool
  | .hello _ _ _ _ => true
  | _ => false

/-- An announcement, retraction, or retraction of all routes. -/
def isUpdate : Item → Bool
  | .update _ _ _ _ _ _ => true
  | .retractAll => true
  | _ => false

/-- What a run tells the receivers of buffer `i`. -/
def toldOn (o : Orc) (e : PEnv) (i : Nat) : Link → List Act → List Item
  | _, [] => []
  | l, x :: xs =>
    (if x.i = i then told e x.c ((unsent e l i).any isHello) x.op else []) ++
    match l.step o x.c x.now x.i x.op with
    | some l' => toldOn o e i l' xs
    | none => []

/-- The announcements and retractions handed to buffer `i`. -/
def announcements (e : PEnv) (i : Nat) (acts : List Act) : List Item :=
  acts.flatMap fun x =>
    if x.i = i then
      match x.op with
      | .update id k s m => told e x.c false (.update id k s m)
      | .retraction _ => [.retractAll]
      | _ => []
    else []

/-- The TLV `z` is in buffer `i`, or in the first packet sent from it after the packets `sent`. -/
def Waiting (z : Tlv) (i : Nat) (sent : List Bytes) (l' : Link) : Prop :=
  (sentOn l' i = sent ∧ ∃ ts, (l'.bufs i).bytes = encAll ts ∧ (∀ t ∈ ts, t.Ok) ∧ z ∈ ts) ∨
  ∃ p rest, sentOn l' i = sent ++ p :: rest ∧ ∃ ts tr, p = packet (encAll ts) tr ∧ (∀ t ∈ ts, t.Ok) ∧ z ∈ ts

/-- The TLVs `ts` contain at most one hello; if `tf`, it ends with a timestamp sub-TLV with the
time `now`. -/
def HelloAt (tf : Bool) (now : Timeval) (ts : List Tlv) : Prop :=
  (∀ ts1 b ts2, ts = ts1 ++ .tlv 4 b :: ts2 → (∀ x, Tlv.tlv 4 x ∉ ts1) ∧ (∀ x, Tlv.tlv 4 x ∉ ts2) ∧
    (tf = true → ∃ f, f.length = 6 ∧ b = f ++ (Tlv.tlv 3 (be32 (timeUs now))).enc))

end Babel.Spec
