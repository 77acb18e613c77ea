import Verif.Model.Wire
import Verif.Model.Buffer
/-
Model of packet authentication: hmac.c:109-287, message.c:432-571 (`preparse_packet`), the
checks at the start of `parse_packet` (message.c:573-648) and the bookkeeping of
message.c:1305-1348.

The conventions are those of Model/Wire: a pointer is the rest of the receive buffer, and reading
outside the buffer is the outcome `none`.  The hash functions are abstract.  All of a packet
is handled at one instant `now`, and memory allocation does not fail.  The table
holds the neighbours on one interface, by address.
-/
namespace Babel

/-- The hash functions of rfc6234 and BLAKE2 (the latter with its key as first argument). -/
structure Digest where
  sha256 : Bytes → Bytes
  blake2s128 : Bytes → Bytes → Bytes

/-- interface.h:30-44: the type and the value of `struct key`. -/
inductive KeyCfg
  | sha256 (value : Bytes)
  | blake2s128 (value : Bytes)
  | none
deriving DecidableEq, Repr

/-- hmac.c:116, 134-151: the data fed to the hash functions. -/
def hmacData (port : Nat) (src dst header body : Bytes) : Bytes :=
  src ++ htons port ++ dst ++ htons port ++ header ++ body

/-- hmac.c:109-208 `compute_hmac`; `none` is the result -1. -/
def computeHmac (d : Digest) (port : Nat) (k : KeyCfg) (src dst header body : Bytes) : Option Bytes :=
  match k with
  | .sha256 v =>
    if v.length ≠ 64 then none
    else
      let ihash := d.sha256 (v.map (· ^^^ 0x36) ++ hmacData port src dst header body)
      some (d.sha256 (v.map (· ^^^ 0x5c) ++ ihash))
  | .blake2s128 v =>
    if v.length > 32 then none
    else some (d.blake2s128 v (hmacData port src dst header body))
  | .none => none

/-- A configured key, as seen by the model of the send buffers. -/
def KeyCfg.key (d : Digest) (port : Nat) (k : KeyCfg) : Key where
  none := k == .none
  mac := computeHmac d port k

/-- hmac.c:242-253 `compare_hmac`. -/
def compareHmac (k : Key) (src dst packet : Bytes) (bodylen : Int) (hmac : Bytes) (hmaclen : Nat) :
    Option Bool := do
  let header ← rdN packet 4
  let body ← rdN (packet.drop 4) bodylen.toNat
  match k.mac src dst header body with
  | none => return false
  | some m =>
    if m.length = hmaclen then
      let h ← rdN hmac hmaclen
      return m == h
    else return false

/-- hmac.c:264-286: the loop of `check_hmac`; `m` is `packet + i`, `left` is `packetlen - i`. -/
def checkHmacLoop (k : Key) (src dst packet : Bytes) (bodylen : Int) :
    Nat → Bytes → Int → Int → Option Int
  | 0, _, _, _ => none
  | fuel + 1, m, left, rc =>
    if left ≤ 0 then some rc
    else if 2 > left then some rc
    else do
      let len ← rd m 1
      let ty ← rd m 0
      if ty = 16 then
        if (len : Int) + 2 > left then return -1
        else
          let ok ← compareHmac k src dst packet bodylen (m.drop 2) len
          if ok then return 1
          else checkHmacLoop k src dst packet bodylen fuel (m.drop (len + 2)) (left - (len + 2)) 0
      else checkHmacLoop k src dst packet bodylen fuel (m.drop (len + 2)) (left - (len + 2)) rc

/-- hmac.c:255-287 `check_hmac`. -/
def checkHmac (k : Key) (src dst packet : Bytes) (packetlen : Nat) (bodylen : Int) : Option Int :=
  let i := (bodylen + 4).toNat
  checkHmacLoop k src dst packet bodylen (packetlen + 1) (packet.drop i) (packetlen - (bodylen + 4)) (-1)

/-- neighbour.h:50-56; the defaults are those of `find_neighbour` (neighbour.c:94-114).
`index` is `none` when `index_len` is -1. -/
structure NAuth where
  index : Option Bytes := none
  pcM : Bytes := [0, 0, 0, 0]
  pcU : Bytes := [0, 0, 0, 0]
  nonce : Bytes := [0, 0, 0, 0, 0, 0, 0, 0]
  deadline : Timeval := ⟨0, 0⟩
  requestLimit : Timeval := ⟨0, 0⟩
  replyLimit : Timeval := ⟨0, 0⟩
deriving DecidableEq, Repr

/-- The local variables of `preparse_packet`: `pc` and `index`, `nonce`, `challenge_success`;
`ent` is the neighbour's entry in the neighbour table. -/
structure Scan where
  pc : Option (Bytes × Bytes) := none
  nonce : Option Bytes := none
  success : Bool := false
  ent : Option NAuth := none
deriving DecidableEq, Repr

/-- message.c:460-479: a PC TLV; the Boolean is false if the loop is left. -/
def scanPc (s : Scan) (m : Bytes) (len : Nat) : Option (Scan × Bool) :=
  if s.pc.isSome then some (s, true)
  else if len < 4 then some (s, false)
  else if len > 36 then some (s, false)
  else do
    let pc ← rdN (m.drop 2) 4
    let index ← rdN (m.drop 6) (len - 4)
    return ({ s with pc := some (pc, index) }, true)

/-- message.c:480-495: a challenge request. -/
def scanRequest (mc : Bool) (s : Scan) (m : Bytes) (len : Nat) : Option (Scan × Bool) :=
  if mc then some (s, true)
  else if len > 192 then some (s, false)
  else do
    let nonce ← rdN (m.drop 2) len
    return ({ s with nonce := some nonce }, true)

/-- message.c:496-524: a challenge reply. -/
def scanReply (now : Timeval) (s : Scan) (m : Bytes) (len : Nat) : Option (Scan × Bool) :=
  if len > 192 then some (s, false)
  else
    let a := s.ent.getD {}
    let s := { s with ent := some a }
    if timevalCompare now a.deadline > 0 then some (s, true)
    else if len = 8 then do
      let b ← rdN (m.drop 2) len
      if a.nonce = b then
        return ({ s with success := true, ent := some { a with deadline := ⟨0, 0⟩ } }, true)
      else return (s, true)
    else some (s, true)

/-- message.c:460-526. -/
def scanTlv (mc : Bool) (now : Timeval) (s : Scan) (ty : Nat) (m : Bytes) (len : Nat) :
    Option (Scan × Bool) :=
  if ty = 17 then scanPc s m len
  else if ty = 18 then scanRequest mc s m len
  else if ty = 19 then scanReply now s m len
  else some (s, true)

/-- message.c:443-527: the loop of `preparse_packet`; `m` is `body + 4 + i` and `left` is
`bodylen - i`. -/
def scanBody (mc : Bool) (now : Timeval) : Nat → Bytes → Int → Scan → Option Scan
  | 0, _, _, _ => none
  | fuel + 1, m, left, s =>
    if left ≤ 0 then some s
    else do
      let ty ← rd m 0
      if ty = 0 then scanBody mc now fuel (m.drop 1) (left - 1) s
      else if 2 > left then return s
      else
        let len ← rd m 1
        if (len : Int) + 2 > left then return s
        else
          let (s, go) ← scanTlv mc now s ty m len
          if go then scanBody mc now fuel (m.drop (len + 2)) (left - (len + 2)) s
          else return s

/-- What authentication decides about a packet: it is dropped, it is accepted without any check of
its counter, or it is accepted because its counter is newer, or because it answers a
challenge. -/
inductive Verdict
  | dropped | unchecked | newer | answered
deriving DecidableEq, Repr

/-- A message put into the sender's unicast buffer. -/
inductive Challenge
  | request (nonce : Bytes)
  | reply (nonce : Bytes)
deriving DecidableEq, Repr

/-- The neighbours on the interface, and the number of calls of `read_random_bytes`. -/
structure AState where
  tab : Bytes → Option NAuth := fun _ => none
  draws : Nat := 0

/-- The n-th call of `read_random_bytes` leaves these bytes in the buffer, and succeeds if the
Boolean is true. -/
abbrev Nonces := Nat → Bytes × Bool

/-- message.c:1305-1329 `send_challenge_request`; the buffering of the TLV is
`bufferChallenge` in Model/Buffer. -/
def challengeRequest (r : Nonces) (now : Timeval) (draws : Nat) (a : NAuth) :
    NAuth × Nat × List Challenge :=
  if timevalCompare now a.requestLimit ≤ 0 then (a, draws, [])
  else
    let a := { a with nonce := (r draws).1 }
    if (r draws).2 then
      ({ a with deadline := timevalAddMsec now 30000, requestLimit := timevalAddMsec now 300 },
        draws + 1, [.request a.nonce])
    else (a, draws + 1, [])

/-- message.c:1331-1348 `send_challenge_reply`. -/
def challengeReply (now : Timeval) (nonce : Bytes) (a : NAuth) : NAuth × List Challenge :=
  if timevalCompare now a.replyLimit ≤ 0 then (a, [])
  else ({ a with replyLimit := timevalAddMsec now 300 }, [.reply nonce])

/-- `memcmp(a, b, 4) <= 0` for arrays of the same length. -/
def memcmpLe : Bytes → Bytes → Bool
  | x :: xs, y :: ys => if x = y then memcmpLe xs ys else x < y
  | _, _ => true

/-- message.c:529-561: the verdict on the packet, given its counter and index.  The result also
says whether a pending challenge request is to be forgotten. -/
def judge (r : Nonces) (mc : Bool) (now : Timeval) (draws : Nat) (success : Bool) (pc index : Bytes)
    (a : NAuth) : NAuth × Nat × Verdict × List Challenge × Bool :=
  if success then ({ a with index := some index, pcM := pc, pcU := pc }, draws, .answered, [], false)
  else if a.index ≠ some index then
    let (a, draws, out) := challengeRequest r now draws a
    (a, draws, .dropped, out, false)
  else if memcmpLe pc (if mc then a.pcM else a.pcU) then (a, draws, .dropped, [], true)
  else (if mc then { a with pcM := pc } else { a with pcU := pc }, draws, .newer, [], false)

/-- message.c:563-568: answering a challenge request. -/
def answer (now : Timeval) (nonce : Option Bytes) (ent : Option NAuth) : Option NAuth × List Challenge :=
  match nonce with
  | none => (ent, [])
  | some n => let (a, out) := challengeReply now n (ent.getD {}); (some a, out)

/-- message.c:529-570: what `preparse_packet` does after its loop. -/
def finish (r : Nonces) (mc : Bool) (now : Timeval) (draws : Nat) (s : Scan) :
    Option NAuth × Nat × Verdict × List Challenge :=
  match s.pc with
  | none => let (ent, out) := answer now s.nonce s.ent; (ent, draws, .dropped, out)
  | some (pc, index) =>
    let (a, draws, v, out, forget) := judge r mc now draws s.success pc index (s.ent.getD {})
    let (ent, out') := answer now (if forget then none else s.nonce) (some a)
    (ent, draws, v, out ++ out')

/-- message.c:432-571 `preparse_packet`; `mc` is the test `to[0] == 0xff`. -/
def preparse (r : Nonces) (mc : Bool) (now : Timeval) (draws : Nat) (ent : Option NAuth) (m : Bytes)
    (bodylen : Int) : Option (Option NAuth × Nat × Verdict × List Challenge) := do
  let s ← scanBody mc now (bodylen.toNat + 1) m bodylen { ent := ent }
  return finish r mc now draws s

/-- The interface's key and `IF_ACCEPT_BAD_SIGNATURES`. -/
structure RIf where
  key : Option Key
  acceptBad : Bool

/-- A received packet: the receive buffer, the length of the packet, its destination address; the
sender's address is in the environment of the decoder. -/
structure Rx where
  env : PEnv
  buf : Bytes
  len : Nat
  dst : Bytes
  now : Timeval

/-- The effects of a packet. -/
structure Effect where
  verdict : Verdict := .dropped
  challenges : List Challenge := []
  items : List Item := []
deriving DecidableEq, Repr

def AState.set (s : AState) (a : Bytes) (ent : Option NAuth) : AState :=
  { s with tab := fun x => if x = a then ent else s.tab x }

/-- message.c:644-1065: `find_neighbour`, then the TLVs of the packet. -/
def deliver (p : Rx) (bodylen : Int) (s : AState) (v : Verdict) (out : List Challenge) :
    Option (AState × Effect) := do
  let (_, items) ← parseBody p.env (bodylen.toNat + 1) (p.buf.drop 4) bodylen {}
  return (s.set p.env.sender (some ((s.tab p.env.sender).getD {})), ⟨v, out, items⟩)

/-- message.c:573-1065 `parse_packet`. -/
def receive (r : Nonces) (c : RIf) (p : Rx) (s : AState) : Option (AState × Effect) := do
  match ← packetHeader p.env p.buf p.len with
  | none => return (s, {})
  | some bodylen =>
    match c.key with
    | none => deliver p bodylen s .unchecked []
    | some k =>
      let rc ← checkHmac k p.env.sender p.dst p.buf p.len bodylen
      if rc ≤ 0 then
        if c.acceptBad then deliver p bodylen s .unchecked []
        else return (s, {})
      else
        let mc := p.dst.head? == some 255
        let (ent, draws, v, out) ← preparse r mc p.now s.draws (s.tab p.env.sender) (p.buf.drop 4) bodylen
        let s := { s.set p.env.sender ent with draws := draws }
        if v = .dropped then return (s, ⟨v, out, []⟩)
        else deliver p bodylen s v out

/-- What happens on an interface, as far as authentication is concerned: a packet is received
(the configuration of the interface may change between packets), or a neighbour is flushed
(neighbour.c:57-75). -/
inductive AEv
  | packet (c : RIf) (p : Rx)
  | flush (addr : Bytes)

/-- One event. -/
def astep (r : Nonces) (s : AState) : AEv → Option (AState × Effect)
  | .packet c p => receive r c p s
  | .flush a => some (s.set a none, {})

/-- A history, with the effect of each event. -/
def arun (r : Nonces) : AState → List AEv → Option (AState × List Effect)
  | s, [] => some (s, [])
  | s, ev :: evs => do
    let (s, o) ← astep r s ev
    let (s, os) ← arun r s evs
    return (s, o :: os)

end Babel
