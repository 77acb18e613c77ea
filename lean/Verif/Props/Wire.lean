import Verif.Lemmas.Wire6
/-
Decoding packets: C07 (memory safety), C08 (prefixes), C09 (containment of unknown or malformed
items) and C50 (meaning of each TLV).  The layout of packets is in Verif/Spec/Wire.lean.
-/
set_option linter.unusedSimpArgs false
set_option linter.unusedVariables false
namespace Babel
open Spec

namespace DemoWire
/-- A sender fe80::1, a node that is fe80::2, with v4-via-v6 support. -/
def env : PEnv := ⟨llprefix.take 8 ++ [0, 0, 0, 0, 0, 0, 0, 1],
  fun a => a == llprefix.take 8 ++ [0, 0, 0, 0, 0, 0, 0, 2], true⟩
def id1 : Bytes := [1, 2, 3, 4, 5, 6, 7, 8]
/-- 10.1.0.0/16 as an IPv6 prefix. -/
def ten1 : Bytes := v4prefix.take 12 ++ [10, 1, 0, 0]
end DemoWire
open DemoWire

/-! ### C07: memory safety

A read outside the buffer is the outcome `none` in the model, and so is running out of fuel. -/

/-- Parsing a packet of `n` bytes, which the receive buffer holds completely, reads only the bytes
of the buffer, and terminates. -/
theorem C07_parse (e : PEnv) (buffer : Bytes) (n : Nat) (h : 4 ≤ buffer.length) (hn : n ≤ buffer.length) :
    (parsePacket e buffer n).isSome := by
  unfold parsePacket
  obtain ⟨r, hr, hb⟩ := packetHeader_isSome (e := e) (p := buffer) (n := n) h
  rw [hr]
  simp only [Option.bind_eq_bind, Option.bind_some]
  cases r with
  | none => rfl
  | some b =>
    have := hb b rfl
    exact parseBody_isSome _ _ _ _ (by omega) (by simp; omega)

/-- A packet of at least four bytes is parsed without looking at anything but its own bytes. -/
theorem C07_packet (e : PEnv) (packet : Bytes) (h : 4 ≤ packet.length) :
    (parsePacket e packet packet.length).isSome := C07_parse e packet _ h (Nat.le_refl _)

/-- What is decoded does not depend on what follows the packet in the buffer. -/
theorem C07_stale (e : PEnv) (packet stale : Bytes) (h : 4 ≤ packet.length) :
    parsePacket e (packet ++ stale) packet.length = parsePacket e packet packet.length := by
  exact (parsePacket_below (e := e) (n := packet.length) ⟨stale, rfl⟩).eq (C07_packet e packet h)

/-- Finding: a datagram shorter than the packet header is parsed by looking at bytes beyond its
end (left over from earlier packets). -/
theorem C07_short_reads_outside : parsePacket env [42, 2] 2 = none := by decide +kernel

/-- Still, whatever these bytes are, such a datagram has no effect. -/
theorem C07_short_harmless (e : PEnv) (buffer : Bytes) (n : Nat) (h : 4 ≤ buffer.length) (hn : n < 4) :
    parsePacket e buffer n = some ({}, []) := by
  unfold parsePacket
  obtain ⟨r, hr, hb⟩ := packetHeader_isSome (e := e) (p := buffer) (n := n) h
  rw [hr]
  simp only [Option.bind_eq_bind, Option.bind_some]
  cases r with
  | none => rfl
  | some b =>
    have := hb b rfl
    simp only []
    unfold parseBody
    rw [if_pos (by omega)]

/-- A hostile packet: an update claiming 200 bytes, in a packet claiming 65535. -/
example : (parsePacket env [42, 2, 255, 255, 8, 200, 1, 0x80, 32, 200] 10).isSome :=
  C07_packet env _ (by decide)

/-! ### C08: prefixes -/

/-- The decoder accepts exactly the encodings of prefixes, and returns the encoded prefix and the
number of bytes it occupies. -/
theorem C08_decode (ae plen omitted : Nat) (wire : Bytes) (dp : Option Bytes) (rc : Nat) (pfx : Bytes) :
    networkPrefix ae (some plen) omitted wire dp wire.length = some (some (rc, pfx)) ↔
      rc ≤ wire.length ∧ Encoded ae plen omitted dp (wire.take rc) pfx :=
  networkPrefix_iff (Nat.le_refl _)

/-- The same for addresses. -/
theorem C08_address (ae : Nat) (wire : Bytes) (rc : Nat) (addr : Bytes) :
    networkAddress ae wire wire.length = some (some (rc, addr)) ↔
      rc ≤ wire.length ∧ EncodedAddr ae (wire.take rc) addr :=
  networkAddress_iff (Nat.le_refl _)

/-- An encoding denotes one prefix only. -/
theorem C08_unique {ae plen omitted : Nat} {dp : Option Bytes} {wire p q : Bytes}
    (h1 : Encoded ae plen omitted dp wire p) (h2 : Encoded ae plen omitted dp wire q) : p = q := by
  have e1 := networkPrefix_good h1 [] (len := wire.length) (by simp)
  have e2 := networkPrefix_good h2 [] (len := wire.length) (by simp)
  rw [e1] at e2
  simpa using e2

/-- Decoded prefixes are within bounds and normalised: no bit is set after the length. -/
theorem C08_normalised {ae plen omitted : Nat} {dp : Option Bytes} {wire p : Bytes}
    (h : Encoded ae plen omitted dp wire p) :
    p.length = 16 ∧ plen ≤ (if ae = 1 ∨ ae = 4 then 32 else 128) ∧
      (ae ≠ 0 → normalizePrefix p (plen + if ae = 1 ∨ ae = 4 then 96 else 0) = p) := by
  refine ⟨h.length, ?_, ?_⟩
  · cases h with
    | v4 ae _ _ _ h => rw [if_pos h]; assumption
    | v4omit ae _ _ _ _ h => rw [if_pos h]; assumption
    | _ => simpa
  · intro h0
    cases h with
    | wildcard => exact absurd rfl h0
    | v4 ae _ _ _ h h1 h2 =>
      rw [if_pos h, Nat.add_comm]
      refine C04_normalize_idem _ _ (zeroPadded_length ?_)
      simp [h2, bytesOf, v4prefix]; omega
    | v4omit ae _ _ _ _ h h1 h2 h3 =>
      rw [if_pos h, Nat.add_comm plen 96]
      refine C04_normalize_idem _ _ (zeroPadded_length ?_)
      simp [bytesOf] at h3 ⊢; omega
    | v6 _ _ _ h1 h2 =>
      refine C04_normalize_idem _ _ (zeroPadded_length ?_)
      simp [h2, bytesOf]; omega
    | v6omit _ _ _ _ h1 h2 h3 =>
      refine C04_normalize_idem _ _ (zeroPadded_length ?_)
      simp [bytesOf] at h3 ⊢; omega
    | linkLocal _ _ _ _ h1 h2 =>
      refine C04_normalize_idem _ _ (zeroPadded_length ?_)
      simp [bytesOf, llprefix] at h2 ⊢; omega

/-- 10.1.128.0/17 of which two bytes are omitted; the wire byte has a stray bit. -/
example : Encoded 1 17 2 (some ten1) [0x90] (v4prefix.take 12 ++ [10, 1, 128, 0]) := by
  have := Encoded.v4omit 1 17 2 [0x90] ten1 (.inl rfl) (by decide) (by decide) (by decide) (by decide)
  have e : normalizePrefix (zeroPadded (ten1.take (12 + 2) ++ [0x90])) (96 + 17) =
      v4prefix.take 12 ++ [10, 1, 128, 0] := by decide
  rwa [e] at this
/-- 2001:db8::/33 -/
example : Encoded 2 33 0 none [0x20, 0x01, 0x0d, 0xb8, 0x80] ([0x20, 0x01, 0x0d, 0xb8, 0x80] ++ List.replicate 11 0) := by
  have := Encoded.v6 33 [0x20, 0x01, 0x0d, 0xb8, 0x80] none (by decide) (by decide)
  have e : normalizePrefix (zeroPadded [0x20, 0x01, 0x0d, 0xb8, 0x80]) 33 =
    [0x20, 0x01, 0x0d, 0xb8, 0x80] ++ List.replicate 11 0 := by decide
  rwa [e] at this

/-! ### C50: what packets mean -/

/-- A packet is decoded TLV by TLV: padding does nothing, and each TLV acts on the parser state
left by the previous ones. -/
theorem C50_sequence (e : PEnv) (ts : List Tlv) (tail tr : Bytes) (he : linklocal e.sender)
    (hok : ∀ t ∈ ts, t.Ok) (ht : Truncated tail) (hl : (encAll ts ++ tail).length < 65536) :
    decode e [] tail tr = some ({}, []) ∧
    (∀ ts', ts = ts' ++ [.pad1] → decode e ts tail tr = decode e ts' tail tr) ∧
    (∀ ts' ty b, ts = ts' ++ [.tlv ty b] → ∃ s items s' items',
      decode e ts' tail tr = some (s, items) ∧ runTlv e s ty b = some (s', items') ∧
      decode e ts tail tr = some (s', items ++ items')) := by
  refine ⟨?_, ?_, ?_⟩
  · refine decode_many e [] tail tr he (by simp) ht ?_
    simp [encAll] at hl ⊢; omega
  · rintro ts' rfl
    rw [decode_many e _ tail tr he hok ht hl, decode_many e ts' tail tr he (fun t h => hok t (by simp [h])) ht
      (by rw [encAll_append] at hl; simp at hl ⊢; omega), many_append]
    simp [many]
  · rintro ts' ty b rfl
    rw [decode_many e _ tail tr he hok ht hl, decode_many e ts' tail tr he (fun t h => hok t (by simp [h])) ht
      (by rw [encAll_append] at hl; simp at hl ⊢; omega), many_append]
    refine ⟨_, _, (one e (many e {} ts').1 ty b).1, (one e (many e {} ts').1 ty b).2, rfl, runTlv_one _ _ _ _, ?_⟩
    simp only [many, List.append_nil]

section
variable (e : PEnv) (s : PState)

/-- An acknowledgment request. -/
theorem C50_ackReq (res nonce interval : Nat) (subs : Bytes) (h1 : nonce < 65536) (h2 : interval < 65536) :
    (Readable [] subs → runTlv e s 2 (be16 res ++ be16 nonce ++ be16 interval ++ subs) =
      some (s, [.ackReq nonce interval])) ∧
    (¬ Readable [] subs → runTlv e s 2 (be16 res ++ be16 nonce ++ be16 interval ++ subs) = some (s, [])) :=
  ackReq_aux e s res nonce interval subs h1 h2

/-- An acknowledgment. -/
theorem C50_ack (body : Bytes) : runTlv e s 3 body = some (s, []) := ack_aux e s body

/-- A hello: bit 15 of the flags tells whether it is a unicast hello; its timestamp is recorded. -/
theorem C50_hello (flags seqno interval : Nat) (subs : Bytes) (h0 : flags < 65536) (h1 : seqno < 65536)
    (h2 : interval < 65536) :
    (∀ ss, SubTlvs subs ss → Understood [] ss →
      runTlv e s 4 (be16 flags ++ be16 seqno ++ be16 interval ++ subs) =
        some ({ s with haveHelloRtt := s.haveHelloRtt || (helloTime ss).isSome },
          [.hello (decide (32768 ≤ flags)) seqno interval (helloTime ss)])) ∧
    (¬ Readable [] subs → runTlv e s 4 (be16 flags ++ be16 seqno ++ be16 interval ++ subs) = some (s, [])) :=
  hello_aux e s flags seqno interval subs h0 h1 h2

/-- An IHU concerns us when it carries our address or no address. -/
theorem C50_ihu (ae res : UInt8) (txcost interval : Nat) (wire addr subs : Bytes) (h1 : txcost < 65536)
    (h2 : interval < 65536) (ha : EncodedAddr ae.toNat wire addr) :
    (ae = 0 ∨ e.isOurs addr = true → ∀ ss, SubTlvs subs ss → Understood [] ss →
      runTlv e s 5 ([ae, res] ++ be16 txcost ++ be16 interval ++ wire ++ subs) =
        some ({ s with echo := (ihuTimes ss).getD s.echo }, [.ihu txcost interval])) ∧
    (¬ (ae = 0 ∨ e.isOurs addr = true) ∨ ¬ Readable [] subs →
      runTlv e s 5 ([ae, res] ++ be16 txcost ++ be16 interval ++ wire ++ subs) = some (s, [])) :=
  ihu_aux e s ae res txcost interval wire addr subs h1 h2 ha

/-- An IHU whose address cannot be decoded is ignored. -/
theorem C50_ihu_malformed (ae res : UInt8) (txcost interval : Nat) (rest : Bytes) (h1 : txcost < 65536)
    (h2 : interval < 65536) (ha : ¬ ∃ wire subs addr, rest = wire ++ subs ∧ EncodedAddr ae.toNat wire addr) :
    runTlv e s 5 ([ae, res] ++ be16 txcost ++ be16 interval ++ rest) = some (s, []) :=
  ihu_bad e s ae res txcost interval rest h1 h2 ha

/-- A router-id, remembered for the following updates. -/
theorem C50_routerId (res : Nat) (id subs : Bytes) (h : id.length = 8) :
    runTlv e s 6 (be16 res ++ id ++ subs) = some ({ s with routerId := some id }, []) :=
  routerId_aux e s res id subs h

/-- A next hop, remembered for the following updates. -/
theorem C50_nh (ae res : UInt8) (wire addr subs : Bytes) (ha : EncodedAddr ae.toNat wire addr) :
    runTlv e s 7 ([ae, res] ++ wire ++ subs) =
      some (if ae = 1 then { s with v4Nh := some addr } else if ae = 0 then s else { s with v6Nh := some addr }, []) :=
  nh_aux e s ae res wire addr subs ha

/-- A next hop that cannot be decoded makes us forget the next hops; one with an unknown address
encoding is ignored. -/
theorem C50_nh_malformed (ae res : UInt8) (rest : Bytes)
    (ha : ¬ ∃ wire subs addr, rest = wire ++ subs ∧ EncodedAddr ae.toNat wire addr) :
    runTlv e s 7 ([ae, res] ++ rest) =
      some (if ae ≤ 4 then { s with v4Nh := none, v6Nh := none } else s, []) :=
  nh_bad e s ae res rest ha

/-- An update. -/
theorem C50_update (ae flags plen omitted : UInt8) (interval seqno metric : Nat) (wire subs pfx : Bytes)
    (h1 : interval < 65536) (h2 : seqno < 65536) (h3 : metric < 65536)
    (hae : ae ≤ 4) (h4 : ae = 4 → e.v4viav6 = true)
    (hom : omitted = 0 ∨ (defaultFor s ae.toNat).isSome)
    (hp : Encoded ae.toNat plen.toNat omitted.toNat (defaultFor s ae.toNat) wire pfx) :
    let s' := withId (withDefault s flags.toNat ae.toNat pfx) flags.toNat ae.toNat pfx
    (∀ src, ReadSource ae.toNat subs src →
      runTlv e s 8 (updateFixed ae flags plen omitted interval seqno metric ++ wire ++ subs) =
        some (s', announces e s' ae.toNat plen.toNat pfx src seqno metric interval)) ∧
    ((¬ ∃ src, ReadSource ae.toNat subs src) →
      runTlv e s 8 (updateFixed ae flags plen omitted interval seqno metric ++ wire ++ subs) = some (s', [])) := by
  have := update_aux e s ae flags plen omitted interval seqno metric wire subs pfx h1 h2 h3 hae h4 hom hp
  simp only [] at this ⊢
  rw [this]
  constructor
  · intro src hs
    rw [updateItems_good e _ h3 hp hs]; rfl
  · intro hs
    rw [updateItems_bad e _ hs]; rfl

/-- An update whose prefix cannot be decoded announces nothing.  If it was meant to set the
default prefix, the default prefixes are forgotten. -/
theorem C50_update_malformed (ae flags plen omitted : UInt8) (interval seqno metric : Nat) (rest : Bytes)
    (h1 : interval < 65536) (h2 : seqno < 65536) (h3 : metric < 65536)
    (hae : ae ≤ 4) (h4 : ae = 4 → e.v4viav6 = true)
    (hp : ¬ ((omitted = 0 ∨ (defaultFor s ae.toNat).isSome) ∧ ∃ wire subs pfx, rest = wire ++ subs ∧
      Encoded ae.toNat plen.toNat omitted.toNat (defaultFor s ae.toNat) wire pfx)) :
    runTlv e s 8 (updateFixed ae flags plen omitted interval seqno metric ++ rest) =
      some (if flags.toNat.testBit 7 then { s with v4Prefix := none, v6Prefix := none, v4v6Prefix := none } else s, []) :=
  update_bad e s ae flags plen omitted interval seqno metric rest h1 h2 h3 hae h4 hp

/-- An update with an unknown address encoding is ignored. -/
theorem C50_update_unknown (ae flags plen omitted : UInt8) (interval seqno metric : Nat) (rest : Bytes)
    (h : 4 < ae ∨ ae = 4 ∧ e.v4viav6 = false) :
    runTlv e s 8 (updateFixed ae flags plen omitted interval seqno metric ++ rest) = some (s, []) := by
  rw [run8]
  unfold tlvUpdate updateFixed
  simp only [List.append_assoc, be16_append, List.cons_append, List.nil_append, List.length_cons,
    Option.bind_eq_bind, Option.bind_some, rd_cons_succ, rd_cons_zero]
  rw [if_neg (by omega)]
  rcases h with h | ⟨rfl, h⟩
  · rw [if_pos]
    · rfl
    · rw [Bool.not_eq_true', Bool.eq_false_iff]
      intro hk
      rw [ofNat8_known] at hk
      rw [UInt8.lt_iff_toNat_lt] at h
      exact absurd h (Nat.not_lt.2 hk)
  · rw [if_neg (by decide), if_pos (by rw [h]; rfl)]; rfl

/-- A route request: with the wildcard address encoding it is a request for all routes. -/
theorem C50_request (ae plen : UInt8) (wire subs pfx : Bytes)
    (hp : Encoded ae.toNat plen.toNat 0 none wire pfx) :
    (∀ src, ReadSource ae.toNat subs src → runTlv e s 9 ([ae, plen] ++ wire ++ subs) =
      some (s, if ae = 0 then (if src.2 = 0 then [.requestAll] else [])
        else [.request ⟨pfx, plen.toNat + if ae = 1 ∨ ae = 4 then 96 else 0, src.1, src.2⟩])) ∧
    ((¬ ∃ src, ReadSource ae.toNat subs src) → runTlv e s 9 ([ae, plen] ++ wire ++ subs) = some (s, [])) := by
  refine ⟨?_, (request_aux e s ae plen wire subs pfx hp).2⟩
  intro src hs
  rw [(request_aux e s ae plen wire subs pfx hp).1 src hs]
  by_cases h0 : ae = 0
  · rw [if_pos h0, if_pos h0]
    have : isDefault src.1 src.2 = true ↔ src.2 = 0 := wild_default (by rw [h0] at hs; exact hs)
    by_cases h : src.2 = 0
    · rw [if_pos h, if_pos (this.2 h)]
    · rw [if_neg h, if_neg (fun h' => h (this.1 h'))]
  · rw [if_neg h0, if_neg h0]

/-- A route request whose prefix cannot be decoded is ignored. -/
theorem C50_request_malformed (ae plen : UInt8) (rest : Bytes)
    (hp : ¬ ∃ wire subs pfx, rest = wire ++ subs ∧ Encoded ae.toNat plen.toNat 0 none wire pfx) :
    runTlv e s 9 ([ae, plen] ++ rest) = some (s, []) := request_bad e s ae plen rest hp

/-- A seqno request. -/
theorem C50_seqnoRequest (ae plen hop res : UInt8) (seqno : Nat) (id wire subs pfx : Bytes)
    (hs : seqno < 65536) (hid : id.length = 8)
    (hp : Encoded ae.toNat plen.toNat 0 none wire pfx) :
    (∀ src, ReadSeqnoSource ae.toNat subs src →
      runTlv e s 10 ([ae, plen] ++ be16 seqno ++ [hop, res] ++ id ++ wire ++ subs) =
      some (s, [.seqnoRequest ⟨pfx, plen.toNat + if ae = 1 ∨ ae = 4 then 96 else 0, src.1, src.2⟩ hop.toNat seqno id])) ∧
    ((¬ ∃ src, ReadSeqnoSource ae.toNat subs src) →
      runTlv e s 10 ([ae, plen] ++ be16 seqno ++ [hop, res] ++ id ++ wire ++ subs) = some (s, [])) :=
  seqno_aux e s ae plen hop res seqno id wire subs pfx hs hid hp

/-- A seqno request whose prefix cannot be decoded is ignored. -/
theorem C50_seqnoRequest_malformed (ae plen hop res : UInt8) (seqno : Nat) (id rest : Bytes)
    (hs : seqno < 65536) (hid : id.length = 8)
    (hp : ¬ ∃ wire subs pfx, rest = wire ++ subs ∧ Encoded ae.toNat plen.toNat 0 none wire pfx) :
    runTlv e s 10 ([ae, plen] ++ be16 seqno ++ [hop, res] ++ id ++ rest) = some (s, []) :=
  seqno_bad e s ae plen hop res seqno id rest hs hid hp

/-- TLVs that are too short for their fixed part are ignored, except that a router-id or a next hop
makes us forget the previous one, and an update the default prefixes unless it is long enough to
show that it does not set one. -/
theorem C50_short (ty : UInt8) (b : Bytes) :
    (ty = 2 ∨ ty = 4 ∨ ty = 5 → b.length < 6 → runTlv e s ty b = some (s, [])) ∧
    (ty = 9 → b.length < 2 → runTlv e s ty b = some (s, [])) ∧
    (ty = 10 → b.length < 14 → runTlv e s ty b = some (s, [])) ∧
    (ty = 6 → b.length < 10 → runTlv e s ty b = some ({ s with routerId := none }, [])) ∧
    (ty = 7 → b.length < 2 → runTlv e s ty b = some ({ s with v4Nh := none, v6Nh := none }, [])) ∧
    (ty = 8 → b.length < 10 → runTlv e s ty b =
      some (if b.length < 2 ∨ (b.getD 1 0).toNat.testBit 7 then
        { s with v4Prefix := none, v6Prefix := none, v4v6Prefix := none } else s, [])) := by
  refine ⟨?_, ?_, ?_, ?_, ?_, ?_⟩
  · rintro (rfl | rfl | rfl) h
    · rw [run2]; unfold tlvAckReq; rw [if_pos h]
    · rw [run4]; unfold tlvHello; rw [if_pos h]
    · rw [run5]; unfold tlvIhu; rw [if_pos h]
  · rintro rfl h; rw [run9]; unfold tlvRequest; rw [if_pos h]
  · rintro rfl h; rw [run10]; unfold tlvSeqno; rw [if_pos h]
  · rintro rfl h; rw [run6]; unfold tlvRouterId; rw [if_pos h]
  · rintro rfl h; rw [run7]; unfold tlvNh; rw [if_pos h]
  · rintro rfl h; rw [run8]; unfold tlvUpdate; rw [if_pos h]
    rcases b with _ | ⟨b0, _ | ⟨b1, b⟩⟩
    · rfl
    · rfl
    · rw [if_neg (by simp)]
      simp only [rd_cons_succ, rd_cons_zero, Option.bind_eq_bind, Option.bind_some]
      have h7 := (testBit_flags b1).1
      by_cases hf : b1.toNat.testBit 7 = true
      · rw [if_pos (h7.2 hf), if_pos (.inr hf)]; rfl
      · rw [if_neg (mt h7.1 hf), if_neg (by simp [hf])]; rfl

end

/-- A packet with a router-id, a next hop, an update of 10.1.0.0/16 that sets the default prefix
and an update of 10.1.2.0/24 that omits two bytes. -/
example : decode env
    [.tlv 6 (be16 0 ++ id1), .tlv 7 ([1, 0] ++ [192, 0, 2, 1]),
     .tlv 8 (updateFixed 1 0x80 16 0 400 7 96 ++ [10, 1]),
     .pad1,
     .tlv 8 (updateFixed 1 0 24 2 400 7 128 ++ [2])] [] [] =
  some ({ routerId := some id1, v4Nh := some (v4tov6 [192, 0, 2, 1]), v4Prefix := some ten1 },
    [.update (some id1) ⟨ten1, 112, v4prefix, 96⟩ 7 96 400 (some (v4tov6 [192, 0, 2, 1])),
     .update (some id1) ⟨v4prefix.take 12 ++ [10, 1, 2, 0], 120, v4prefix, 96⟩ 7 128 400
       (some (v4tov6 [192, 0, 2, 1]))]) := by decide +kernel

/-- A source-specific IPv6 update, with an unknown optional sub-TLV. -/
example : decode env
    [.tlv 6 (be16 0 ++ id1), .tlv 8 (updateFixed 2 0 16 0 400 7 96 ++ [0x20, 1] ++ [5, 1, 9, 128, 2, 8, 0xfd])] [] [] =
  some ({ routerId := some id1 },
    [.update (some id1) ⟨[0x20, 1] ++ List.replicate 14 0, 16, [0xfd] ++ List.replicate 15 0, 8⟩ 7 96 400
      (some env.sender)]) := by decide +kernel

/-! ### C09: containment -/

/-- Whatever follows the last complete TLV, in the body or after it, does not matter. -/
theorem C09_tail (e : PEnv) (ts : List Tlv) (tail tr : Bytes) (he : linklocal e.sender)
    (hok : ∀ t ∈ ts, t.Ok) (ht : Truncated tail) (hl : (encAll ts ++ tail).length < 65536) :
    decode e ts tail tr = decode e ts [] [] := by
  rw [decode_many e ts tail tr he hok ht hl, decode_many e ts [] [] he hok (.inl rfl) (by simp at hl ⊢; omega)]

/-- Any byte string is a sequence of complete TLVs and a truncated one (so the theorems about
`decode` are about all packets). -/
theorem C09_any (body : Bytes) : ∃ ts tail, (∀ t ∈ ts, t.Ok) ∧ Truncated tail ∧ body = encAll ts ++ tail :=
  split_tlvs body

/-- A TLV that is ignored by itself can be inserted anywhere without effect. -/
theorem C09_ignored (e : PEnv) (ts1 ts2 : List Tlv) (ty : UInt8) (b tail tr : Bytes) (he : linklocal e.sender)
    (hok : ∀ t ∈ ts1 ++ .tlv ty b :: ts2, t.Ok) (ht : Truncated tail)
    (hl : (encAll (ts1 ++ .tlv ty b :: ts2) ++ tail).length < 65536)
    (hi : ∀ s, runTlv e s ty b = some (s, [])) :
    decode e (ts1 ++ .tlv ty b :: ts2) tail tr = decode e (ts1 ++ ts2) tail tr := by
  rw [decode_many e _ tail tr he hok ht hl, decode_many e _ tail tr he
    (fun t h => hok t (by simp at h ⊢; rcases h with h | h <;> simp [h])) ht
    (by rw [encAll_append, encAll_cons] at hl; rw [encAll_append]; simp at hl ⊢; omega), many_append, many_append]
  have h : ∀ s, one e s ty b = (s, []) := by
    intro s
    have := hi s
    rw [runTlv_one] at this
    exact Option.some.inj this
  simp [many, h]

/-- Unknown TLVs (and padding) are ignored. -/
theorem C09_unknown (e : PEnv) (ts1 ts2 : List Tlv) (ty : UInt8) (b tail tr : Bytes) (he : linklocal e.sender)
    (hok : ∀ t ∈ ts1 ++ .tlv ty b :: ts2, t.Ok) (ht : Truncated tail)
    (hl : (encAll (ts1 ++ .tlv ty b :: ts2) ++ tail).length < 65536)
    (hty : ty = 1 ∨ 10 < ty) :
    decode e (ts1 ++ .tlv ty b :: ts2) tail tr = decode e (ts1 ++ ts2) tail tr :=
  C09_ignored e ts1 ts2 ty b tail tr he hok ht hl fun s => run_other e s ty b
    (hty.imp (fun h => by rw [h]; decide) id)

/-- Unknown optional sub-TLVs have no effect. -/
theorem C09_optional {e : PEnv} {s : PState} {ty : UInt8} {main : Bytes} (hm : Main e s ty main)
    (ss1 ss2 : List Tlv) (t : UInt8) (b : Bytes) (ht : t < 128) (h3 : t = 3 → ty ≠ 4 ∧ ty ≠ 5)
    (hok : ∀ x ∈ ss1 ++ .tlv t b :: ss2, x.Ok) :
    runTlv e s ty (main ++ encAll (ss1 ++ .tlv t b :: ss2)) = runTlv e s ty (main ++ encAll (ss1 ++ ss2)) := by
  have hok' : ∀ x ∈ ss1 ++ ss2, x.Ok := fun x h => hok x (by simp at h ⊢; rcases h with h | h <;> simp [h])
  have hu := fun known => understood_insert known t b ss1 ss2 ht
  have h128 : t ≠ 128 := by rintro rfl; exact absurd ht (by decide)
  have hb := bodies_insert 128 t b ss1 ss2 h128
  have r1 : Readable [] (encAll (ss1 ++ .tlv t b :: ss2)) ↔ Readable [] (encAll (ss1 ++ ss2)) := by
    rw [readable_iff hok, readable_iff hok']; exact hu []
  have r2 : ∀ ae src, ReadSource ae (encAll (ss1 ++ .tlv t b :: ss2)) src ↔ ReadSource ae (encAll (ss1 ++ ss2)) src := by
    intro ae src
    rw [readSource_iff hok, readSource_iff hok', hu [128]]
    exact and_congr_right fun _ => ⟨source_congr hb, source_congr hb.symm⟩
  have r3 : ∀ ae src, ReadSeqnoSource ae (encAll (ss1 ++ .tlv t b :: ss2)) src ↔
      ReadSeqnoSource ae (encAll (ss1 ++ ss2)) src := by
    intro ae src
    rw [readSeqno_iff hok, readSeqno_iff hok', hu [128]]
    exact and_congr_right fun _ => ⟨seqnoSource_congr hb, seqnoSource_congr hb.symm⟩
  generalize hsu : encAll (ss1 ++ .tlv t b :: ss2) = su at *
  generalize hsu' : encAll (ss1 ++ ss2) = su' at *
  cases hm with
  | ackReq res nonce interval h1 h2 =>
    by_cases h : Readable [] su'
    · rw [(C50_ackReq e s res nonce interval su h1 h2).1 (r1.2 h), (C50_ackReq e s res nonce interval su' h1 h2).1 h]
    · rw [(C50_ackReq e s res nonce interval su h1 h2).2 (mt r1.1 h), (C50_ackReq e s res nonce interval su' h1 h2).2 h]
  | ack nonce => rw [C50_ack, C50_ack]
  | hello flags seqno interval h0 h1 h2 =>
    have h3' : t ≠ 3 := fun h => (h3 h).1 rfl
    by_cases h : Readable [] su'
    · have h' : Understood [] (ss1 ++ ss2) := by rw [← hsu', readable_iff hok'] at h; exact h
      rw [(C50_hello e s flags seqno interval su h0 h1 h2).1 _ ⟨hsu.symm, hok⟩ ((hu []).2 h'),
        (C50_hello e s flags seqno interval su' h0 h1 h2).1 _ ⟨hsu'.symm, hok'⟩ h']
      simp only [helloTime, bodies_insert 3 t b ss1 ss2 h3']
    · rw [(C50_hello e s flags seqno interval su h0 h1 h2).2 (mt r1.1 h), (C50_hello e s flags seqno interval su' h0 h1 h2).2 h]
  | ihu ae res txcost interval wire addr h1 h2 ha =>
    have h3' : t ≠ 3 := fun h => (h3 h).2 rfl
    by_cases hc : ae = 0 ∨ e.isOurs addr = true
    · by_cases h : Readable [] su'
      · have h' : Understood [] (ss1 ++ ss2) := by rw [← hsu', readable_iff hok'] at h; exact h
        rw [(C50_ihu e s ae res txcost interval wire addr su h1 h2 ha).1 hc _ ⟨hsu.symm, hok⟩ ((hu []).2 h'),
          (C50_ihu e s ae res txcost interval wire addr su' h1 h2 ha).1 hc _ ⟨hsu'.symm, hok'⟩ h']
        simp only [ihuTimes, bodies_insert 3 t b ss1 ss2 h3']
      · rw [(C50_ihu e s ae res txcost interval wire addr su h1 h2 ha).2 (.inr (mt r1.1 h)),
          (C50_ihu e s ae res txcost interval wire addr su' h1 h2 ha).2 (.inr h)]
    · rw [(C50_ihu e s ae res txcost interval wire addr su h1 h2 ha).2 (.inl hc),
          (C50_ihu e s ae res txcost interval wire addr su' h1 h2 ha).2 (.inl hc)]
  | routerId res id h => rw [C50_routerId e s res id su h, C50_routerId e s res id su' h]
  | nh ae res wire addr h => rw [C50_nh e s ae res wire addr su h, C50_nh e s ae res wire addr su' h]
  | update ae flags plen omitted interval seqno metric wire pfx h1 h2 h3' h4 h5 h6 h7 =>
    have a1 := C50_update e s ae flags plen omitted interval seqno metric wire su pfx h1 h2 h3' h4 h5 h6 h7
    have a2 := C50_update e s ae flags plen omitted interval seqno metric wire su' pfx h1 h2 h3' h4 h5 h6 h7
    by_cases h : ∃ src, ReadSource ae.toNat su' src
    · obtain ⟨src, h⟩ := h
      rw [a1.1 src ((r2 _ _).2 h), a2.1 src h]
    · rw [a1.2 (by simpa [r2] using h), a2.2 h]
  | request ae plen wire pfx hp =>
    have a1 := C50_request e s ae plen wire su pfx hp
    have a2 := C50_request e s ae plen wire su' pfx hp
    by_cases h : ∃ src, ReadSource ae.toNat su' src
    · obtain ⟨src, h⟩ := h
      rw [a1.1 src ((r2 _ _).2 h), a2.1 src h]
    · rw [a1.2 (by simpa [r2] using h), a2.2 h]
  | seqnoRequest ae plen hop res seqno id wire pfx h1 h2 hp =>
    have a1 := C50_seqnoRequest e s ae plen hop res seqno id wire su pfx h1 h2 hp
    have a2 := C50_seqnoRequest e s ae plen hop res seqno id wire su' pfx h1 h2 hp
    by_cases h : ∃ src, ReadSeqnoSource ae.toNat su' src
    · obtain ⟨src, h⟩ := h
      rw [a1.1 src ((r3 _ _).2 h), a2.1 src h]
    · rw [a1.2 (by simpa [r3] using h), a2.2 h]

/-- A TLV with an unknown mandatory sub-TLV, or with a malformed sub-TLV area, has no effect but
for the parser state set by router-id, next hop and update TLVs, which is set as by the same TLV
without sub-TLVs (RFC 8966, section 4.4). -/
theorem C09_mandatory {e : PEnv} {s : PState} {ty : UInt8} {main subs : Bytes} (hm : Main e s ty main)
    (hr : ¬ Readable (mandatory ty) subs) :
    ∃ s' items, runTlv e s ty main = some (s', items) ∧ runTlv e s ty (main ++ subs) = some (s', []) ∧
      (ty ≠ 6 ∧ ty ≠ 7 ∧ ty ≠ 8 → s' = s) := by
  have n0 : SubTlvs [] [] := ⟨rfl, by simp⟩
  have n1 : ∀ k, Understood k [] := fun k => by simp [Understood]
  have n2 : ∀ ae, ReadSource ae [] (anySource ae) := fun ae => ⟨[], n0, n1 _, .absent rfl⟩
  have n3 : ∀ ae, ReadSeqnoSource ae [] (anySource ae) := fun ae => ⟨[], n0, n1 _, .absent rfl⟩
  have q2 : ∀ ae, ¬ Readable [128] subs → ¬ ∃ src, ReadSource ae subs src :=
    fun ae h ⟨src, ss, h1, h2, _⟩ => h ⟨ss, h1, h2⟩
  have q3 : ∀ ae, ¬ Readable [128] subs → ¬ ∃ src, ReadSeqnoSource ae subs src :=
    fun ae h ⟨src, ss, h1, h2, _⟩ => h ⟨ss, h1, h2⟩
  cases hm with
  | ackReq res nonce interval h1 h2 =>
    have a := (C50_ackReq e s res nonce interval [] h1 h2).1 ⟨[], n0, n1 _⟩
    rw [List.append_nil] at a
    exact ⟨_, _, a, (C50_ackReq e s res nonce interval subs h1 h2).2 hr, fun _ => rfl⟩
  | ack nonce => exact ⟨_, _, C50_ack e s _, C50_ack e s _, fun _ => rfl⟩
  | hello flags seqno interval h0 h1 h2 =>
    have a := (C50_hello e s flags seqno interval [] h0 h1 h2).1 [] n0 (n1 _)
    rw [List.append_nil] at a
    refine ⟨_, _, a, ?_, fun _ => ?_⟩
    · rw [(C50_hello e s flags seqno interval subs h0 h1 h2).2 hr]; simp [helloTime, bodies]
    · simp [helloTime, bodies]
  | ihu ae res txcost interval wire addr h1 h2 ha =>
    have b := (C50_ihu e s ae res txcost interval wire addr subs h1 h2 ha).2 (.inr hr)
    by_cases hc : ae = 0 ∨ e.isOurs addr = true
    · have a := (C50_ihu e s ae res txcost interval wire addr [] h1 h2 ha).1 hc [] n0 (n1 _)
      rw [List.append_nil] at a
      exact ⟨_, _, a, b, fun _ => rfl⟩
    · have a := (C50_ihu e s ae res txcost interval wire addr [] h1 h2 ha).2 (.inl hc)
      rw [List.append_nil] at a
      exact ⟨_, _, a, b, fun _ => rfl⟩
  | routerId res id h =>
    have a := C50_routerId e s res id [] h
    rw [List.append_nil] at a
    exact ⟨_, _, a, C50_routerId e s res id subs h, fun h => absurd rfl h.1⟩
  | nh ae res wire addr h =>
    have a := C50_nh e s ae res wire addr [] h
    rw [List.append_nil] at a
    exact ⟨_, _, a, C50_nh e s ae res wire addr subs h, fun h => absurd rfl h.2.1⟩
  | update ae flags plen omitted interval seqno metric wire pfx h1 h2 h3 h4 h5 h6 h7 =>
    have a := (C50_update e s ae flags plen omitted interval seqno metric wire [] pfx h1 h2 h3 h4 h5 h6 h7).1 _ (n2 _)
    rw [List.append_nil] at a
    exact ⟨_, _, a, (C50_update e s ae flags plen omitted interval seqno metric wire subs pfx h1 h2 h3 h4 h5 h6 h7).2
      (q2 _ hr), fun h => absurd rfl h.2.2⟩
  | request ae plen wire pfx hp =>
    have a := (C50_request e s ae plen wire [] pfx hp).1 _ (n2 _)
    rw [List.append_nil] at a
    exact ⟨_, _, a, (C50_request e s ae plen wire subs pfx hp).2 (q2 _ hr), fun _ => rfl⟩
  | seqnoRequest ae plen hop res seqno id wire pfx h1 h2 hp =>
    have a := (C50_seqnoRequest e s ae plen hop res seqno id wire [] pfx h1 h2 hp).1 _ (n3 _)
    rw [List.append_nil] at a
    exact ⟨_, _, a, (C50_seqnoRequest e s ae plen hop res seqno id wire subs pfx h1 h2 hp).2 (q3 _ hr), fun _ => rfl⟩

/-- A packet not starting with the magic and the version, or sent from an address that is not
link-local, has no effect. -/
theorem C09_header (e : PEnv) (b0 b1 : UInt8) (rest : Bytes)
    (h : b0 ≠ 42 ∨ b1 ≠ 2 ∨ linklocal e.sender = false) (n : Nat) :
    parsePacket e (b0 :: b1 :: rest) n = some ({}, []) := by
  unfold parsePacket packetHeader
  by_cases hl : linklocal e.sender = false
  · rw [if_pos (by rw [hl]; rfl)]; rfl
  · rw [if_neg (by simpa using hl)]
    simp only [rd_cons_zero, rd_cons_one, Option.bind_eq_bind, Option.bind_some]
    by_cases h0 : b0 = 42
    · have h1 : b1 ≠ 2 := by
        rcases h with h | h | h
        · exact absurd h0 h
        · exact h
        · exact absurd h hl
      rw [if_neg (by rw [h0]; decide), if_pos (fun h => h1 ((toNat_eq (by decide)).1 h))]; rfl
    · rw [if_pos (fun h => h0 ((toNat_eq (by decide)).1 h))]; rfl

/-- An unknown TLV of type 200 between two updates, and a truncated TLV at the end. -/
example : decode env ([.tlv 4 (be16 0 ++ be16 7 ++ be16 400)] ++ .tlv 200 [1, 2, 3] :: [.tlv 9 [0, 0]]) [8, 100, 1] [] =
    some ({}, [.hello false 7 400 none, .requestAll]) := by decide +kernel

/-- A seqno request with the unknown mandatory sub-TLV 129. -/
example : ¬ Readable (mandatory 10) [129, 0] := by
  rintro ⟨ss, ⟨h1, h2⟩, h3⟩
  have := encAll_inj ss [.tlv 129 []] h2 (by decide) (by rw [← h1]; decide)
  subst this
  exact absurd (h3 129 [] (by simp) (by decide)) (by decide)

end Babel
