import Verif.Lemmas.Auth4
import Verif.Lemmas.Buffer9
/-
Properties of packet authentication (C07, C14, C15, C16).
-/
set_option linter.unusedSimpArgs false
set_option linter.unusedVariables false
namespace Babel
open Spec

namespace DemoAuth

def a : Bytes := [0xfe, 0x80, 0, 0, 0, 0, 0, 0, 0, 0, 0, 0, 0, 0, 0, 1]
def b : Bytes := [0xfe, 0x80, 0, 0, 0, 0, 0, 0, 0, 0, 0, 0, 0, 0, 0, 2]
def all : Bytes := [0xff, 2, 0, 0, 0, 0, 0, 0, 0, 0, 0, 0, 0, 1, 0, 6]
/-- A toy MAC. -/
def key : Key := ⟨false, fun src dst h body =>
  some [src.getD 15 0, dst.getD 15 0, h.getD 3 0, body.foldl (fun x y => 3 * x + y) 7]⟩
def c : RIf := ⟨some key, false⟩
def env : PEnv := ⟨b, fun x => x == a, true⟩
def sign (dst : Bytes) (ts : List Tlv) : Bytes :=
  packet (encAll ts) ((Tlv.tlv 16 ((key.mac b dst ((packet (encAll ts) []).take 4) (encAll ts)).getD [])).enc)
/-- A packet from `b`, received in a larger buffer, after `ms` milliseconds. -/
def rx (dst : Bytes) (ts : List Tlv) (ms : Int) : Rx :=
  ⟨env, sign dst ts ++ [1, 2, 3], (sign dst ts).length, dst, ⟨100 + ms / 1000, ms % 1000 * 1000⟩⟩
def ix1 : Bytes := [1, 1, 1, 1, 1, 1, 1, 1]
def ix2 : Bytes := [2, 2, 2, 2, 2, 2, 2, 2]
/-- The nonces: distinct, and `read_random_bytes` always succeeds. -/
def r : Nonces := fun n => ([9, 9, 9, 9, 9, 9, 9, UInt8.ofNat n], true)
def hello : Tlv := .tlv 4 ([0, 0] ++ be16 17 ++ be16 400)
def pc (n : Nat) (ix : Bytes) : Tlv := .tlv 17 (be32 n ++ ix)

def first : AEv := .packet c (rx all [hello, pc 1 ix1] 0)
def reply1 : AEv := .packet c (rx a [.tlv 19 (r 0).1, pc 2 ix1] 100)
def next : AEv := .packet c (rx all [hello, pc 3 ix1] 200)

end DemoAuth

/-! ### C07: authentication does not read outside the packet -/

/-- Whatever is received, and whatever happened before, all reads are inside the receive buffer. -/
theorem C07_auth_safe (r : Nonces) (s : AState) (evs : List AEv) (hok : ∀ ev ∈ evs, EvOk ev) :
    ∃ s' os, arun r s evs = some (s', os) := by
  obtain ⟨⟨s', os⟩, h⟩ := Option.isSome_iff_exists.1 (arun_ok r evs s hok)
  exact ⟨s', os, h⟩

open DemoAuth in
example : ∃ s' os, arun r {} [first, reply1, .flush b, next] = some (s', os) :=
  C07_auth_safe r {} _ (by
    simp only [List.mem_cons, List.not_mem_nil, or_false, forall_eq_or_imp, forall_eq]
    refine ⟨?_, ?_, trivial, ?_⟩ <;>
      exact ⟨by decide +kernel, by decide +kernel, by unfold TvOk; decide +kernel, by decide +kernel⟩)

/-! ### C14: signatures -/

/-- A packet without a valid signature has no effect. -/
theorem C14_unsigned (r : Nonces) (c : RIf) (k : Key) (p : Rx) (s : AState) (hp : RxOk p) (hk : c.key = some k)
    (ha : c.acceptBad = false) (hs : ¬ Signed k p.env.sender p.dst p.bytes) :
    receive r c p s = some (s, {}) := receive_unsigned r c k p s hp hk ha hs

/-- A packet whose items are acted upon is signed, and is treated as it would be on an interface
without a key; a packet that is not accepted is not acted upon. -/
theorem C14_accepted (r : Nonces) (c : RIf) (k : Key) (p : Rx) (s s' : AState) (ef : Effect) (hp : RxOk p)
    (hk : c.key = some k) (ha : c.acceptBad = false) (h : receive r c p s = some (s', ef)) :
    (ef.verdict ≠ .dropped → Signed k p.env.sender p.dst p.bytes ∧
      ∃ st, parsePacket p.env p.buf p.len = some (st, ef.items)) ∧
    (ef.verdict = .dropped → ef.items = []) ∧ ef.verdict ≠ .unchecked := by
  by_cases hs : Signed k p.env.sender p.dst p.bytes
  · cases hl : linklocal p.env.sender with
    | false =>
      rw [receive_nonlocal r c p s hl] at h
      simp at h
      rw [← h.2]
      exact ⟨fun h => absurd rfl h, fun _ => rfl, by simp⟩
    | true =>
      obtain ⟨ts, hts⟩ := signed_tlvs hs
      obtain ⟨s1, ef1, h1, h2, h3, -⟩ := receive_signed r c k p s ts hp hk hl hs hts
      rw [h] at h1
      simp at h1
      obtain ⟨rfl, rfl⟩ := h1
      refine ⟨fun hv => ⟨hs, (many p.env {} ts).1, ?_⟩, fun hv => by rw [h3]; simp [itemsOf, hv], ?_⟩
      · rw [parsePacket_many p hp hl ts hts, h3]
        simp [itemsOf, hv]
      · have hv := congrArg (fun x => x.2.2.1) h2
        simp only at hv
        rw [hv]
        obtain ⟨rl, out, -, ⟨-, e⟩ | ⟨pc, ix, -, ⟨-, e⟩ | ⟨-, ⟨-, -, e⟩ | ⟨-, -, -, e⟩ | ⟨-, -, -, e⟩ | ⟨-, -, e⟩ |
          ⟨-, -, e⟩⟩⟩⟩ := judged_cases r (multicast p.dst) p.now s.draws (s.ent p.env.sender) ts <;> rw [e] <;> simp
  · rw [receive_unsigned r c k p s hp hk ha hs] at h
    simp at h
    rw [← h.2]
    exact ⟨fun h => absurd rfl h, fun _ => rfl, by simp⟩

/-- With `accept-bad-signatures`, packets without a valid signature are treated as on an
interface without a key. -/
theorem C14_accept_bad (r : Nonces) (c : RIf) (k : Key) (p : Rx) (s : AState) (hp : RxOk p) (hk : c.key = some k)
    (ha : c.acceptBad = true) (hs : ¬ Signed k p.env.sender p.dst p.bytes) :
    ∃ s' ef st, receive r c p s = some (s', ef) ∧ parsePacket p.env p.buf p.len = some (st, ef.items) ∧
      ef.challenges = [] := by
  obtain ⟨s', ef, st, h1, h2, h3, -⟩ := receive_unchecked r c p s hp (.inr ⟨k, hk, ha, hs⟩)
  exact ⟨s', ef, st, h1, h2, h3⟩

/-- What we sign, a receiver with the same key accepts, provided it sees the same addresses. -/
theorem C14_verifies (c : SIf) (k : Key) (src dst : Bytes) (size : Nat) (body tr : Bytes) (hb : body.length < 65536)
    (hk : c.key = some k) (hn : k.none = false) (hl : c.ll.head? = some src)
    (hm : ∀ m, k.mac src dst ((packet body []).take 4) body = some m → m.length ≤ 255)
    (h : TrailerOk c dst size body tr) : Signed k src dst (packet body tr) := by
  obtain ⟨mac, pad, rfl, _, _, _, h⟩ := h
  rw [hk] at h
  simp only [hn, Bool.false_eq_true, if_false] at h
  obtain ⟨src', m, h1, h2, rfl⟩ := h
  rw [hl] at h1
  obtain rfl : src = src' := by simpa using h1
  refine ⟨body, _, m, hb, rfl, ?_, [], encAll pad, by simp, hm m h2, ?_⟩
  · rw [packet_take4]; exact h2
  · simp [Tlv.enc]

/-- In particular all the packets ever sent on an interface with a key. -/
theorem C14_sent {a tf : Bool} {o : Orc} {acts : List Act} {l l' : Link} (hs : Steady a tf o acts) (hf : FreshLink l)
    (hr : l.run o acts = some l') (k : Key) (src : Bytes) (hn : k.none = false)
    (hk : ∀ x ∈ acts, x.c.key = some k ∧ x.c.ll.head? = some src) (p : Nat × Bytes) (hp : p ∈ l'.out) :
    Signed k src (l.bufs p.1).dst p.2 := by
  obtain ⟨l1, h1, -, h2⟩ := run_packets hs hf
  rw [hr] at h1
  cases h1
  obtain ⟨x, hx, -, ts, tr, -, -, hp2, hlen, htr, -⟩ := h2 p hp
  rw [hp2]
  have hsz := (hf.1 p.1).2.1
  have hsig := (hs.2 x hx).2.2.1 k (hk x hx).1
  refine C14_verifies x.c k src _ _ (encAll ts) tr (by simp only at hlen; omega) (hk x hx).1 hn (hk x hx).2 ?_ htr
  intro m hm
  obtain ⟨m', h1, h2⟩ := (hsig hn).2 src (l.bufs p.1).dst ((packet (encAll ts) []).take 4) (encAll ts)
  rw [hm] at h1
  cases h1
  omega

/-- A key of type none does not sign; otherwise the MAC is computed as follows. -/
theorem C14_key (d : Digest) (port : Nat) (k : KeyCfg) :
    ((k.key d port).none = true ↔ k = .none) ∧
    ∀ src dst header body, (k.key d port).mac src dst header body = computeHmac d port k src dst header body := by
  exact ⟨by simp [KeyCfg.key], fun _ _ _ _ => rfl⟩

/-- The two algorithms: HMAC with SHA256 and keys of 64 bytes, and keyed BLAKE2s with keys of at
most 32 bytes. -/
theorem C14_mac (d : Digest) (port : Nat) (src dst header body v : Bytes) :
    (v.length = 64 → computeHmac d port (.sha256 v) src dst header body =
      some (hmac d.sha256 v (signedText port src dst header body))) ∧
    (v.length ≤ 32 → computeHmac d port (.blake2s128 v) src dst header body =
      some (d.blake2s128 v (signedText port src dst header body))) := by
  have ht : htons port = be16 port := by
    unfold htons be16
    congr 1
    · apply UInt8.toNat_inj.1; simp
    · congr 1; apply UInt8.toNat_inj.1; simp
  have hd : hmacData port src dst header body = signedText port src dst header body := by
    unfold hmacData signedText; rw [ht]
  constructor
  · intro h
    simp only [computeHmac, h, ne_eq, not_true_eq_false, if_false, hd, hmac]
  · intro h
    simp only [computeHmac, hd]
    rw [if_neg (by omega)]

/-- The signed text determines the addresses, the header and the body: packets with different
contents, or between other hosts, have different texts. -/
theorem C14_covers (port : Nat) (src dst header body src' dst' header' body' : Bytes)
    (h1 : src.length = 16) (h2 : dst.length = 16) (h3 : header.length = 4)
    (h1' : src'.length = 16) (h2' : dst'.length = 16) (h3' : header'.length = 4)
    (h : signedText port src dst header body = signedText port src' dst' header' body') :
    src = src' ∧ dst = dst' ∧ header = header' ∧ body = body' := by
  unfold signedText at h
  simp only [List.append_assoc] at h
  obtain ⟨e1, h⟩ := List.append_inj h (by omega)
  obtain ⟨-, h⟩ := List.append_inj h rfl
  obtain ⟨e2, h⟩ := List.append_inj h (by omega)
  obtain ⟨-, h⟩ := List.append_inj h rfl
  obtain ⟨e3, h⟩ := List.append_inj h (by omega)
  exact ⟨e1, e2, e3, h⟩

/-- A key of the type `none`, or of the wrong length, makes all packets be ignored. -/
theorem C14_bad_key (r : Nonces) (d : Digest) (port : Nat) (p : Rx) (s : AState) (hp : RxOk p) (k : KeyCfg)
    (hk : k = .none ∨ (∃ v, k = .sha256 v ∧ v.length ≠ 64) ∨ ∃ v, k = .blake2s128 v ∧ 32 < v.length) :
    receive r ⟨some (k.key d port), false⟩ p s = some (s, {}) := by
  refine C14_unsigned r _ (k.key d port) p s hp rfl rfl ?_
  rintro ⟨body, tr, m, _, _, hm, _⟩
  simp only [KeyCfg.key] at hm
  rcases hk with rfl | ⟨v, rfl, hv⟩ | ⟨v, rfl, hv⟩ <;> simp [computeHmac] at hm
  · exact hv hm.1
  · omega

open DemoAuth in
/-- Finding: a padding byte in the trailer before the MAC (allowed by RFC 8967) hides the MAC. -/
theorem C14_pad1_hides :
    checkHmac key b a (packet [0] (Tlv.pad1.enc ++ (Tlv.tlv 16 [2, 1, 1, 21]).enc)) 12 1 = some (-1) ∧
    checkHmac key b a (packet [0] (Tlv.tlv 16 [2, 1, 1, 21]).enc) 11 1 = some 1 ∧
    key.mac b a ((packet [0] []).take 4) [0] = some [2, 1, 1, 21] := by decide +kernel

open DemoAuth in
/-- A signed packet, and the same packet with one bit changed. -/
example : Signed key b all (sign all [hello, pc 1 ix1]) ∧
    ((receive r c (rx all [hello, pc 1 ix1] 0) {}).map fun x => x.2.challenges) = some [.request (r 0).1] ∧
    ((receive r c { rx all [hello, pc 1 ix1] 0 with buf := (sign all [hello, pc 1 ix1]).set 8 1 } {}).map
      fun x => x.2.challenges) = some [] := by
  refine ⟨?_, by decide +kernel, by decide +kernel⟩
  exact ⟨encAll [hello, pc 1 ix1], _, (key.mac b all ((packet (encAll [hello, pc 1 ix1]) []).take 4)
    (encAll [hello, pc 1 ix1])).getD [], by decide +kernel, rfl, by decide +kernel, [], [], by simp, by decide +kernel,
    by decide +kernel⟩

/-! ### C15: counters -/

/-- When a signed packet is accepted, and on what grounds, given what is known about its sender. -/
theorem C15_verdict (r : Nonces) (c : RIf) (k : Key) (p : Rx) (s : AState) (ts : List Tlv) (hp : RxOk p)
    (hk : c.key = some k) (hl : linklocal p.env.sender) (hs : Signed k p.env.sender p.dst p.bytes)
    (hts : TlvsOf p.bytes ts) (hw : (s.ent p.env.sender).Wf) :
    let old := s.ent p.env.sender
    let mc := multicast p.dst
    let answers := micros p.now ≤ micros old.deadline ∧ old.nonce.length = 8 ∧ old.nonce ∈ replies mc ts
    ∃ s' ef, receive r c p s = some (s', ef) ∧
      (ef.verdict = .answered ↔ ∃ pc ix, counter mc ts = some (pc, ix) ∧ answers) ∧
      (ef.verdict = .newer ↔ ∃ pc ix, counter mc ts = some (pc, ix) ∧ ¬ answers ∧ old.index = some ix ∧
        value (old.last mc) < value pc) ∧
      (∀ pc ix, counter mc ts = some (pc, ix) → ef.verdict = .answered →
        (s'.ent p.env.sender).index = some ix ∧ ∀ m, (s'.ent p.env.sender).last m = pc) ∧
      (∀ pc ix, counter mc ts = some (pc, ix) → ef.verdict = .newer →
        (s'.ent p.env.sender).index = some ix ∧ (s'.ent p.env.sender).last mc = pc ∧
        (s'.ent p.env.sender).last (!mc) = old.last (!mc)) ∧
      (ef.verdict = .dropped → (s'.ent p.env.sender).index = old.index ∧
        ∀ m, (s'.ent p.env.sender).last m = old.last m) ∧
      ∀ y, y ≠ p.env.sender → s'.ent y = s.ent y := by
  intro old mc answers'
  obtain ⟨s', ef, h1, h2, h3, h4⟩ := receive_signed r c k p s ts hp hk hl hs hts
  have hans : answers p.now old (replies mc ts) = true ↔ answers' := answers_iff hp.2.2.1 hw.d
  refine ⟨s', ef, h1, ?_⟩
  obtain ⟨rl, out, -, ⟨hc, e⟩ | ⟨pc, ix, hc, ⟨hh, e⟩ | ⟨hh, ⟨hi, hlim, e⟩ | ⟨hi, -, -, e⟩ | ⟨hi, -, -, e⟩ |
    ⟨hi, hm, e⟩ | ⟨hi, hm, e⟩⟩⟩⟩ := judged_cases r mc p.now s.draws old ts <;>
    rw [e] at h2 <;> simp only [Prod.mk.injEq] at h2 <;> obtain ⟨j1, j2, j3, j4⟩ := h2 <;> rw [hc, j3]
  · refine ⟨by simp, by simp, by simp, by simp, fun _ => ?_, h4⟩
    rw [j1]
    constructor
    · split <;> rfl
    · intro m; split <;> cases m <;> rfl
  · refine ⟨by simp [hans.1 hh], by simp [hans.1 hh], ?_, by simp, by simp, h4⟩
    intro pc' ix' he _
    simp at he
    obtain ⟨rfl, rfl⟩ := he
    rw [j1]
    exact ⟨rfl, fun m => last_answered ..⟩
  all_goals have hna : ¬ answers' := fun h => by rw [hans.2 h] at hh; cases hh
  · refine ⟨by simp [hna], by simp [hi], by simp, by simp, fun _ => ?_, h4⟩
    rw [j1]; exact ⟨rfl, fun m => by cases m <;> rfl⟩
  · refine ⟨by simp [hna], by simp [hi], by simp, by simp, fun _ => ?_, h4⟩
    rw [j1]; exact ⟨rfl, fun m => by cases m <;> rfl⟩
  · refine ⟨by simp [hna], by simp [hi], by simp, by simp, fun _ => ?_, h4⟩
    rw [j1]; exact ⟨rfl, fun m => by cases m <;> rfl⟩
  · rw [memcmpLe_value _ _ (by rw [(counter_len hc).1, hw.last])] at hm
    refine ⟨by simp [hna], ?_, by simp, by simp, fun _ => ?_, h4⟩
    · simp only [reduceCtorEq, false_iff, Option.some.injEq, Prod.mk.injEq, not_exists, not_and]
      rintro pc' ix' ⟨rfl, rfl⟩ _ _
      omega
    · rw [j1]; exact ⟨rfl, fun m => by cases m <;> rfl⟩
  · rw [not_memcmpLe (by rw [(counter_len hc).1, hw.last])] at hm
    refine ⟨by simp [hna], ?_, by simp, ?_, by simp, h4⟩
    · simp only [true_iff]
      exact ⟨pc, ix, rfl, hna, hi, hm⟩
    · intro pc' ix' he _
      simp at he
      obtain ⟨rfl, rfl⟩ := he
      rw [j1]
      cases mc <;> exact ⟨hi, rfl, rfl⟩

/-- Counters increase: between two packets from the same neighbour that are accepted, the second
because of its counter, and both unicast or both multicast, either there was a successful challenge,
or both have the same index and the second has a larger counter.  This holds whatever else happens,
including the neighbour's expiry. -/
theorem C15_increasing (r : Nonces) (evs1 evs2 : List AEv) (c1 c2 : RIf) (p1 p2 : Rx) (s1 s2 s3 s4 : AState)
    (os1 os2 : List Effect) (e1 e2 : Effect) (x : Bytes) (mc : Bool)
    (hok1 : ∀ ev ∈ evs1, EvOk ev) (hok2 : ∀ ev ∈ evs2, EvOk ev) (hp1 : RxOk p1) (hp2 : RxOk p2)
    (h1 : arun r {} evs1 = some (s1, os1)) (h2 : receive r c1 p1 s1 = some (s2, e1))
    (h3 : arun r s2 evs2 = some (s3, os2)) (h4 : receive r c2 p2 s3 = some (s4, e2))
    (hx1 : p1.env.sender = x) (hx2 : p2.env.sender = x) (hm1 : multicast p1.dst = mc) (hm2 : multicast p2.dst = mc)
    (ha1 : authentic e1 = true) (ha2 : e2.verdict = .newer)
    (hno : tally (answeredBy x) evs2 os2 = 0) (ts1 ts2 : List Tlv) (ht1 : TlvsOf p1.bytes ts1)
    (ht2 : TlvsOf p2.bytes ts2) :
    ∃ pc1 pc2 ix, counter mc ts1 = some (pc1, ix) ∧ counter mc ts2 = some (pc2, ix) ∧ value pc1 < value pc2 := by
  subst hx1 hm1
  have hw1 : (s1.ent p1.env.sender).Wf := arun_wf hok1 h1 wf_fresh
  obtain ⟨s2', e1', g1, g2⟩ := astep_ok r s1 (.packet c1 p1) hp1
  simp only [astep, h2, Option.some.injEq, Prod.mk.injEq] at g1
  obtain ⟨rfl, rfl⟩ := g1
  have hst1 := g2 p1.env.sender
  have hw2 := astep_wf (ev := .packet c1 p1) hp1 hst1 hw1
  have hw3 := arun_wf hok2 h3 hw2
  obtain ⟨s4', e2', g3, g4⟩ := astep_ok r s3 (.packet c2 p2) hp2
  simp only [astep, h4, Option.some.injEq, Prod.mk.injEq] at g3
  obtain ⟨rfl, rfl⟩ := g3
  have hst2 := g4 p1.env.sender
  rcases astep_counter (ev := .packet c1 p1) hp1 hst1 hw1 with ⟨-, h, -⟩ | ⟨-, -, h⟩ |
    ⟨c, p, ts, pc1, ix, hev, hx, hts, hc, i1, i2, -⟩
  · cases h
  · rw [h (about_packet rfl)] at ha1; cases ha1
  · cases hev
    rw [tlvsOf_unique hts ht1] at hc
    have hpast : (s2.ent p1.env.sender).Past (multicast p1.dst) pc1 ix := by
      intro ix' hi
      rw [i1] at hi
      simp at hi
      exact ⟨hi.symm, by rw [i2]; exact Nat.le_refl _⟩
    have hpast3 := past_run _ _ _ evs2 s2 s3 os2 hok2 h3 hw2 hno hpast
    rcases astep_counter (ev := .packet c2 p2) hp2 hst2 hw3 with ⟨-, h, -⟩ | ⟨-, -, h⟩ |
      ⟨c', p', ts', pc2, ix', hev, hx', hts', hc', i1', i2', hv⟩
    · cases h
    · have := h (about_packet hx2)
      simp [authentic, ha2] at this
    · cases hev
      rw [tlvsOf_unique hts' ht2, hm2] at hc'
      rcases hv with ⟨hv, -⟩ | ⟨-, hix, hlt, -⟩
      · rw [ha2] at hv; cases hv
      · obtain ⟨rfl, hle⟩ := hpast3 ix' hix
        refine ⟨pc1, pc2, ix', hc, hc', ?_⟩
        rw [hm2] at hlt
        omega

/-- Hence a packet is accepted at most once for each successful challenge, and there are at most as
many of these as challenges sent. -/
theorem C15_replay_bound (r : Nonces) (evs : List AEv) (s : AState) (os : List Effect) (x P : Bytes) (mc : Bool)
    (hok : ∀ ev ∈ evs, EvOk ev) (h : arun r {} evs = some (s, os)) (ts : List Tlv) (ht : TlvsOf P ts) :
    tally (copy x P mc) evs os ≤ tally (answeredBy x) evs os ∧
      tally (answeredBy x) evs os ≤ tally (challengedBy x) evs os := by
  refine ⟨?_, (answered_run evs {} s os hok h wf_fresh).2 rfl⟩
  cases hc : counter mc ts with
  | some q =>
    obtain ⟨pc, ix⟩ := q
    exact (copies_run ht mc pc ix hc evs {} s os hok h wf_fresh).2 (fun hi => by cases hi)
  | none =>
    suffices tally (copy x P mc) evs os = 0 by omega
    refine arun_ind r x (fun s evs os => (s.ent x).Wf → tally (copy x P mc) evs os = 0) (fun _ _ => rfl) ?_ evs {} s os hok h
      wf_fresh
    intro s s1 s2 ev o evs os hev hst hrun ih hw
    simp only [tally, ih (astep_wf hev hst hw)]
    cases hcc : copy x P mc ev o with
    | false => rfl
    | true =>
      have hab := copy_about hcc
      rcases astep_counter hev hst hw with ⟨-, rfl, ha⟩ | ⟨-, -, ha⟩ | ⟨c, p, ts', pc', ix', rfl, hx, hts', hc', -⟩
      · cases hcc
      · rw [ha hab.1] at hab; exact absurd hab.2 (by simp)
      · simp only [copy, Bool.and_eq_true, beq_iff_eq] at hcc
        rw [hcc.1.1.2] at hts'
        rw [tlvsOf_unique hts' ht, hcc.1.2, hc] at hc'
        cases hc'

namespace DemoAuth
/-- A packet with an old index, recorded earlier and replayed. -/
def old : AEv := .packet c (rx all [hello, pc 77 ix2] 1000)
def reply2 : AEv := .packet c (rx a [.tlv 19 (r 1).1, pc 4 ix1] 1300)
def victim (t : Int) : AEv := .packet c (rx all [hello, pc 5 ix1] t)
end DemoAuth

open DemoAuth in
/-- Finding: an attacker who can delay packets and holds an old packet with another index can have
packets accepted twice, although no challenge is sent in between: the old packet triggers a
challenge, the reply is held back while other packets go through, and then resets the counter. -/
theorem C15_delayed_reply :
    ((arun r {} [first, reply1, old, victim 1200, reply2, victim 1400]).map fun x =>
      x.2.map fun e => (e.verdict, challenged e)) =
    some [(.dropped, true), (.answered, false), (.dropped, true), (.newer, false), (.answered, false), (.newer, false)] := by
  decide +kernel

open DemoAuth in
/-- The usual exchange: a challenge, the reply, a newer packet, which is then replayed in vain. -/
example : ((arun r {} [first, reply1, next, next, .flush b, next]).map fun x =>
      x.2.map fun e => (e.verdict, e.challenges, e.items.length)) =
    some [(.dropped, [.request (r 0).1], 0), (.answered, [], 0), (.newer, [], 1), (.dropped, [], 0), (.dropped, [], 0),
      (.dropped, [.request (r 1).1], 0)] := by decide +kernel

/-! ### C16: challenges -/

/-- A challenge only succeeds if it was sent to this neighbour at most 30 s ago, the reply carries
exactly the nonce sent, and since then no other challenge was sent and none succeeded, nor did the
neighbour expire (provided random numbers can be obtained). -/
theorem C16_answered (r : Nonces) (hr : ∀ n, (r n).2 = true) (evs : List AEv) (s s' : AState) (os : List Effect)
    (c : RIf) (p : Rx) (ef : Effect) (x : Bytes) (ts : List Tlv)
    (hok : ∀ ev ∈ evs, EvOk ev) (hp : RxOk p) (h : arun r {} evs = some (s, os))
    (h2 : receive r c p s = some (s', ef)) (hx : p.env.sender = x) (hts : TlvsOf p.bytes ts)
    (ha : ef.verdict = .answered) :
    ∃ evs1 c0 p0 evs2 os1 o os2 n, evs = evs1 ++ .packet c0 p0 :: evs2 ∧ os = os1 ++ o :: os2 ∧
      evs1.length = os1.length ∧ p0.env.sender = x ∧ .request n ∈ o.challenges ∧
      n ∈ replies (multicast p.dst) ts ∧ n.length = 8 ∧ micros p.now ≤ micros p0.now + 30000000 ∧
      tally (answeredBy x) evs2 os2 = 0 ∧ tally (challengedBy x) evs2 os2 = 0 ∧ .flush x ∉ evs2 := by
  subst hx
  have hw : (s.ent p.env.sender).Wf := arun_wf hok h wf_fresh
  obtain ⟨s1, e1, g1, g2⟩ := astep_ok r s (.packet c p) hp
  simp only [astep, h2, Option.some.injEq, Prod.mk.injEq] at g1
  obtain ⟨rfl, rfl⟩ := g1
  cases g2 p.env.sender with
  | other h0 => simp [about] at h0
  | plain _ _ _ _ hv => rcases hv with hv | hv <;> rw [hv] at ha <;> cases ha
  | @signed _ _ _ k ts' hx hk hl hp hs hts' hj hi =>
    rw [tlvsOf_unique hts' hts] at hj
    have hans := answers_iff (bs := replies (multicast p.dst) ts) hp.2.2.1 hw.d
    have hh : answers p.now (s.ent p.env.sender) (replies (multicast p.dst) ts) = true := by
      obtain ⟨rl, out, -, ⟨-, e⟩ | ⟨pc, ix, -, ⟨hh, e⟩ | ⟨-, ⟨-, -, e⟩ | ⟨-, -, -, e⟩ | ⟨-, -, -, e⟩ | ⟨-, -, e⟩ |
        ⟨-, -, e⟩⟩⟩⟩ := judged_cases r (multicast p.dst) p.now s.draws (s.ent p.env.sender) ts <;>
        rw [e] at hj <;> simp only [Prod.mk.injEq] at hj <;> first | exact hh | (rw [hj.2.2.1] at ha; cases ha)
    obtain ⟨a1, a2, a3⟩ := hans.1 hh
    have hd : (s.ent p.env.sender).deadline ≠ ⟨0, 0⟩ := by
      intro hz
      rw [hz] at a1
      have := hp.2.2.2
      simp [micros] at a1 this
      omega
    rcases pending_run hr evs {} s os hok h wf_fresh hd with ⟨e1, -⟩ | ⟨evs1, c0, p0, evs2, os1, o, os2, e1, e2, e3, e4, e5, e6, e7, e8⟩
    · exact absurd e1 hd
    · refine ⟨evs1, c0, p0, evs2, os1, o, os2, _, e1, e2, e3, e4, e5, a3, a2, ?_, e8⟩
      rw [e6, (C03_add_msec_exact p0.now 30000 e7.2.2.1 (by omega)).1] at a1
      omega

/-- Conversely, while a challenge is outstanding, a signed packet with a counter and the right
nonce is accepted, if nothing from this neighbour has used up, replaced or forgotten the challenge. -/
theorem C16_succeeds (r : Nonces) (evs1 evs2 : List AEv) (s1 s2 s3 : AState) (os1 os2 : List Effect)
    (c0 c : RIf) (p0 p : Rx) (e0 : Effect) (x n : Bytes) (ts : List Tlv) (pc ix : Bytes) (k : Key)
    (hr : ∀ n, (r n).2 = true)
    (hok1 : ∀ ev ∈ evs1, EvOk ev) (hok2 : ∀ ev ∈ evs2, EvOk ev) (hp0 : RxOk p0) (hp : RxOk p)
    (h1 : arun r {} evs1 = some (s1, os1)) (h2 : receive r c0 p0 s1 = some (s2, e0))
    (h3 : arun r s2 evs2 = some (s3, os2)) (hx0 : p0.env.sender = x) (hx : p.env.sender = x)
    (hn : .request n ∈ e0.challenges) (hn8 : n.length = 8)
    (hq : tally (challengedBy x) evs2 os2 = 0) (hf : .flush x ∉ evs2)
    (hu : ∀ c' p' ts', .packet c' p' ∈ evs2 → p'.env.sender = x → TlvsOf p'.bytes ts' →
      n ∉ replies (multicast p'.dst) ts')
    (hk : c.key = some k) (hl : linklocal x) (hs : Signed k x p.dst p.bytes) (hts : TlvsOf p.bytes ts)
    (hc : counter (multicast p.dst) ts = some (pc, ix)) (hmem : n ∈ replies (multicast p.dst) ts)
    (ht : micros p.now ≤ micros p0.now + 30000000) :
    ∃ s4 e, receive r c p s3 = some (s4, e) ∧ e.verdict = .answered := by
  subst hx
  have hw1 : (s1.ent p.env.sender).Wf := arun_wf hok1 h1 wf_fresh
  obtain ⟨s2', e0', g1, g2⟩ := astep_ok r s1 (.packet c0 p0) hp0
  simp only [astep, h2, Option.some.injEq, Prod.mk.injEq] at g1
  obtain ⟨rfl, rfl⟩ := g1
  have hst := g2 p.env.sender
  have hw2 := astep_wf (ev := .packet c0 p0) hp0 hst hw1
  have hw3 := arun_wf hok2 h3 hw2
  have hch : challengedBy p.env.sender (.packet c0 p0) e0 = true := by
    simp only [challengedBy, about_packet hx0, Bool.true_and, challenged, List.any_eq_true]
    exact ⟨_, hn, rfl⟩
  have hstart : (s2.ent p.env.sender).nonce = n ∧ (s2.ent p.env.sender).deadline = timevalAddMsec p0.now 30000 := by
    rcases astep_deadline (ev := .packet c0 p0) hp0 hst hw1 with ⟨-, -, -, h, -⟩ | ⟨-, h, -⟩ |
      ⟨c', p', n', hev, -, g3, g4, g5, -⟩ | ⟨-, -, -, h, -⟩
    · rw [hch] at h; cases h
    · rw [hch] at h; cases h
    · cases hev
      refine ⟨?_, g5⟩
      rw [g4]
      cases hst with
      | other h0 => simp [about, hx0] at h0
      | plain _ _ _ hc => rw [hc] at hn; cases hn
      | @signed _ _ _ k' ts' hx' hk' hl' hp' hs' hts' hj hi =>
        obtain ⟨rl, out, hout, ⟨-, e⟩ | ⟨pc, ix, -, ⟨hh, e⟩ | ⟨-, ⟨-, -, e⟩ | ⟨-, -, -, e⟩ | ⟨-, -, -, e⟩ | ⟨-, -, e⟩ |
          ⟨-, -, e⟩⟩⟩⟩ := judged_cases r (multicast p0.dst) p0.now s1.draws (s1.ent p.env.sender) ts' <;>
          rw [e] at hj <;> simp only [Prod.mk.injEq] at hj <;> rw [hj.2.2.2] at hn g3
        all_goals rcases hout with rfl | ⟨m, rfl⟩ <;> simp at hn g3
        all_goals rw [hn, g3]
    · rw [hch] at h; cases h
  have hinv : ∀ evs s s' os, (∀ ev ∈ evs, EvOk ev) → (∀ ev ∈ evs, ev ∈ evs2) → arun r s evs = some (s', os) →
      (s.ent p.env.sender).Wf → tally (challengedBy p.env.sender) evs os = 0 →
      (s.ent p.env.sender).nonce = n ∧ (s.ent p.env.sender).deadline = timevalAddMsec p0.now 30000 →
      (s'.ent p.env.sender).nonce = n ∧ (s'.ent p.env.sender).deadline = timevalAddMsec p0.now 30000 := by
    intro evs
    induction evs with
    | nil =>
      intro s s' os _ _ h _ _ hi
      simp only [arun, Option.some.injEq, Prod.mk.injEq] at h
      rw [← h.1]; exact hi
    | cons ev evs ih =>
      intro s s' os hok hsub h hw ht hi
      obtain ⟨s1, o, h1, h2⟩ := astep_ok r s ev (hok ev (by simp))
      simp only [arun, h1, Option.bind_eq_bind, Option.bind_some] at h
      cases h3 : arun r s1 evs with
      | none => simp [h3] at h
      | some q =>
        obtain ⟨s2, os'⟩ := q
        simp [h3] at h
        obtain ⟨rfl, rfl⟩ := h
        simp only [tally] at ht
        refine ih s1 s2 os' (fun e he => hok e (by simp [he])) (fun e he => hsub e (by simp [he])) h3
          (astep_wf (hok ev (by simp)) (h2 _) hw) (by omega) ?_
        rcases astep_deadline (hok ev (by simp)) (h2 p.env.sender) hw with ⟨g1, g2, -⟩ | ⟨-, -, -, g⟩ |
          ⟨c', p', n', -, -, -, -, -, g, -⟩ | ⟨g, -⟩
        · rw [g1, g2]; exact hi
        · rcases g with rfl | ⟨c', p', ts', rfl, g1, g2, g3⟩
          · exact absurd (hsub _ (by simp)) hf
          · rw [hi.1] at g3
            exact absurd g3 (hu c' p' ts' (hsub _ (by simp)) g1 g2)
        · simp [g] at ht
        · rw [hr] at g; cases g
  obtain ⟨hn3, hd3⟩ := hinv evs2 s2 s3 os2 hok2 (fun _ h => h) h3 hw2 hq hstart
  obtain ⟨s4, e, k1, k2, -⟩ := C15_verdict r c k p s3 ts hp hk hl hs hts hw3
  refine ⟨s4, e, k1, k2.2 ⟨pc, ix, hc, ?_, by rw [hn3]; exact hn8, by rw [hn3]; exact hmem⟩⟩
  rw [hd3, (C03_add_msec_exact p0.now 30000 hp0.2.2.1 (by omega)).1]
  omega

/-- When challenge requests and replies are sent: a request, with a new random nonce, at most every
300 ms, to a neighbour whose index is not the one known; a reply, at most every 300 ms, to the last
request in a unicast packet, unless the packet's counter shows that it is a replay. -/
theorem C16_challenges (r : Nonces) (c : RIf) (k : Key) (p : Rx) (s : AState) (ts : List Tlv) (hp : RxOk p)
    (hk : c.key = some k) (hl : linklocal p.env.sender) (hs : Signed k p.env.sender p.dst p.bytes)
    (hts : TlvsOf p.bytes ts) (hw : (s.ent p.env.sender).Wf) :
    let old := s.ent p.env.sender
    let mc := multicast p.dst
    let answers := micros p.now ≤ micros old.deadline ∧ old.nonce.length = 8 ∧ old.nonce ∈ replies mc ts
    ∃ s' ef, receive r c p s = some (s', ef) ∧
      (∀ n, .request n ∈ ef.challenges ↔ ∃ pc ix, counter mc ts = some (pc, ix) ∧ ¬ answers ∧ old.index ≠ some ix ∧
        micros old.requestLimit < micros p.now ∧ r s.draws = (n, true)) ∧
      (∀ n, .request n ∈ ef.challenges →
        micros (s'.ent p.env.sender).requestLimit = micros p.now + 300000 ∧ s'.draws = s.draws + 1) ∧
      (∀ n, .reply n ∈ ef.challenges ↔ requested mc ts = some n ∧ micros old.replyLimit < micros p.now ∧
        ¬ ∃ pc ix, counter mc ts = some (pc, ix) ∧ ¬ answers ∧ old.index = some ix ∧ value pc ≤ value (old.last mc)) ∧
      (∀ n, .reply n ∈ ef.challenges → micros (s'.ent p.env.sender).replyLimit = micros p.now + 300000) := by
  intro old mc answers'
  obtain ⟨s', ef, h1, h2, -, -⟩ := receive_signed r c k p s ts hp hk hl hs hts
  refine ⟨s', ef, h1, ?_⟩
  have hans : answers p.now old (replies mc ts) = true ↔ answers' := answers_iff hp.2.2.1 hw.d
  have hw : old.Wf := hw
  have h300 := C03_add_msec_exact p.now 300 hp.2.2.1 (by omega)
  have hreply : ∀ (n' : Option Bytes) (b : NAuth), b.replyLimit = old.replyLimit →
      (∀ n, .reply n ∈ (answer1 p.now n' b).2 ↔ n' = some n ∧ micros old.replyLimit < micros p.now) ∧
      (∀ n, .request n ∉ (answer1 p.now n' b).2) ∧
      (∀ n, .reply n ∈ (answer1 p.now n' b).2 → micros (answer1 p.now n' b).1.replyLimit = micros p.now + 300000) := by
    intro n' b hb
    cases n' with
    | none => simp [answer1]
    | some n' =>
      simp only [answer1, challengeReply, hb]
      by_cases hlim : timevalCompare p.now old.replyLimit ≤ 0
      · rw [if_pos hlim]
        rw [compare_nonpos hp.2.2.1 hw.p] at hlim
        simp only [List.not_mem_nil, not_false_eq_true, false_iff, not_and, implies_true, true_and, false_implies, and_true]
        intro n _
        omega
      · rw [if_neg hlim]
        have hlim' : micros old.replyLimit < micros p.now := by
          rw [compare_nonpos hp.2.2.1 hw.p] at hlim; omega
        refine ⟨fun n => ?_, by simp, fun n _ => by simp only; rw [h300.1]; omega⟩
        simp only [List.mem_singleton, Challenge.reply.injEq, Option.some.injEq, hlim', and_true]
        exact eq_comm
  have h2' : judged r mc p.now s.draws old ts = (s'.ent p.env.sender, s'.draws, ef.verdict, ef.challenges) := h2.symm
  unfold judged at h2'
  simp only at h2'
  cases hc : counter mc ts with
  | none =>
    rw [hc] at h2'
    simp only [Prod.mk.injEq] at h2'
    obtain ⟨j1, j2, j3, j4⟩ := h2'
    obtain ⟨q1, q2, q3⟩ := hreply (requested mc ts)
      (if answers p.now old (replies mc ts) then { old with deadline := ⟨0, 0⟩ } else old) (by split <;> rfl)
    rw [j1, j4] at q3
    rw [j4] at q1 q2
    refine ⟨fun n => ?_, fun n h => absurd h (q2 n), fun n => ?_, q3⟩
    · simp only [q2 n, false_iff]; simp
    · rw [q1]; simp
  | some q =>
    obtain ⟨pc, ix⟩ := q
    rw [hc] at h2'
    simp only [Prod.mk.injEq] at h2'
    obtain ⟨j1, j2, j3, j4⟩ := h2'
    cases hh : answers p.now old (replies mc ts) with
    | true =>
      rw [hh] at j1 j2 j4
      simp only [if_true, judge] at j1 j2 j4
      simp only [Bool.false_eq_true, if_false, List.nil_append] at j1 j4
      obtain ⟨q1, q2, q3⟩ := hreply (requested mc ts)
        { old with deadline := ⟨0, 0⟩, index := some ix, pcM := pc, pcU := pc } rfl
      rw [j1, j4] at q3
      rw [j4] at q1 q2
      have ha := hans.1 hh
      refine ⟨fun n => ?_, fun n h => absurd h (q2 n), fun n => ?_, q3⟩
      · simp only [q2 n, false_iff]; simp [ha]
      · rw [q1]; simp [ha]
    | false =>
      have hna : ¬ answers' := fun h => by rw [hans.2 h] at hh; cases hh
      rw [hh] at j1 j2 j4
      simp only [Bool.false_eq_true, if_false] at j1 j2 j4
      by_cases hi : old.index = some ix
      · have hml := memcmpLe_value pc (old.last mc) (by rw [(counter_len hc).1, hw.last])
        by_cases hm : memcmpLe pc (old.last mc) = true
        · have ej : judge r mc p.now s.draws false pc ix old = (old, s.draws, .dropped, [], true) := by
            unfold judge
            have hm' : memcmpLe pc (if mc then old.pcM else old.pcU) = true := hm
            rw [if_neg (by simp), if_neg (not_not_intro hi), if_pos hm']
          rw [ej] at j1 j2 j4
          simp only [if_true, answer1, List.append_nil] at j1 j4
          rw [← j4]
          have hle := hml.1 hm
          refine ⟨fun n => ?_, by simp, fun n => ?_, by simp⟩
          · simp [hi]
          · simp only [List.not_mem_nil, false_iff, not_and, Classical.not_not]
            exact fun _ _ => ⟨pc, ix, rfl, hna, hi, hle⟩
        · have ej : judge r mc p.now s.draws false pc ix old =
              (if mc then { old with pcM := pc } else { old with pcU := pc }, s.draws, .newer, [], false) := by
            unfold judge
            have hm' : ¬ memcmpLe pc (if mc then old.pcM else old.pcU) = true := hm
            rw [if_neg (by simp), if_neg (not_not_intro hi), if_neg hm']
          rw [ej] at j1 j2 j4
          simp only [Bool.false_eq_true, if_false, List.nil_append] at j1 j4
          obtain ⟨q1, q2, q3⟩ := hreply (requested mc ts) (if mc then { old with pcM := pc } else { old with pcU := pc })
            (by split <;> rfl)
          rw [j1, j4] at q3
          rw [j4] at q1 q2
          have hlt : ¬ value pc ≤ value (old.last mc) := fun h => hm (hml.2 h)
          refine ⟨fun n => ?_, fun n h => absurd h (q2 n), fun n => ?_, q3⟩
          · simp only [q2 n, false_iff]; simp [hi]
          · rw [q1]
            simp only [Option.some.injEq, Prod.mk.injEq]
            constructor
            · rintro ⟨a1, a2⟩
              refine ⟨a1, a2, ?_⟩
              rintro ⟨pc', ix', ⟨rfl, rfl⟩, _, _, h⟩
              exact hlt h
            · rintro ⟨a1, a2, _⟩; exact ⟨a1, a2⟩
      · have ej : judge r mc p.now s.draws false pc ix old =
            ((challengeRequest r p.now s.draws old).1, (challengeRequest r p.now s.draws old).2.1, .dropped,
              (challengeRequest r p.now s.draws old).2.2, false) := by
          unfold judge
          rw [if_neg (by simp), if_pos hi]
        rw [ej] at j1 j2 j4
        simp only [Bool.false_eq_true, if_false] at j1 j2 j4
        have hrl : (challengeRequest r p.now s.draws old).1.replyLimit = old.replyLimit := by
          unfold challengeRequest
          split
          · rfl
          · simp only; split <;> rfl
        obtain ⟨q1, q2, q3⟩ := hreply (requested mc ts) _ hrl
        have hnr : ∀ n, .reply n ∉ (challengeRequest r p.now s.draws old).2.2 := by
          intro n
          unfold challengeRequest
          split
          · simp
          · simp only; split <;> simp
        have hrq : ∀ n, .request n ∈ (challengeRequest r p.now s.draws old).2.2 ↔
            micros old.requestLimit < micros p.now ∧ r s.draws = (n, true) := by
          intro n
          unfold challengeRequest
          split
          · next hlim =>
            rw [compare_nonpos hp.2.2.1 hw.q] at hlim
            simp only [List.not_mem_nil, false_iff, not_and]
            omega
          · next hlim =>
            rw [compare_nonpos hp.2.2.1 hw.q] at hlim
            have hlt : micros old.requestLimit < micros p.now := by omega
            simp only
            split
            · next hd =>
              simp only [List.mem_singleton, Challenge.request.injEq, hlt, true_and]
              constructor
              · rintro rfl; rw [← hd]
              · intro h; rw [h]
            · next hd =>
              simp only [List.not_mem_nil, false_iff, not_and]
              intro _ h
              exact hd (by rw [h])
        have hql : (∃ n, .request n ∈ (challengeRequest r p.now s.draws old).2.2) →
            (answer1 p.now (requested mc ts) (challengeRequest r p.now s.draws old).1).1.requestLimit =
              timevalAddMsec p.now 300 ∧ (challengeRequest r p.now s.draws old).2.1 = s.draws + 1 := by
          rintro ⟨n, h⟩
          obtain ⟨rl, out, ea, -⟩ := answer1_frame p.now (requested mc ts) (challengeRequest r p.now s.draws old).1
          rw [ea]
          unfold challengeRequest at h ⊢
          split
          · next hlim => rw [if_pos hlim] at h; simp at h
          · next hlim =>
            rw [if_neg hlim] at h
            simp only at h ⊢
            split
            · exact ⟨rfl, rfl⟩
            · next hd => rw [if_neg hd] at h; simp at h
        rw [← j4]
        simp only [List.mem_append]
        refine ⟨fun n => ?_, fun n h => ?_, fun n => ?_, fun n h => ?_⟩
        · rw [hrq]
          simp only [q2 n, or_false, Option.some.injEq, Prod.mk.injEq]
          constructor
          · rintro ⟨a1, a2⟩; exact ⟨pc, ix, ⟨rfl, rfl⟩, hna, hi, a1, a2⟩
          · rintro ⟨_, _, _, _, _, a1, a2⟩; exact ⟨a1, a2⟩
        · rcases h with h | h
          · obtain ⟨k1, k2⟩ := hql ⟨n, h⟩
            rw [← j1, ← j2, k1, k2, h300.1]
            exact ⟨by omega, rfl⟩
          · exact absurd h (q2 n)
        · simp only [hnr n, false_or, q1]
          simp only [Option.some.injEq, Prod.mk.injEq]
          constructor
          · rintro ⟨a1, a2⟩
            refine ⟨a1, a2, ?_⟩
            rintro ⟨pc', ix', ⟨rfl, rfl⟩, _, h, _⟩
            exact hi h
          · rintro ⟨a1, a2, _⟩; exact ⟨a1, a2⟩
        · rcases h with h | h
          · exact absurd h (hnr n)
          · rw [← j1]; exact q3 n h

namespace DemoAuth
/-- All calls of `read_random_bytes` but the first fail after writing four bytes. -/
def rs : Nonces := fun n => if 1 ≤ n then ([5, 5, 5, 5, 9, 9, 9, 0], false) else r n
end DemoAuth

open DemoAuth in
/-- Finding: if `read_random_bytes` fails halfway while a challenge is outstanding, the nonce sent is
no longer accepted, and one that was never sent is. -/
theorem C16_short_read :
    ((arun rs {} [first, .packet c (rx all [pc 2 ix1] 400), .packet c (rx a [.tlv 19 (rs 0).1, pc 3 ix1] 500),
        .packet c (rx a [.tlv 19 [5, 5, 5, 5, 9, 9, 9, 0], pc 4 ix1] 600)]).map fun x =>
      x.2.map fun e => (e.verdict, e.challenges)) =
    some [(.dropped, [.request (rs 0).1]), (.dropped, []), (.dropped, []), (.answered, [])] := by decide +kernel

open DemoAuth in
/-- Finding: a matching reply in a packet without a counter uses up the challenge. -/
theorem C16_no_counter :
    ((arun r {} [first, .packet c (rx a [.tlv 19 (r 0).1] 100), reply1]).map fun x =>
      x.2.map fun e => (e.verdict, e.challenges)) =
    some [(.dropped, [.request (r 0).1]), (.dropped, []), (.dropped, [])] := by decide +kernel

open DemoAuth in
/-- A challenge request is answered. -/
example : ((arun r {} [first, reply1, .packet c (rx a [.tlv 18 [1, 2, 3], pc 9 ix1] 900)]).map fun x =>
    x.2.map fun e => (e.verdict, e.challenges)) =
    some [(.dropped, [.request (r 0).1]), (.answered, []), (.newer, [.reply [1, 2, 3]])] := by decide +kernel

end Babel
