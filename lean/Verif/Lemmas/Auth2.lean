import Verif.Lemmas.Auth
import Verif.Props.Util
/-
What `parse_packet` does with a packet, according to its signature.
-/
set_option linter.unusedSimpArgs false
set_option linter.unusedVariables false
namespace Babel
open Spec

theorem compare_pos {a b : Timeval} (ha : TvOk a) (hb : TvOk b) :
    timevalCompare a b > 0 ↔ micros b < micros a := by
  obtain ⟨h1, h2, h3, _⟩ := C03_compare a b ha hb
  constructor
  · intro h
    rcases Int.lt_trichotomy (micros a) (micros b) with x | x | x
    · rw [h1.2 x] at h; omega
    · rw [h2.2 x] at h; omega
    · exact x
  · intro h; rw [h3.2 h]; omega

theorem compare_nonpos {a b : Timeval} (ha : TvOk a) (hb : TvOk b) :
    timevalCompare a b ≤ 0 ↔ micros a ≤ micros b := by
  have := compare_pos ha hb
  omega

theorem RxOk.pos {p : Rx} (h : RxOk p) : timevalCompare p.now ⟨0, 0⟩ > 0 := by
  rw [compare_pos h.2.2.1 (by unfold TvOk; decide)]
  simpa [micros] using h.2.2.2

/-! The header -/

/-- The three possibilities for a received packet. -/
theorem rx_cases (p : Rx) (h : RxOk p) (hl : linklocal p.env.sender) :
    (packetHeader p.env p.buf p.len = some none ∧ ∀ b tr, b.length < 65536 → p.bytes ≠ packet b tr) ∨
    (packetHeader p.env p.buf p.len = some (some ((p.len : Int) - 4)) ∧
      ∀ b tr, b.length < 65536 → p.bytes ≠ packet b tr) ∨
    (∃ b tr stale, b.length < 65536 ∧ p.bytes = packet b tr ∧ p.buf = packet b tr ++ stale ∧
      p.len = (packet b tr).length ∧
      packetHeader p.env p.buf p.len = some (some (b.length : Int))) := by
  obtain ⟨h4, hlen, -, -⟩ := h
  obtain ⟨e, buf, len, dst, now⟩ := p
  simp only [Rx.bytes] at *
  match buf, h4 with
  | b0 :: b1 :: b2 :: b3 :: rest, _ =>
  have l0 := b0.toNat_lt
  have l2 := b2.toNat_lt
  have l3 := b3.toNat_lt
  unfold packetHeader
  rw [if_neg (by simp [hl])]
  simp only [rd16, rd_cons_zero, rd_cons_succ, Option.bind_eq_bind, Option.bind_some, Nat.reduceAdd,
    show rd (b0 :: b1 :: b2 :: b3 :: rest) 1 = some b1.toNat from rfl,
    show rd (b0 :: b1 :: b2 :: b3 :: rest) 2 = some b2.toNat from rfl,
    show rd (b0 :: b1 :: b2 :: b3 :: rest) 3 = some b3.toNat from rfl]
  by_cases h0 : b0.toNat = 42
  · rw [if_neg (by simp [h0])]
    by_cases h1 : b1.toNat = 2
    · rw [if_neg (by simp [h1])]
      have e0 : b0 = 42 := UInt8.toNat_inj.1 (by simpa using h0)
      have e1 : b1 = 2 := UInt8.toNat_inj.1 (by simpa using h1)
      subst e0 e1
      simp only [pure, Option.bind_some]
      by_cases hb : 256 * b2.toNat + b3.toNat + 4 > len
      · rw [if_pos hb]
        refine .inr (.inl ⟨rfl, fun b tr hb' he => ?_⟩)
        have hll := congrArg List.length he
        rw [packet_length, List.length_take] at hll
        match len, hlen, hb, hll, he with
        | n + 4, hlen, hb, hll, he =>
        simp only [List.take_succ_cons, packet, List.cons_append, List.cons.injEq, be16, true_and, List.nil_append] at he
        obtain ⟨e2, e3, e4⟩ := he
        rw [e2, e3, toNat_ofNat8, toNat_ofNat8] at hb
        simp at hll hlen
        omega
        | 0, _, _, hll, _ => simp at hll; omega
        | 1, _, _, hll, _ => simp at hll; omega
        | 2, _, _, hll, _ => simp at hll; omega
        | 3, _, _, hll, _ => simp at hll; omega
      · rw [if_neg hb]
        obtain ⟨n, rfl⟩ : ∃ n, len = n + 4 := ⟨len - 4, by omega⟩
        simp only [List.length_cons] at hlen
        have hpk : packet ((rest.take n).take (256 * b2.toNat + b3.toNat)) ((rest.take n).drop (256 * b2.toNat + b3.toNat)) =
            (42 :: 2 :: b2 :: b3 :: rest).take (n + 4) := by
          have hlt : ((rest.take n).take (256 * b2.toNat + b3.toNat)).length = 256 * b2.toNat + b3.toNat := by
            simp; omega
          unfold packet
          rw [hlt, List.append_assoc, List.take_append_drop]
          have : be16 (256 * b2.toNat + b3.toNat) = [b2, b3] := by
            unfold be16
            rw [show (256 * b2.toNat + b3.toNat) / 256 = b2.toNat by omega]
            congr 1
            · simp
            · congr 1
              apply UInt8.toNat_inj.1
              rw [toNat_ofNat8]; omega
          rw [this]
          simp
        have hlt : ((rest.take n).take (256 * b2.toNat + b3.toNat)).length = 256 * b2.toNat + b3.toNat := by
          simp; omega
        refine .inr (.inr ⟨_, _, rest.drop n, ?_, hpk.symm, ?_, ?_, ?_⟩)
        · rw [hlt]; omega
        · rw [hpk]; simp
        · rw [hpk]; simp; omega
        · rw [hlt]
    · rw [if_pos (by simp [h1])]
      refine .inl ⟨rfl, fun b tr _ he => ?_⟩
      have hll := congrArg List.length he
      rw [packet_length, List.length_take] at hll
      obtain ⟨n, rfl⟩ : ∃ n, len = n + 4 := ⟨len - 4, by simp at hll; omega⟩
      simp only [List.take_succ_cons, packet, List.cons_append, List.cons.injEq] at he
      exact h1 (by rw [he.2.1]; rfl)
  · rw [if_pos (by simp [h0])]
    refine .inl ⟨rfl, fun b tr _ he => ?_⟩
    have hll := congrArg List.length he
    rw [packet_length, List.length_take] at hll
    obtain ⟨n, rfl⟩ : ∃ n, len = n + 4 := ⟨len - 4, by simp at hll; omega⟩
    simp only [List.take_succ_cons, packet, List.cons_append, List.cons.injEq] at he
    exact h0 (by rw [he.1]; rfl)

theorem receive_nonlocal (r : Nonces) (c : RIf) (p : Rx) (s : AState) (hl : linklocal p.env.sender = false) :
    receive r c p s = some (s, {}) := by
  unfold receive packetHeader
  rw [if_pos (by simp [hl])]
  rfl

/-- Without a valid signature a packet is ignored. -/
theorem receive_unsigned (r : Nonces) (c : RIf) (k : Key) (p : Rx) (s : AState) (hp : RxOk p) (hk : c.key = some k)
    (ha : c.acceptBad = false) (hs : ¬ Signed k p.env.sender p.dst p.bytes) :
    receive r c p s = some (s, {}) := by
  cases hl : linklocal p.env.sender with
  | false => exact receive_nonlocal r c p s hl
  | true =>
    unfold receive
    rcases rx_cases p hp hl with ⟨h, _⟩ | ⟨h, _⟩ | ⟨b, tr, stale, hb, hby, hbuf, hlen, h⟩
    · rw [h]; rfl
    · rw [h]
      simp only [Option.bind_eq_bind, Option.bind_some, hk, checkHmac_short]
      rw [if_pos (by omega), if_neg (by simp [ha])]
      rfl
    · rw [h]
      simp only [Option.bind_eq_bind, Option.bind_some, hk]
      obtain ⟨rc, h1, h2⟩ := checkHmac_packet k p.env.sender p.dst b tr stale hb
      rw [hbuf, hlen, h1]
      simp only [Option.bind_some]
      rw [if_pos (by rw [← hby] at h2; have := (not_congr h2).2 hs; omega), if_neg (by simp [ha])]
      rfl

/-! Signed packets -/

/-- message.c:563-568 for an existing neighbour. -/
def answer1 (now : Timeval) (nonce : Option Bytes) (a : NAuth) : NAuth × List Challenge :=
  match nonce with
  | none => (a, [])
  | some n => challengeReply now n a

/-- The effect of a signed packet on the neighbour, in terms of its TLVs. -/
def judged (r : Nonces) (mc : Bool) (now : Timeval) (draws : Nat) (a : NAuth) (ts : List Tlv) :
    NAuth × Nat × Verdict × List Challenge :=
  let hit := answers now a (replies mc ts)
  let a1 := if hit then { a with deadline := ⟨0, 0⟩ } else a
  match counter mc ts with
  | none => let x := answer1 now (requested mc ts) a1; (x.1, draws, .dropped, x.2)
  | some (pc, ix) =>
    let j := judge r mc now draws hit pc ix a1
    let x := answer1 now (if j.2.2.2.2 then none else requested mc ts) j.1
    (x.1, j.2.1, j.2.2.1, j.2.2.2.1 ++ x.2)

theorem answer_getD (now : Timeval) (nonce : Option Bytes) (ent : Option NAuth) :
    (answer now nonce ent).1.getD {} = (answer1 now nonce (ent.getD {})).1 ∧
      (answer now nonce ent).2 = (answer1 now nonce (ent.getD {})).2 := by
  cases nonce <;> simp [answer, answer1]

theorem finish_scan (r : Nonces) (mc : Bool) (now : Timeval) (hnow : timevalCompare now ⟨0, 0⟩ > 0) (draws : Nat)
    (ent : Option NAuth) (ts : List Tlv) :
    let f := finish r mc now draws (scanMany mc now { ent := ent } ts)
    (f.1.getD {}, f.2.1, f.2.2.1, f.2.2.2) = judged r mc now draws (ent.getD {}) ts := by
  obtain ⟨h1, h2, h3, h4⟩ := scanMany_eq mc now hnow ts { ent := ent }
  simp only [Option.isSome_none, Option.none_or, Bool.false_or] at h1 h2 h3 h4
  have e1 : (scanMany mc now { ent := ent } ts).pc = counter mc ts := h1
  have e2 : (scanMany mc now { ent := ent } ts).nonce = requested mc ts := by
    rw [h2]; unfold requested; cases mc <;> simp
  have e3 : (scanMany mc now { ent := ent } ts).success = answers now (ent.getD {}) (replies mc ts) := h3
  have e4 : (scanMany mc now { ent := ent } ts).ent.getD {} =
      if answers now (ent.getD {}) (replies mc ts) then { (ent.getD {}) with deadline := ⟨0, 0⟩ } else ent.getD {} := by
    rw [h4]
    unfold replies
    split
    · next h => rw [h]; simp [answers]
    · split
      · rfl
      · rfl
  intro f
  show (f.1.getD {}, f.2.1, f.2.2.1, f.2.2.2) = _
  have hf : f = finish r mc now draws (scanMany mc now { ent := ent } ts) := rfl
  unfold finish at hf
  unfold judged
  simp only [e1, e2, e3] at hf
  simp only
  cases hc : counter mc ts with
  | none =>
    rw [hc] at hf
    simp only at hf
    obtain ⟨g1, g2⟩ := answer_getD now (requested mc ts) (scanMany mc now { ent := ent } ts).ent
    rw [hf]
    simp only [g1, g2, e4]
  | some q =>
    obtain ⟨pc, ix⟩ := q
    rw [hc] at hf
    simp only [e4] at hf
    rw [hf]
    have hg := fun n a => answer_getD now n (some a)
    simp only [Option.getD_some] at hg
    simp only [hg]

theorem set_same (s : AState) (x : Bytes) (e : Option NAuth) : (s.set x e).ent x = e.getD {} := by
  simp [AState.ent, AState.set]

theorem set_other (s : AState) (x y : Bytes) (e : Option NAuth) (h : y ≠ x) : (s.set x e).ent y = s.ent y := by
  simp [AState.ent, AState.set, h]

/-- What is received when a packet is accepted. -/
def itemsOf (e : PEnv) (v : Verdict) (ts : List Tlv) : List Item := if v = .dropped then [] else (many e {} ts).2

theorem deliver_enc (p : Rx) (s : AState) (v : Verdict) (out : List Challenge) (ts : List Tlv) (tail tr stale : Bytes)
    (hok : ∀ t ∈ ts, t.Ok) (ht : Truncated tail) (hbuf : p.buf = packet (encAll ts ++ tail) tr ++ stale) :
    deliver p ((encAll ts ++ tail).length : Nat) s v out =
      some (s.set p.env.sender (some (s.ent p.env.sender)), ⟨v, out, (many p.env {} ts).2⟩) := by
  unfold deliver
  rw [hbuf, List.drop_append_of_le_length (by rw [packet_length]; omega), packet_drop4, List.append_assoc, List.length_append,
    parseBody_enc p.env tail (tr ++ stale) ht ts {} _ hok (by rw [Int.toNat_natCast]; omega)]
  rfl

theorem receive_signed (r : Nonces) (c : RIf) (k : Key) (p : Rx) (s : AState) (ts : List Tlv) (hp : RxOk p)
    (hk : c.key = some k) (hl : linklocal p.env.sender) (hs : Signed k p.env.sender p.dst p.bytes)
    (hts : TlvsOf p.bytes ts) :
    ∃ s' ef, receive r c p s = some (s', ef) ∧
      (s'.ent p.env.sender, s'.draws, ef.verdict, ef.challenges) =
        judged r (multicast p.dst) p.now s.draws (s.ent p.env.sender) ts ∧
      ef.items = itemsOf p.env ef.verdict ts ∧
      ∀ y, y ≠ p.env.sender → s'.ent y = s.ent y := by
  obtain ⟨hok, tail, tr0, ht, hlt, hpk⟩ := hts
  obtain ⟨b0, tr1, m, hb0, hpk', hmac, hhm⟩ := hs
  rcases rx_cases p hp hl with ⟨_, h⟩ | ⟨_, h⟩ | ⟨b, tr, stale, hb, hby, hbuf, hlen, h⟩
  · exact absurd hpk (h _ _ hlt)
  · exact absurd hpk' (h b0 tr1 hb0)
  · rw [hby] at hpk
    obtain ⟨rfl, rfl⟩ := packet_inj hpk hb hlt
    unfold receive
    rw [h]
    simp only [Option.bind_eq_bind, Option.bind_some, hk]
    obtain ⟨rc, h1, h2⟩ := checkHmac_packet k p.env.sender p.dst (encAll ts ++ tail) tr stale hb
    rw [hbuf, hlen, h1]
    simp only [Option.bind_some]
    rw [if_neg (by
      have := h2.2 (by rw [← hby]; exact ⟨b0, tr1, m, hb0, hpk', hmac, hhm⟩)
      omega)]
    unfold preparse
    rw [List.drop_append_of_le_length (by rw [packet_length]; omega), packet_drop4, List.append_assoc, List.length_append,
      scanBody_enc _ p.now tail (tr ++ stale) ht ts _ _ hok (by rw [Int.toNat_natCast]; omega)]
    simp only [Option.bind_eq_bind, Option.bind_some]
    have hf := finish_scan r (multicast p.dst) p.now (RxOk.pos hp) s.draws (s.tab p.env.sender) ts
    simp only at hf
    rw [show (p.dst.head? == some 255) = multicast p.dst from rfl]
    simp only [pure, Option.bind_some]
    generalize finish r (multicast p.dst) p.now s.draws
        (scanMany (multicast p.dst) p.now { ent := s.tab p.env.sender } ts) = f at hf
    obtain ⟨ent, draws, v, out⟩ := f
    simp only at hf ⊢
    by_cases hv : v = .dropped
    · rw [if_pos hv]
      refine ⟨_, _, rfl, ?_, ?_, ?_⟩
      · simp only
        rw [show s.ent p.env.sender = (s.tab p.env.sender).getD {} from rfl, ← hf]
        congr 1
        simp [AState.ent, AState.set]
      · simp [itemsOf, hv]
      · intro y hy; simp [AState.ent, AState.set, hy]
    · rw [if_neg hv, ← List.length_append, deliver_enc p _ v out ts tail tr stale hok ht hbuf]
      refine ⟨_, _, rfl, ?_, ?_, ?_⟩
      · simp only
        rw [show s.ent p.env.sender = (s.tab p.env.sender).getD {} from rfl, ← hf]
        congr 1
        simp [AState.ent, AState.set]
      · simp [itemsOf, hv]
      · intro y hy; simp [AState.ent, AState.set, hy]

theorem parsePacket_deliver (p : Rx) (b : Int) (s : AState) (v : Verdict) (out : List Challenge)
    (h : packetHeader p.env p.buf p.len = some (some b)) (hb : b ≤ (p.buf.drop 4).length) :
    ∃ st items, parsePacket p.env p.buf p.len = some (st, items) ∧
      deliver p b s v out = some (s.set p.env.sender (some (s.ent p.env.sender)), ⟨v, out, items⟩) := by
  unfold parsePacket deliver
  rw [h]
  simp only [Option.bind_eq_bind, Option.bind_some]
  have := parseBody_isSome (e := p.env) (b.toNat + 1) (p.buf.drop 4) b {} (by omega) hb
  obtain ⟨⟨st, items⟩, hx⟩ := Option.isSome_iff_exists.1 this
  exact ⟨st, items, hx, by rw [hx]; rfl⟩

/-- Packets that are not checked are treated as on an interface without a key. -/
theorem receive_unchecked (r : Nonces) (c : RIf) (p : Rx) (s : AState) (hp : RxOk p)
    (hc : c.key = none ∨ ∃ k, c.key = some k ∧ c.acceptBad = true ∧ ¬ Signed k p.env.sender p.dst p.bytes) :
    ∃ s' ef st, receive r c p s = some (s', ef) ∧ parsePacket p.env p.buf p.len = some (st, ef.items) ∧
      ef.challenges = [] ∧ s'.draws = s.draws ∧ (∀ y, s'.ent y = s.ent y) ∧
      (ef.verdict = .unchecked ∨ s' = s ∧ ef = {}) := by
  cases hl : linklocal p.env.sender with
  | false =>
    refine ⟨s, {}, {}, receive_nonlocal r c p s hl, ?_, rfl, rfl, fun _ => rfl, .inr ⟨rfl, rfl⟩⟩
    unfold parsePacket packetHeader
    rw [if_pos (by simp [hl])]
    rfl
  | true =>
    have hset : ∀ y, (s.set p.env.sender (some (s.ent p.env.sender))).ent y = s.ent y := by
      intro y
      by_cases hy : y = p.env.sender
      · subst hy; rw [set_same]; rfl
      · rw [set_other _ _ _ _ hy]
    rcases rx_cases p hp hl with ⟨h, _⟩ | ⟨h, _⟩ | ⟨b, tr, stale, hb, hby, hbuf, hlen, h⟩
    · refine ⟨s, {}, {}, ?_, ?_, rfl, rfl, fun _ => rfl, .inr ⟨rfl, rfl⟩⟩
      · unfold receive; rw [h]; rfl
      · unfold parsePacket; rw [h]; rfl
    · obtain ⟨st, items, h1, h2⟩ := parsePacket_deliver p _ s .unchecked [] h
        (by have := hp.2.1; have := hp.1; rw [List.length_drop]; omega)
      refine ⟨s.set p.env.sender (some (s.ent p.env.sender)), ⟨.unchecked, [], items⟩, st, ?_, h1, rfl, rfl, hset, .inl rfl⟩
      · unfold receive
        rw [h]
        rcases hc with hc | ⟨k, hc, ha, hs⟩
        · simp only [Option.bind_eq_bind, Option.bind_some, hc]
          exact h2
        · simp only [Option.bind_eq_bind, Option.bind_some, hc, checkHmac_short]
          rw [if_pos (by omega), if_pos ha]
          exact h2
    · obtain ⟨st, items, h1, h2⟩ := parsePacket_deliver p _ s .unchecked [] h
        (by rw [hbuf, List.length_drop, List.length_append, packet_length]; omega)
      refine ⟨s.set p.env.sender (some (s.ent p.env.sender)), ⟨.unchecked, [], items⟩, st, ?_, h1, rfl, rfl, hset, .inl rfl⟩
      · unfold receive
        rw [h]
        rcases hc with hc | ⟨k, hc, ha, hs⟩
        · simp only [Option.bind_eq_bind, Option.bind_some, hc]
          exact h2
        · simp only [Option.bind_eq_bind, Option.bind_some, hc]
          obtain ⟨rc, g1, g2⟩ := checkHmac_packet k p.env.sender p.dst b tr stale hb
          rw [← hbuf, ← hlen] at g1
          rw [g1]
          simp only [Option.bind_some]
          rw [if_pos (by rw [← hby] at g2; have := (not_congr g2).2 hs; omega), if_pos ha]
          exact h2

theorem parsePacket_many (p : Rx) (hp : RxOk p) (hl : linklocal p.env.sender) (ts : List Tlv)
    (hts : TlvsOf p.bytes ts) : parsePacket p.env p.buf p.len = some (many p.env {} ts) := by
  obtain ⟨hok, tail, tr0, ht, hlt, hpk⟩ := hts
  rcases rx_cases p hp hl with ⟨_, h⟩ | ⟨_, h⟩ | ⟨b, tr, stale, hb, hby, hbuf, hlen, h⟩
  · exact absurd hpk (h _ _ hlt)
  · exact absurd hpk (h _ _ hlt)
  · rw [hby] at hpk
    obtain ⟨rfl, rfl⟩ := packet_inj hpk hb hlt
    unfold parsePacket
    rw [h]
    simp only [Option.bind_eq_bind, Option.bind_some]
    rw [hbuf, List.drop_append_of_le_length (by rw [packet_length]; omega), packet_drop4, List.append_assoc, List.length_append,
      parseBody_enc p.env tail (tr ++ stale) ht ts {} _ hok (by rw [Int.toNat_natCast]; omega)]

/-- Any signed packet has TLVs. -/
theorem signed_tlvs {k : Key} {src dst P : Bytes} (h : Signed k src dst P) : ∃ ts, TlvsOf P ts := by
  obtain ⟨b, tr, m, hb, hp, _, _⟩ := h
  obtain ⟨ts, tail, h1, h2, h3⟩ := split_tlvs b
  exact ⟨ts, h1, tail, tr, h2, by rw [← h3]; exact hb, by rw [← h3]; exact hp⟩

/-- The effect of one event on the entry of the neighbour `x`. -/
inductive AStep (r : Nonces) (s : AState) (x : Bytes) (s' : AState) : AEv → Effect → Prop
  | other {ev o} : about x ev = false → s'.ent x = s.ent x → AStep r s x s' ev o
  | flush : s'.ent x = {} → AStep r s x s' (.flush x) {}
  | plain {c p o} : p.env.sender = x → s'.ent x = s.ent x → s'.draws = s.draws → o.challenges = [] →
      o.verdict = .dropped ∨ o.verdict = .unchecked → AStep r s x s' (.packet c p) o
  | signed {c p o} (k : Key) (ts : List Tlv) : p.env.sender = x → c.key = some k → linklocal x → RxOk p →
      Signed k x p.dst p.bytes → TlvsOf p.bytes ts →
      (s'.ent x, s'.draws, o.verdict, o.challenges) = judged r (multicast p.dst) p.now s.draws (s.ent x) ts →
      o.items = itemsOf p.env o.verdict ts →
      AStep r s x s' (.packet c p) o

theorem astep_ok (r : Nonces) (s : AState) (ev : AEv) (hev : EvOk ev) :
    ∃ s' o, astep r s ev = some (s', o) ∧ ∀ x, AStep r s x s' ev o := by
  cases ev with
  | flush a =>
    refine ⟨_, _, rfl, fun x => ?_⟩
    by_cases h : x = a
    · subst h; exact .flush (by rw [set_same]; rfl)
    · exact .other (by simp [about]; exact fun hh => h hh.symm) (set_other _ _ _ _ h)
  | packet c p =>
    have hp : RxOk p := hev
    simp only [astep]
    have hpl : ∀ s' o, (∀ y, s'.ent y = s.ent y) → s'.draws = s.draws → o.challenges = [] →
        (o.verdict = .dropped ∨ o.verdict = .unchecked) → ∀ x, AStep r s x s' (.packet c p) o := by
      intro s' o h1 h2 h3 h4 x
      by_cases hx : p.env.sender = x
      · exact .plain hx (h1 x) h2 h3 h4
      · exact .other (by simp [about, hx]) (h1 x)
    by_cases hl : linklocal p.env.sender = true
    · cases hk : c.key with
      | none =>
        obtain ⟨s', ef, st, h1, h2, h3, h4, h5, h6⟩ := receive_unchecked r c p s hp (.inl hk)
        exact ⟨s', ef, h1, hpl s' ef h5 h4 h3 (h6.elim .inr fun h => .inl (by rw [h.2]))⟩
      | some k =>
        by_cases hs : Signed k p.env.sender p.dst p.bytes
        · obtain ⟨ts, hts⟩ := signed_tlvs hs
          obtain ⟨s', ef, h1, h2, h3, h4⟩ := receive_signed r c k p s ts hp hk hl hs hts
          refine ⟨s', ef, h1, fun x => ?_⟩
          by_cases hx : p.env.sender = x
          · subst hx; exact .signed k ts rfl hk hl hp hs hts h2 h3
          · exact .other (by simp [about, hx]) (h4 x (fun h => hx h.symm))
        · cases ha : c.acceptBad with
          | false => exact ⟨s, {}, receive_unsigned r c k p s hp hk ha hs, hpl _ _ (fun _ => rfl) rfl rfl (.inl rfl)⟩
          | true =>
            obtain ⟨s', ef, st, h1, h2, h3, h4, h5, h6⟩ := receive_unchecked r c p s hp (.inr ⟨k, hk, ha, hs⟩)
            exact ⟨s', ef, h1, hpl s' ef h5 h4 h3 (h6.elim .inr fun h => .inl (by rw [h.2]))⟩
    · exact ⟨s, {}, receive_nonlocal r c p s (by simpa using hl), hpl _ _ (fun _ => rfl) rfl rfl (.inl rfl)⟩

end Babel
