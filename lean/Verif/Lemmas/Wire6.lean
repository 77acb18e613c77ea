import Verif.Lemmas.Wire5
/-
What each kind of TLV does (continued).
-/
set_option linter.unusedSimpArgs false
set_option linter.unusedVariables false
namespace Babel
open Spec

theorem be16_append (n : Nat) (l : Bytes) : be16 n ++ l = UInt8.ofNat (n / 256) :: UInt8.ofNat n :: l := rfl

theorem rd16_lit {n : Nat} (h : n < 65536) (l : Bytes) :
    rd16 (UInt8.ofNat (n / 256) :: UInt8.ofNat n :: l) 0 = some n := rd16_be16 n l h

theorem run2 (e s b) : runTlv e s 2 b = tlvAckReq s (2 :: UInt8.ofNat b.length :: b) b.length := rfl
theorem run3 (e s b) : runTlv e s 3 b = tlvAck s (3 :: UInt8.ofNat b.length :: b) b.length := rfl
theorem run4 (e s b) : runTlv e s 4 b = tlvHello s (4 :: UInt8.ofNat b.length :: b) b.length := rfl
theorem run5 (e s b) : runTlv e s 5 b = tlvIhu e s (5 :: UInt8.ofNat b.length :: b) b.length := rfl
theorem run6 (e s b) : runTlv e s 6 b = tlvRouterId s (6 :: UInt8.ofNat b.length :: b) b.length := rfl
theorem run7 (e s b) : runTlv e s 7 b = tlvNh s (7 :: UInt8.ofNat b.length :: b) b.length := rfl
theorem run8 (e s b) : runTlv e s 8 b = tlvUpdate e s (8 :: UInt8.ofNat b.length :: b) b.length := rfl
theorem run9 (e s b) : runTlv e s 9 b = tlvRequest s (9 :: UInt8.ofNat b.length :: b) b.length := rfl
theorem run10 (e s b) : runTlv e s 10 b = tlvSeqno s (10 :: UInt8.ofNat b.length :: b) b.length := rfl

theorem run_other (e s) (ty : UInt8) (b) (h : ty < 2 ∨ 10 < ty) : runTlv e s ty b = some (s, []) := by
  have h' : ty.toNat < 2 ∨ 10 < ty.toNat := by
    rcases h with h | h
    · left; simpa [UInt8.lt_iff_toNat_lt] using h
    · right; simpa [UInt8.lt_iff_toNat_lt] using h
  unfold runTlv parseTlv
  repeat rw [if_neg (by omega)]

section
variable (e : PEnv) (s : PState)

theorem ackReq_aux (res nonce interval : Nat) (subs : Bytes) (h1 : nonce < 65536) (h2 : interval < 65536) :
    (Readable [] subs → runTlv e s 2 (be16 res ++ be16 nonce ++ be16 interval ++ subs) =
      some (s, [.ackReq nonce interval])) ∧
    (¬ Readable [] subs → runTlv e s 2 (be16 res ++ be16 nonce ++ be16 interval ++ subs) = some (s, [])) := by
  rw [run2]
  unfold tlvAckReq
  simp only [List.append_assoc, be16_append, List.cons_append, List.nil_append, List.length_cons, rd16_cons, rd16_lit h1, rd16_lit h2,
    Option.bind_eq_bind, Option.bind_some, List.drop_succ_cons, List.drop_zero]
  rw [if_neg (by omega)]
  constructor <;> intro h
  · rw [parseOtherSub_good h (by omega)]; rfl
  · rw [parseOtherSub_bad h (by omega)]; rfl

theorem testBit15 {n : Nat} (h : n < 65536) : (UInt8.ofNat (n / 256)).toNat &&& 128 = if 32768 ≤ n then 128 else 0 := by
  rw [and_0x80]
  have : (128 ≤ UInt8.ofNat (n / 256)) ↔ 32768 ≤ n := by
    rw [UInt8.le_iff_toNat_le, toNat_ofNat8, Nat.mod_eq_of_lt (by omega)]
    show 128 ≤ n / 256 ↔ _
    omega
  simp only [this]

theorem hello_aux (flags seqno interval : Nat) (subs : Bytes) (h0 : flags < 65536) (h1 : seqno < 65536)
    (h2 : interval < 65536) :
    (∀ ss, SubTlvs subs ss → Understood [] ss →
      runTlv e s 4 (be16 flags ++ be16 seqno ++ be16 interval ++ subs) =
        some ({ s with haveHelloRtt := s.haveHelloRtt || (helloTime ss).isSome },
          [.hello (decide (32768 ≤ flags)) seqno interval (helloTime ss)])) ∧
    (¬ Readable [] subs → runTlv e s 4 (be16 flags ++ be16 seqno ++ be16 interval ++ subs) = some (s, [])) := by
  rw [run4]
  unfold tlvHello
  simp only [List.append_assoc, be16_append, List.cons_append, List.nil_append, List.length_cons, rd16_cons, rd16_lit h1, rd16_lit h2,
    Option.bind_eq_bind, Option.bind_some, List.drop_succ_cons, List.drop_zero, rd_cons_succ, rd_cons_zero, testBit15 h0]
  rw [if_neg (by omega)]
  constructor
  · intro ss hs hu
    rw [parseHelloSub_good hs hu (by omega)]
    simp only [Option.bind_some]
    by_cases h : 32768 ≤ flags <;> simp [h]
  · intro h
    rw [parseHelloSub_bad h (by omega)]; rfl

theorem ofNat8_known (ae : UInt8) : knownAe ae.toNat = true ↔ ae.toNat ≤ 4 := by
  simp [knownAe]; omega

theorem ihu_aux (ae res : UInt8) (txcost interval : Nat) (wire addr subs : Bytes) (h1 : txcost < 65536)
    (h2 : interval < 65536) (ha : EncodedAddr ae.toNat wire addr) :
    (ae = 0 ∨ e.isOurs addr = true → ∀ ss, SubTlvs subs ss → Understood [] ss →
      runTlv e s 5 ([ae, res] ++ be16 txcost ++ be16 interval ++ wire ++ subs) =
        some ({ s with echo := (ihuTimes ss).getD s.echo }, [.ihu txcost interval])) ∧
    (¬ (ae = 0 ∨ e.isOurs addr = true) ∨ ¬ Readable [] subs →
      runTlv e s 5 ([ae, res] ++ be16 txcost ++ be16 interval ++ wire ++ subs) = some (s, [])) := by
  have hz : ae.toNat = 0 ↔ ae = 0 := toNat_eq (by decide)
  have hk : knownAe ae.toNat = true := by
    rw [ofNat8_known]
    generalize ae.toNat = n at ha
    cases ha <;> omega
  rw [run5]
  unfold tlvIhu
  simp only [List.append_assoc, be16_append, List.cons_append, List.nil_append, List.length_cons, rd16_cons, rd16_lit h1, rd16_lit h2, List.cons_append,
    List.nil_append,
    Option.bind_eq_bind, Option.bind_some, List.drop_succ_cons, List.drop_zero, rd_cons_succ, rd_cons_zero, hk,
    Bool.not_true, Bool.false_eq_true, if_false]
  rw [if_neg (by omega)]
  rw [networkAddress_good ha subs (by simp only [List.length_append]; omega)]
  have hd : List.drop (8 + wire.length) (5 :: UInt8.ofNat ((wire ++ subs).length + 1 + 1 + 1 + 1 + 1 + 1) ::
      ae :: res :: UInt8.ofNat (txcost / 256) :: UInt8.ofNat txcost ::
        UInt8.ofNat (interval / 256) :: UInt8.ofNat interval :: (wire ++ subs)) = subs := by
    rw [Nat.add_comm]; simp
  simp only [Option.bind_some, hd]
  have hc : ((decide (ae.toNat = 0) || e.isOurs addr) = true) ↔ (ae = 0 ∨ e.isOurs addr = true) := by
    rw [Bool.or_eq_true, decide_eq_true_eq, hz]
  constructor
  · intro hm ss hs hu
    rw [if_pos (hc.2 hm), parseIhuSub_good hs hu (by simp only [List.length_append]; omega)]
    simp only [Option.bind_some]
    cases ihuTimes ss <;> rfl
  · intro h
    by_cases hm : ae = 0 ∨ e.isOurs addr = true
    · rcases h with h | h
      · exact absurd hm h
      rw [if_pos (hc.2 hm), parseIhuSub_bad h (by simp only [List.length_append]; omega)]; rfl
    · rw [if_neg (fun h => hm (hc.1 h))]; rfl

theorem ihu_bad (ae res : UInt8) (txcost interval : Nat) (rest : Bytes) (h1 : txcost < 65536)
    (h2 : interval < 65536) (ha : ¬ ∃ wire subs addr, rest = wire ++ subs ∧ EncodedAddr ae.toNat wire addr) :
    runTlv e s 5 ([ae, res] ++ be16 txcost ++ be16 interval ++ rest) = some (s, []) := by
  rw [run5]
  unfold tlvIhu
  simp only [List.append_assoc, be16_append, List.cons_append, List.nil_append, List.length_cons, rd16_cons, rd16_lit h1, rd16_lit h2, List.cons_append,
    List.nil_append,
    Option.bind_eq_bind, Option.bind_some, List.drop_succ_cons, List.drop_zero, rd_cons_succ, rd_cons_zero]
  rw [if_neg (by omega), networkAddress_bad ha (by omega)]
  split <;> rfl

theorem routerId_aux (res : Nat) (id subs : Bytes) (h : id.length = 8) :
    runTlv e s 6 (be16 res ++ id ++ subs) = some ({ s with routerId := some id }, []) := by
  rw [run6]
  unfold tlvRouterId
  simp only [List.append_assoc, be16_append, List.cons_append, List.nil_append, List.length_cons, List.length_append, h, List.drop_succ_cons, List.drop_zero]
  rw [if_neg (by omega), rdN_some (by simp [h]), List.take_append_of_le_length (by omega), List.take_of_length_le (by omega)]
  obtain ⟨v, hv⟩ := Option.isSome_iff_exists.1 (parseOtherSub_isSome (a := List.drop 8 (id ++ subs))
    (alen := (8 + subs.length + 1 + 1 : Nat) - 10) (by simp [h]; omega))
  simp only [Option.bind_eq_bind, Option.bind_some, hv]
  rfl

theorem nh_aux (ae res : UInt8) (wire addr subs : Bytes) (ha : EncodedAddr ae.toNat wire addr) :
    runTlv e s 7 ([ae, res] ++ wire ++ subs) =
      some (if ae = 1 then { s with v4Nh := some addr } else if ae = 0 then s else { s with v6Nh := some addr }, []) := by
  have hz : ae.toNat = 0 ↔ ae = 0 := toNat_eq (by decide)
  have h1 : ae.toNat = 1 ↔ ae = 1 := toNat_eq (by decide)
  have hk : ae.toNat ≤ 3 := by
    generalize ae.toNat = n at ha
    cases ha <;> omega
  have hk' : knownAe ae.toNat = true := by rw [ofNat8_known]; omega
  rw [run7]
  unfold tlvNh
  simp only [List.append_assoc, List.length_cons, List.cons_append,
    List.nil_append, Option.bind_eq_bind, Option.bind_some, List.drop_succ_cons, List.drop_zero, rd_cons_succ, rd_cons_zero]
  rw [if_neg (by omega)]
  rw [networkAddress_good ha subs (by simp only [List.length_append]; omega)]
  simp only [Option.bind_some, hk', Bool.not_true, Bool.false_eq_true, if_false]
  by_cases h0 : ae = 0
  · subst h0; rfl
  rw [if_neg (by rw [hz]; exact h0)]
  have hd : List.drop (4 + wire.length) (7 :: UInt8.ofNat ((wire ++ subs).length + 1 + 1) :: ae :: res :: (wire ++ subs)) = subs := by
    rw [Nat.add_comm]; simp
  obtain ⟨v, hv⟩ := Option.isSome_iff_exists.1 (parseOtherSub_isSome (a := subs)
    (alen := ((wire ++ subs).length + 1 + 1 : Nat) - 2 - wire.length) (by simp; omega))
  simp only [hd, hv, Option.bind_some]
  by_cases h1' : ae = 1
  · rw [if_pos (h1.2 h1'), if_pos h1']; rfl
  · have := mt h1.1 h1'
    have := mt hz.1 h0
    rw [if_neg (mt h1.1 h1'), if_neg h1', if_pos (by simp; omega), if_neg h0]; rfl

theorem nh_bad (ae res : UInt8) (rest : Bytes) (ha : ¬ ∃ wire subs addr, rest = wire ++ subs ∧ EncodedAddr ae.toNat wire addr) :
    runTlv e s 7 ([ae, res] ++ rest) =
      some (if ae ≤ 4 then { s with v4Nh := none, v6Nh := none } else s, []) := by
  have hle : ae ≤ 4 ↔ ae.toNat ≤ 4 := by rw [UInt8.le_iff_toNat_le]; rfl
  have hz : ae.toNat ≠ 0 := by
    intro h
    exact ha ⟨[], rest, zeroes16, rfl, by rw [h]; exact .wildcard⟩
  rw [run7]
  unfold tlvNh
  simp only [List.length_cons, List.cons_append,
    List.nil_append, Option.bind_eq_bind, Option.bind_some, List.drop_succ_cons, List.drop_zero, rd_cons_succ, rd_cons_zero]
  rw [if_neg (by omega), networkAddress_bad ha (by omega)]
  simp only [Option.bind_some]
  by_cases hk : ae ≤ 4
  · rw [if_neg (by rw [(ofNat8_known ae).2 (hle.1 hk)]; simp), if_neg hz, if_pos hk]; rfl
  · rw [if_pos (by rw [Bool.not_eq_true']; exact Bool.eq_false_iff.2 (fun h => hk (hle.2 ((ofNat8_known ae).1 h)))), if_neg hk]; rfl

theorem defaultFor_eq (ae : Nat) : s.defaultPrefix ae = defaultFor s ae := by
  unfold PState.defaultPrefix defaultFor
  split
  · subst_vars; rfl
  split
  · subst_vars; rfl
  split
  · subst_vars; rfl
  · split <;> simp_all

theorem testBit_flags (f : UInt8) : (f.toNat &&& 128 ≠ 0 ↔ f.toNat.testBit 7 = true) ∧
    (f.toNat &&& 64 ≠ 0 ↔ f.toNat.testBit 6 = true) := by
  have : ∀ n < 256, (n &&& 128 ≠ 0 ↔ n.testBit 7 = true) ∧ (n &&& 64 ≠ 0 ↔ n.testBit 6 = true) := by decide +kernel
  exact this _ f.toNat_lt

theorem normalizePrefix_length (p : Bytes) (n : Nat) (h : 16 ≤ p.length) : (normalizePrefix p n).length = 16 := by
  unfold normalizePrefix
  split
  · simp; omega
  · simp only []
    split
    · simp; omega
    · simp; omega

theorem Spec.Encoded.length {ae plen om dp wire pfx} (h : Encoded ae plen om dp wire pfx) : pfx.length = 16 := by
  cases h with
  | wildcard => rfl
  | _ => exact normalizePrefix_length _ _ (by simp [zeroPadded]; omega)

theorem applyFlags_eq (flags : UInt8) (ae : Nat) (pfx : Bytes) (h : pfx.length = 16) :
    s.applyFlags flags.toNat ae pfx = withId (withDefault s flags.toNat ae pfx) flags.toNat ae pfx := by
  have h7 := (testBit_flags flags).1
  have h6 := (testBit_flags flags).2
  unfold PState.applyFlags withId
  have e1 : (if flags.toNat &&& 128 ≠ 0 then s.setDefault ae pfx else s) = withDefault s flags.toNat ae pfx := by
    unfold withDefault
    by_cases hf : flags.toNat.testBit 7 = true
    · rw [if_pos (h7.2 hf), hf]
      unfold PState.setDefault
      split
      · subst_vars; rfl
      split
      · subst_vars; rfl
      split
      · subst_vars; rfl
      · split <;> simp_all
    · rw [if_neg (mt h7.1 hf)]
      simp only [Bool.not_eq_true] at hf
      rw [hf]
  have e2 : idOfPrefix ae pfx = if ae = 1 ∨ ae = 4 then [0, 0, 0, 0] ++ pfx.drop 12 else pfx.drop 8 := by
    unfold idOfPrefix
    by_cases h4 : ae = 1 ∨ ae = 4
    · rw [if_pos h4, if_pos (by rcases h4 with rfl | rfl <;> rfl), List.take_of_length_le (by simp [h])]
    · rw [if_neg h4, if_neg (by simp [aeIsV4]; omega), List.take_of_length_le (by simp [h])]
  simp only []
  rw [e1, e2]
  by_cases hf : flags.toNat.testBit 6 = true
  · rw [if_pos (h6.2 hf), if_pos hf]
  · rw [if_neg (mt h6.1 hf), if_neg hf]

/-- Common part of the treatment of an update. -/
theorem update_aux (ae flags plen omitted : UInt8) (interval seqno metric : Nat) (wire subs pfx : Bytes)
    (h1 : interval < 65536) (h2 : seqno < 65536) (h3 : metric < 65536)
    (hae : ae ≤ 4) (h4 : ae = 4 → e.v4viav6 = true)
    (hom : omitted = 0 ∨ (defaultFor s ae.toNat).isSome)
    (hp : Encoded ae.toNat plen.toNat omitted.toNat (defaultFor s ae.toNat) wire pfx) :
    let s' := withId (withDefault s flags.toNat ae.toNat pfx) flags.toNat ae.toNat pfx
    runTlv e s 8 (updateFixed ae flags plen omitted interval seqno metric ++ wire ++ subs) =
      (updateItems e s' ae.toNat plen.toNat pfx seqno metric interval subs subs.length).map fun i => (s', i) := by
  have hle : ae ≤ 4 ↔ ae.toNat ≤ 4 := by rw [UInt8.le_iff_toNat_le]; rfl
  have hz : omitted.toNat = 0 ↔ omitted = 0 := toNat_eq (by decide)
  have h4' : ae.toNat = 4 ↔ ae = 4 := toNat_eq (by decide)
  simp only []
  rw [run8]
  unfold tlvUpdate updateFixed
  simp only [List.append_assoc, be16_append, List.cons_append, List.nil_append, List.length_cons, rd16_cons, rd16_lit h1, rd16_lit h2, rd16_lit h3,
    List.cons_append, List.nil_append,
    Option.bind_eq_bind, Option.bind_some, List.drop_succ_cons, List.drop_zero, rd_cons_succ, rd_cons_zero]
  rw [if_neg (by omega), if_neg (by rw [(ofNat8_known ae).2 (hle.1 hae)]; simp),
    if_neg (by
      simp only [Bool.and_eq_true, decide_eq_true_eq, h4', Bool.not_eq_true', not_and]
      intro h; rw [h4 h]; simp)]
  have e1 : updatePrefix s ae.toNat plen.toNat omitted.toNat (wire ++ subs)
      ((wire ++ subs).length + 1 + 1 + 1 + 1 + 1 + 1 + 1 + 1 + 1 + 1 - 10) = some (some (wire.length, pfx)) := by
    unfold updatePrefix
    rw [defaultFor_eq, if_pos (by rw [hz]; exact hom)]
    exact networkPrefix_good hp subs (by simp only [List.length_append]; omega)
  rw [e1]
  have hd : List.drop (12 + wire.length) (8 :: UInt8.ofNat ((wire ++ subs).length + 1 + 1 + 1 + 1 + 1 + 1 + 1 + 1 + 1 + 1) ::
      ae :: flags :: plen :: omitted :: UInt8.ofNat (interval / 256) :: UInt8.ofNat interval ::
        UInt8.ofNat (seqno / 256) :: UInt8.ofNat seqno :: UInt8.ofNat (metric / 256) :: UInt8.ofNat metric ::
        (wire ++ subs)) = subs := by
    rw [Nat.add_comm]; simp
  simp only [Option.bind_some, hd]
  rw [applyFlags_eq s flags _ _ hp.length]
  have hal : (((wire ++ subs).length + 1 + 1 + 1 + 1 + 1 + 1 + 1 + 1 + 1 + 1 : Nat) : Int) - 10 - wire.length = subs.length := by
    simp only [List.length_append]; omega
  rw [hal]
  cases updateItems e _ ae.toNat plen.toNat pfx seqno metric interval subs subs.length <;> rfl

theorem update_bad (ae flags plen omitted : UInt8) (interval seqno metric : Nat) (rest : Bytes)
    (h1 : interval < 65536) (h2 : seqno < 65536) (h3 : metric < 65536)
    (hae : ae ≤ 4) (h4 : ae = 4 → e.v4viav6 = true)
    (hp : ¬ ((omitted = 0 ∨ (defaultFor s ae.toNat).isSome) ∧ ∃ wire subs pfx, rest = wire ++ subs ∧
      Encoded ae.toNat plen.toNat omitted.toNat (defaultFor s ae.toNat) wire pfx)) :
    runTlv e s 8 (updateFixed ae flags plen omitted interval seqno metric ++ rest) =
      some (if flags.toNat.testBit 7 then { s with v4Prefix := none, v6Prefix := none, v4v6Prefix := none } else s, []) := by
  have hle : ae ≤ 4 ↔ ae.toNat ≤ 4 := by rw [UInt8.le_iff_toNat_le]; rfl
  have hz : omitted.toNat = 0 ↔ omitted = 0 := toNat_eq (by decide)
  have h4' : ae.toNat = 4 ↔ ae = 4 := toNat_eq (by decide)
  rw [run8]
  unfold tlvUpdate updateFixed
  simp only [List.append_assoc, be16_append, List.cons_append, List.nil_append, List.length_cons, rd16_cons, rd16_lit h1, rd16_lit h2, rd16_lit h3,
    List.cons_append, List.nil_append,
    Option.bind_eq_bind, Option.bind_some, List.drop_succ_cons, List.drop_zero, rd_cons_succ, rd_cons_zero]
  rw [if_neg (by omega), if_neg (by rw [(ofNat8_known ae).2 (hle.1 hae)]; simp),
    if_neg (by
      simp only [Bool.and_eq_true, decide_eq_true_eq, h4', Bool.not_eq_true', not_and]
      intro h; rw [h4 h]; simp)]
  have e1 : updatePrefix s ae.toNat plen.toNat omitted.toNat rest
      (rest.length + 1 + 1 + 1 + 1 + 1 + 1 + 1 + 1 + 1 + 1 - 10) = some none := by
    unfold updatePrefix
    rw [defaultFor_eq]
    by_cases ho : omitted = 0 ∨ (defaultFor s ae.toNat).isSome
    · rw [if_pos (by rw [hz]; exact ho)]
      exact networkPrefix_bad (fun h => hp ⟨ho, h⟩) (by omega)
    · rw [if_neg (by rw [hz]; exact ho)]
  rw [e1]
  simp only [Option.bind_some]
  have h7 := (testBit_flags flags).1
  by_cases hf : flags.toNat.testBit 7 = true
  · rw [if_pos (h7.2 hf), if_pos hf]; rfl
  · rw [if_neg (mt h7.1 hf), if_neg hf]; rfl

theorem realLen_eq {ae plen om dp wire pfx} (h : Encoded ae plen om dp wire pfx) :
    realLen ae plen = plen + if ae = 1 ∨ ae = 4 then 96 else 0 := by
  unfold realLen
  by_cases h4 : ae = 1 ∨ ae = 4
  · rw [if_pos (by rcases h4 with rfl | rfl <;> rfl), if_pos h4]
    cases h <;> omega
  · rw [if_neg (by simp [aeIsV4]; omega), if_neg h4]
    cases h <;> omega

theorem realLen_ae {ae : UInt8} {plen om dp wire pfx} (h : Encoded ae.toNat plen om dp wire pfx) :
    realLen ae.toNat plen = plen + if ae = 1 ∨ ae = 4 then 96 else 0 := by
  have h1 : ae.toNat = 1 ↔ ae = 1 := toNat_eq (by decide)
  have h4 : ae.toNat = 4 ↔ ae = 4 := toNat_eq (by decide)
  rw [realLen_eq h]
  by_cases h5 : ae = 1 ∨ ae = 4
  · rw [if_pos h5, if_pos (by rw [h1, h4]; exact h5)]
  · rw [if_neg h5, if_neg (by rw [h1, h4]; exact h5)]

theorem request_aux (ae plen : UInt8) (wire subs pfx : Bytes)
    (hp : Encoded ae.toNat plen.toNat 0 none wire pfx) :
    (∀ src, ReadSource ae.toNat subs src → runTlv e s 9 ([ae, plen] ++ wire ++ subs) =
      some (s, if ae = 0 then (if isDefault src.1 src.2 then [.requestAll] else [])
        else [.request ⟨pfx, plen.toNat + if ae = 1 ∨ ae = 4 then 96 else 0, src.1, src.2⟩])) ∧
    ((¬ ∃ src, ReadSource ae.toNat subs src) → runTlv e s 9 ([ae, plen] ++ wire ++ subs) = some (s, [])) := by
  have hz : ae.toNat = 0 ↔ ae = 0 := toNat_eq (by decide)
  have h1 : ae.toNat = 1 ↔ ae = 1 := toNat_eq (by decide)
  have h4 : ae.toNat = 4 ↔ ae = 4 := toNat_eq (by decide)
  have hk : knownAe ae.toNat = true := by
    rw [ofNat8_known]
    generalize ae.toNat = n at hp
    cases hp <;> omega
  rw [run9]
  unfold tlvRequest
  simp only [List.append_assoc, List.length_cons, List.cons_append,
    List.nil_append, Option.bind_eq_bind, Option.bind_some, List.drop_succ_cons, List.drop_zero, rd_cons_succ, rd_cons_zero,
    hk, Bool.not_true, Bool.false_eq_true, if_false]
  rw [if_neg (by omega), networkPrefix_good hp subs (by simp only [List.length_append]; omega)]
  have hd : List.drop (4 + wire.length) (9 :: UInt8.ofNat ((wire ++ subs).length + 1 + 1) ::
      ae :: plen :: (wire ++ subs)) = subs := by
    rw [Nat.add_comm]; simp
  have hal : (((wire ++ subs).length + 1 + 1 : Nat) : Int) - 2 - wire.length = subs.length := by
    simp only [List.length_append]; omega
  simp only [Option.bind_some, hd, hal]
  constructor
  · intro src hs
    obtain ⟨r, hr, hr2⟩ := parseSrcSub_good hs rfl
    rw [hr]
    simp only [Option.bind_some, hr2]
    by_cases h0 : ae = 0
    · rw [if_pos (hz.2 h0), if_pos h0]
      cases isDefault src.1 src.2 <;> rfl
    · rw [if_neg (mt hz.1 h0), if_neg h0, realLen_ae hp]; rfl
  · intro h
    rw [parseSrcSub_bad h rfl]; rfl

theorem request_bad (ae plen : UInt8) (rest : Bytes)
    (hp : ¬ ∃ wire subs pfx, rest = wire ++ subs ∧ Encoded ae.toNat plen.toNat 0 none wire pfx) :
    runTlv e s 9 ([ae, plen] ++ rest) = some (s, []) := by
  rw [run9]
  unfold tlvRequest
  simp only [List.length_cons, List.cons_append,
    List.nil_append, Option.bind_eq_bind, Option.bind_some, List.drop_succ_cons, List.drop_zero, rd_cons_succ, rd_cons_zero]
  rw [if_neg (by omega), networkPrefix_bad hp (by omega)]
  split <;> rfl

theorem seqno_aux (ae plen hop res : UInt8) (seqno : Nat) (id wire subs pfx : Bytes) (hs : seqno < 65536)
    (hid : id.length = 8)
    (hp : Encoded ae.toNat plen.toNat 0 none wire pfx) :
    (∀ src, ReadSeqnoSource ae.toNat subs src →
      runTlv e s 10 ([ae, plen] ++ be16 seqno ++ [hop, res] ++ id ++ wire ++ subs) =
      some (s, [.seqnoRequest ⟨pfx, plen.toNat + if ae = 1 ∨ ae = 4 then 96 else 0, src.1, src.2⟩ hop.toNat seqno id])) ∧
    ((¬ ∃ src, ReadSeqnoSource ae.toNat subs src) →
      runTlv e s 10 ([ae, plen] ++ be16 seqno ++ [hop, res] ++ id ++ wire ++ subs) = some (s, [])) := by
  have h1 : ae.toNat = 1 ↔ ae = 1 := toNat_eq (by decide)
  have h4 : ae.toNat = 4 ↔ ae = 4 := toNat_eq (by decide)
  have hk : knownAe ae.toNat = true := by
    rw [ofNat8_known]
    generalize ae.toNat = n at hp
    cases hp <;> omega
  rcases id with _ | ⟨i0, _ | ⟨i1, _ | ⟨i2, _ | ⟨i3, _ | ⟨i4, _ | ⟨i5, _ | ⟨i6, _ | ⟨i7, _ | ⟨i8, i⟩⟩⟩⟩⟩⟩⟩⟩⟩ <;>
    simp at hid
  rw [run10]
  unfold tlvSeqno
  simp only [List.append_assoc, be16_append, List.cons_append, List.nil_append, List.length_cons, rd16_cons, rd16_lit hs, List.cons_append,
    List.nil_append, Option.bind_eq_bind, Option.bind_some, List.drop_succ_cons, List.drop_zero, rd_cons_succ, rd_cons_zero,
    hk, Bool.not_true, Bool.false_eq_true, if_false]
  rw [if_neg (by omega), networkPrefix_good hp subs (by simp only [List.length_append]; omega)]
  have hd : List.drop (16 + wire.length) (10 :: UInt8.ofNat ((wire ++ subs).length + 1 + 1 + 1 + 1 + 1 + 1 + 1 + 1 + 1 + 1 + 1 + 1 + 1 + 1) ::
      ae :: plen :: UInt8.ofNat (seqno / 256) :: UInt8.ofNat seqno :: hop :: res ::
      i0 :: i1 :: i2 :: i3 :: i4 :: i5 :: i6 :: i7 :: (wire ++ subs)) = subs := by
    rw [Nat.add_comm]; simp
  have hal : (((wire ++ subs).length + 1 + 1 + 1 + 1 + 1 + 1 + 1 + 1 + 1 + 1 + 1 + 1 + 1 + 1 : Nat) : Int) - 14 - wire.length = subs.length := by
    simp only [List.length_append]; omega
  simp only [Option.bind_some, hd, hal]
  constructor
  · intro src hs
    obtain ⟨r, hr, hr2⟩ := parseSeqSub_good hs rfl
    rw [hr]
    simp only [Option.bind_some, hr2]
    rw [rdN_some (by simp), realLen_ae hp]; rfl
  · intro h
    rw [parseSeqSub_bad h rfl]; rfl

theorem seqno_bad (ae plen hop res : UInt8) (seqno : Nat) (id rest : Bytes) (hs : seqno < 65536)
    (hid : id.length = 8)
    (hp : ¬ ∃ wire subs pfx, rest = wire ++ subs ∧ Encoded ae.toNat plen.toNat 0 none wire pfx) :
    runTlv e s 10 ([ae, plen] ++ be16 seqno ++ [hop, res] ++ id ++ rest) = some (s, []) := by
  rcases id with _ | ⟨i0, _ | ⟨i1, _ | ⟨i2, _ | ⟨i3, _ | ⟨i4, _ | ⟨i5, _ | ⟨i6, _ | ⟨i7, _ | ⟨i8, i⟩⟩⟩⟩⟩⟩⟩⟩⟩ <;>
    simp at hid
  rw [run10]
  unfold tlvSeqno
  simp only [List.append_assoc, be16_append, List.cons_append, List.nil_append, List.length_cons, rd16_cons, rd16_lit hs, List.cons_append,
    List.nil_append, Option.bind_eq_bind, Option.bind_some, List.drop_succ_cons, List.drop_zero, rd_cons_succ, rd_cons_zero]
  rw [if_neg (by omega), networkPrefix_bad hp (by omega)]
  split <;> rfl

end
end Babel

namespace Babel
open Spec

theorem updateItems_good (e : PEnv) (s : PState) {ae plen om : Nat} {dp : Option Bytes} {wire pfx : Bytes} {seqno metric interval : Nat} {subs : Bytes}
    {src : Bytes × Nat}
    (h3 : metric < 65536) (hp : Encoded ae plen om dp wire pfx) (hs : ReadSource ae subs src) :
    updateItems e s ae plen pfx seqno metric interval subs subs.length =
      some (announces e s ae plen pfx src seqno metric interval) := by
  obtain ⟨r, hr, hr2⟩ := parseSrcSub_good hs rfl
  have hI : INFINITY = 65535 := rfl
  unfold updateItems announces nextHop
  rw [hr, ← realLen_eq hp]
  simp only [Option.bind_eq_bind, Option.bind_some, hr2, hI]
  by_cases h0 : ae = 0
  · subst h0
    by_cases hm : metric = 65535
    · subst hm
      by_cases hs0 : src.2 = 0
      · cases s.v6Nh <;> simp [hs0]
      · have : 0 < src.2 := by omega
        cases s.v6Nh <;> simp [hs0, this]
    · have : metric < 65535 := by omega
      cases s.v6Nh <;> simp [this, hm]
  · by_cases hm : metric < 65535
    · cases hid : s.routerId with
      | none => simp [hm, h0]
      | some id =>
        by_cases h1 : ae = 1
        · cases hn : s.v4Nh <;> simp [hm, h1, h0]
        · cases hn : s.v6Nh <;> simp [hm, h1, h0]
    · by_cases h1 : ae = 1
      · cases hn : s.v4Nh <;> simp [hm, h1, h0]
      · cases hn : s.v6Nh <;> simp [hm, h1, h0]

theorem updateItems_bad (e : PEnv) (s : PState) {ae plen : Nat} {pfx : Bytes} {seqno metric interval : Nat} {subs : Bytes}
    (hs : ¬ ∃ src, ReadSource ae subs src) :
    updateItems e s ae plen pfx seqno metric interval subs subs.length = some [] := by
  unfold updateItems
  rw [parseSrcSub_bad hs rfl]
  split
  · rfl
  · cases nextHop e s ae metric <;> rfl

theorem packetHeader_isSome {e : PEnv} {p : Bytes} {n : Nat} (h : 4 ≤ p.length) :
    ∃ r, packetHeader e p n = some r ∧ ∀ b, r = some b → b ≤ (n : Int) - 4 := by
  rcases p with _ | ⟨a, _ | ⟨b, _ | ⟨c, _ | ⟨d, p⟩⟩⟩⟩ <;> simp at h
  unfold packetHeader
  split
  · exact ⟨none, rfl, by simp⟩
  simp only [rd_cons_zero, rd_cons_one, Option.bind_eq_bind, Option.bind_some]
  split
  · exact ⟨none, rfl, by simp⟩
  split
  · exact ⟨none, rfl, by simp⟩
  have : rd16 (a :: b :: c :: d :: p) 2 = some (256 * c.toNat + d.toNat) := by
    simp [rd16, rd]
    try omega
  rw [this]
  simp only [Option.bind_some]
  split
  · refine ⟨_, rfl, ?_⟩
    intro b hb; simp at hb; omega
  · refine ⟨_, rfl, ?_⟩
    intro b hb; simp at hb; omega

theorem ack_aux (e : PEnv) (s : PState) (b : Bytes) : runTlv e s 3 b = some (s, []) := by
  rw [run3]
  unfold tlvAck
  obtain ⟨v, hv⟩ := Option.isSome_iff_exists.1 (parseOtherSub_isSome
    (a := (List.drop 4 (3 :: UInt8.ofNat b.length :: b))) (alen := (b.length : Int) - 2) (by simp; omega))
  rw [hv]; rfl

theorem runTlv_one (e : PEnv) (s : PState) (ty : UInt8) (b : Bytes) : runTlv e s ty b = some (one e s ty b) := by
  have := parseTlv_one e s ty b []
  rw [List.append_nil] at this
  exact this

theorem many_append (e : PEnv) (s : PState) (a b : List Tlv) :
    many e s (a ++ b) = ((many e (many e s a).1 b).1, (many e s a).2 ++ (many e (many e s a).1 b).2) := by
  induction a generalizing s with
  | nil => simp [many]
  | cons t a ih =>
    cases t with
    | pad1 => simpa [many] using ih s
    | tlv ty b' =>
      simp only [List.cons_append, many]
      rw [ih]
      simp


theorem encAll_inj : ∀ (a b : List Tlv), (∀ t ∈ a, t.Ok) → (∀ t ∈ b, t.Ok) → encAll a = encAll b → a = b
  | [], [], _, _, _ => rfl
  | [], t :: b, _, _, h => by
    rw [encAll_cons] at h
    cases t <;> simp [encAll, Tlv.enc] at h
  | t :: a, [], _, _, h => by
    rw [encAll_cons] at h
    cases t <;> simp [encAll, Tlv.enc] at h
  | t :: a, t' :: b, ha, hb, h => by
    rw [encAll_cons, encAll_cons] at h
    have ht := ha t (by simp)
    have ht' := hb t' (by simp)
    have ih := encAll_inj a b (fun x hx => ha x (by simp [hx])) (fun x hx => hb x (by simp [hx]))
    cases t with
    | pad1 =>
      cases t' with
      | pad1 =>
        simp [Tlv.enc] at h
        rw [ih h]
      | tlv ty body =>
        simp [Tlv.enc] at h
        exact absurd h.1.symm ht'.1
    | tlv ty body =>
      cases t' with
      | pad1 =>
        simp [Tlv.enc] at h
        exact absurd h.1 ht.1
      | tlv ty' body' =>
        simp only [Tlv.enc, List.cons_append, List.cons.injEq] at h
        obtain ⟨h1, h2, h3⟩ := h
        have e1 : body.length = body'.length := by
          have := congrArg UInt8.toNat h2
          rw [toNat_ofNat8, toNat_ofNat8, Nat.mod_eq_of_lt (by have := ht.2; omega),
            Nat.mod_eq_of_lt (by have := ht'.2; omega)] at this
          exact this
        obtain ⟨h4, h5⟩ := List.append_inj h3 e1
        rw [h1, h4, ih h5]

theorem readable_iff {known ss} (h : ∀ t ∈ ss, Tlv.Ok t) : Readable known (encAll ss) ↔ Understood known ss := by
  constructor
  · rintro ⟨ss', ⟨h1, h2⟩, h3⟩
    rw [encAll_inj ss ss' h h2 h1]; exact h3
  · intro h1; exact ⟨ss, ⟨rfl, h⟩, h1⟩

theorem readSource_iff {ae ss src} (h : ∀ t ∈ ss, Tlv.Ok t) :
    ReadSource ae (encAll ss) src ↔ Understood [128] ss ∧ Source ae ss src := by
  constructor
  · rintro ⟨ss', ⟨h1, h2⟩, h3, h4⟩
    rw [encAll_inj ss ss' h h2 h1]; exact ⟨h3, h4⟩
  · intro h1; exact ⟨ss, ⟨rfl, h⟩, h1.1, h1.2⟩

theorem readSeqno_iff {ae ss src} (h : ∀ t ∈ ss, Tlv.Ok t) :
    ReadSeqnoSource ae (encAll ss) src ↔ Understood [128] ss ∧ SeqnoSource ae ss src := by
  constructor
  · rintro ⟨ss', ⟨h1, h2⟩, h3, h4⟩
    rw [encAll_inj ss ss' h h2 h1]; exact ⟨h3, h4⟩
  · intro h1; exact ⟨ss, ⟨rfl, h⟩, h1.1, h1.2⟩

theorem bodies_append (ty : UInt8) (a b : List Tlv) : bodies ty (a ++ b) = bodies ty a ++ bodies ty b := by
  induction a with
  | nil => rfl
  | cons t a ih =>
    cases t with
    | pad1 => simpa [bodies] using ih
    | tlv t x =>
      simp only [List.cons_append, bodies]
      split <;> simp [ih]

theorem bodies_insert (ty t : UInt8) (b : Bytes) (s1 s2 : List Tlv) (h : t ≠ ty) :
    bodies ty (s1 ++ .tlv t b :: s2) = bodies ty (s1 ++ s2) := by
  rw [bodies_append, bodies_append]
  simp [bodies, h]

theorem understood_insert (known : List UInt8) (t : UInt8) (b : Bytes) (s1 s2 : List Tlv) (h : t < 128) :
    Understood known (s1 ++ .tlv t b :: s2) ↔ Understood known (s1 ++ s2) := by
  unfold Understood
  constructor
  · intro h1 t' b' hm ht
    exact h1 t' b' (by simp at hm ⊢; rcases hm with h | h <;> simp [h]) ht
  · intro h1 t' b' hm ht
    simp at hm
    rcases hm with hm | hm | hm
    · exact h1 t' b' (by simp [hm]) ht
    · rw [hm.1, UInt8.le_iff_toNat_le] at ht
      rw [UInt8.lt_iff_toNat_lt] at h
      omega
    · exact h1 t' b' (by simp [hm]) ht

theorem source_congr {ae ss ss'} (h : bodies 128 ss = bodies 128 ss') {src} : Source ae ss src → Source ae ss' src := by
  intro h1
  cases h1 with
  | absent h2 => exact .absent (by rw [← h, h2])
  | present b src h2 h3 h4 => exact .present b src (by rw [← h, h2]) h3 h4

theorem seqnoSource_congr {ae ss ss'} (h : bodies 128 ss = bodies 128 ss') {src} :
    SeqnoSource ae ss src → SeqnoSource ae ss' src := by
  intro h1
  cases h1 with
  | absent h2 => exact .absent (by rw [← h, h2])
  | present bs b src h2 h3 h4 => exact .present bs b src (by rw [← h, h2]) h3 h4


theorem parseBody_below {e : PEnv} : ∀ fuel (left : Int) s {p q : Bytes}, p <+: q →
    Below (parseBody e fuel p left s) (parseBody e fuel q left s) := by
  intro fuel
  induction fuel with
  | zero => intro _ _ _ _ _ _ h; simp [parseBody] at h
  | succ n ih =>
    intro left s p q h
    unfold parseBody
    exact .ite (.refl _) (.bind (rd_below h _) fun ty _ => .ite (ih _ _ (prefix_drop h _)) (.ite (.refl _)
      (.bind (rd_below h _) fun len _ => .ite (.refl _) (.bind (parseTlv_below h) fun r _ =>
        .bind (ih _ _ (prefix_drop h _)) fun r _ => .refl _))))

theorem packetHeader_below {e : PEnv} {n : Nat} {p q : Bytes} (h : p <+: q) :
    Below (packetHeader e p n) (packetHeader e q n) := by
  unfold packetHeader
  exact .ite (.refl _) (.bind (rd_below h _) fun _ _ => .ite (.refl _) (.bind (rd_below h _) fun _ _ =>
    .ite (.refl _) (.bind (rd16_below h _) fun _ _ => .refl _)))

theorem parsePacket_below {e : PEnv} {n : Nat} {p q : Bytes} (h : p <+: q) :
    Below (parsePacket e p n) (parsePacket e q n) := by
  unfold parsePacket
  refine .bind (packetHeader_below h) fun r _ => ?_
  split
  · exact .refl _
  · exact parseBody_below _ _ _ (prefix_drop h _)

theorem wild_default {subs src} (h : ReadSource 0 subs src) : isDefault src.1 src.2 = true ↔ src.2 = 0 := by
  obtain ⟨ss, _, _, h3⟩ := h
  have e : v4mapped zeroes16 = false := by decide
  cases h3 with
  | absent => decide
  | present b src h4 h5 h6 =>
    obtain ⟨plen, wire, extra, _, h7, _⟩ := h5
    have : src.1 = zeroes16 := by
      generalize src.1 = x at h7
      cases h7 with
      | wildcard => rfl
      | v4 _ _ _ _ h => omega
    rw [this]
    simp [isDefault, e]

theorem zeroPadded_length {b : Bytes} (h : b.length ≤ 16) : (zeroPadded b).length = 16 := by
  simp [zeroPadded]; omega

end Babel
