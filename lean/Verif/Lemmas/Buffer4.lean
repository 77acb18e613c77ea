import Verif.Lemmas.Buffer3
/-
The encoding of prefixes.
-/
set_option linter.unusedSimpArgs false
set_option linter.unusedVariables false
namespace Babel
open Spec

theorem getD_take_append (p : Bytes) (n m i : Nat) (h : i < n) :
    (p.take n ++ List.replicate m 0).getD i 0 = p.getD i 0 := by
  simp only [List.getD_eq_getElem?_getD]
  by_cases hl : i < p.length
  · rw [List.getElem?_append_left (by simp; omega), List.getElem?_take, if_pos h]
  · rw [List.getElem?_append_right (by simp; omega), List.getElem?_replicate]
    rw [List.getElem?_eq_none (l := p) (by omega)]
    split <;> rfl

/-- The bytes that are sent determine the prefix. -/
theorem restore {p : Bytes} {plen : Nat} (h : PrefixOk p plen) :
    normalizePrefix (zeroPadded (p.take (bytesOf plen))) plen = p := by
  obtain ⟨h1, h2, h3⟩ := h
  conv => rhs; rw [← h3]
  refine (C04_normalize_eq_iff _ _ plen (zeroPadded_length (by simp; omega)) h1 h2).2 ?_
  intro i hi
  unfold bitAt zeroPadded
  rw [getD_take_append _ _ _ _ (by unfold bytesOf; omega)]

theorem v4_take {p : Bytes} (h : v4mapped p = true) : p.take 12 = v4prefix.take 12 := by
  unfold v4mapped at h; simpa using h

theorem v4_wire {p : Bytes} (h : v4mapped p = true) (n : Nat) : v4prefix.take 12 ++ (p.drop 12).take n = p.take (12 + n) := by
  rw [← v4_take h, List.take_add]

theorem enc4 {p : Bytes} {plen : Nat} (h : PrefixOk p plen) (h96 : 96 ≤ plen) (hm : v4mapped p = true) (ae : Nat)
    (hae : ae = 1 ∨ ae = 4) (dp : Option Bytes) :
    Encoded ae (plen - 96) 0 dp ((p.drop 12).take ((plen - 96 + 7) / 8)) p := by
  have h1 := h.1
  have h2 := h.2.1
  have := Encoded.v4 ae (plen - 96) ((p.drop 12).take ((plen - 96 + 7) / 8)) dp hae (by omega)
    (by simp [bytesOf]; omega)
  rw [v4_wire hm, show 96 + (plen - 96) = plen by omega, show 12 + (plen - 96 + 7) / 8 = bytesOf plen by unfold bytesOf; omega,
    restore h] at this
  exact this

theorem enc6 {p : Bytes} {plen : Nat} (h : PrefixOk p plen) (dp : Option Bytes) :
    Encoded 2 plen 0 dp (p.take ((plen + 7) / 8)) p := by
  have h1 := h.1
  have h2 := h.2.1
  have := Encoded.v6 plen (p.take ((plen + 7) / 8)) dp h2 (by simp [bytesOf]; omega)
  rw [show (plen + 7) / 8 = bytesOf plen from rfl, restore h] at this
  exact this

theorem enc6om {p : Bytes} {plen : Nat} (h : PrefixOk p plen) (d : Bytes) (om : Nat) (ho : om ≤ plen / 8)
    (hd : v4mapped d = false) (hdp : d.take om = p.take om) :
    Encoded 2 plen om (some d) ((p.drop om).take ((plen + 7) / 8 - om)) p := by
  have h1 := h.1
  have h2 := h.2.1
  by_cases h0 : om = 0
  · subst h0
    exact enc6 h _
  have := Encoded.v6omit plen om ((p.drop om).take ((plen + 7) / 8 - om)) d h2 (by omega)
    (by simp [bytesOf]; omega) (by simp [hd])
  rw [hdp, ← List.take_add, show om + ((plen + 7) / 8 - om) = bytesOf plen by unfold bytesOf; omega, restore h] at this
  exact this

theorem shared_take (n : Nat) (d p : Bytes) : sharedBytes n d p ≤ n ∧
    d.take (sharedBytes n d p) = p.take (sharedBytes n d p) := by
  induction n generalizing d p with
  | zero => simp [sharedBytes]
  | succ n ih =>
    cases d with
    | nil => simp [sharedBytes]
    | cons a d =>
      cases p with
      | nil => simp [sharedBytes]
      | cons b p =>
        have := ih d p
        unfold sharedBytes at this ⊢
        simp only [List.zip_cons_cons, List.take_succ_cons, List.takeWhile_cons]
        by_cases h : (a == b) = true
        · rw [if_pos h]
          simp only [List.length_cons, List.take_succ_cons]
          refine ⟨by omega, ?_⟩
          rw [this.2, eq_of_beq h]
        · rw [if_neg h]
          simp

theorem key_v4 (k : PKey) : keyIsV4 k = true ↔ isV4 k := by
  unfold keyIsV4 isV4; simp

/-- A normalised prefix that is not an IPv4 prefix is not IPv4-mapped. -/
theorem not_mapped {p : Bytes} {plen : Nat} (h : PrefixOk p plen) (hn : ¬ (96 ≤ plen ∧ v4mapped p = true)) : v4mapped p = false := by
  by_cases hm : v4mapped p = true
  · exfalso
    have h96 : plen < 96 := by
      rcases Nat.lt_or_ge plen 96 with h' | h'
      · exact h'
      · exact absurd ⟨h', hm⟩ hn
    have hb := (C04_normalize_bits p plen h.1).2 95 (by omega)
    rw [h.2.2] at hb
    have hf : decide (95 < plen) = false := by simp; omega
    rw [hf, Bool.false_and] at hb
    have : p.getD 11 0 = 0xFF := by
      have h1 := congrArg (fun l => l.getD 11 (0 : UInt8)) (v4_take hm)
      have h2 : (p.take 12).getD 11 0 = p.getD 11 0 := by
        simp only [List.getD_eq_getElem?_getD]
        rw [List.getElem?_take, if_pos (by omega)]
      rw [← h2]
      exact h1
    unfold bitAt at hb
    rw [show 95 / 8 = 11 from rfl, this] at hb
    exact absurd hb (by decide)
  · simpa using hm

theorem ss_pos {k : PKey} (h : k.isSS = true) : k.srcPlen ≠ 0 ∧ (v4mapped k.srcPrefix = true → k.srcPlen ≠ 96) := by
  unfold PKey.isSS isDefault at h
  simp only [Bool.not_eq_true', Bool.or_eq_false_iff, beq_eq_false_iff_ne, Bool.and_eq_false_iff, ne_eq] at h
  refine ⟨h.1, ?_⟩
  intro hm
  rcases h.2 with h | h
  · exact h
  · rw [hm] at h; cases h

/-- The source prefix sub-TLV. -/
theorem source_ok {k : PKey} (h : KeyOk k) (ae : Nat) (hae : if isV4 k then ae = 1 ∨ ae = 4 else ae = 2) :
    ∃ sub, srcSubTlv (keyIsV4 k) k = some sub ∧ sub.length ≤ 19 ∧
      ReadSource ae sub ((canonical k).srcPrefix, (canonical k).srcPlen) ∧
      ReadSeqnoSource ae sub ((canonical k).srcPrefix, (canonical k).srcPlen) := by
  unfold srcSubTlv canonical
  by_cases hs : k.isSS = true
  · rw [if_pos hs, if_pos hs]
    obtain ⟨hp, h4⟩ := h.2 hs
    have key : ∀ (l : Nat) (wire : Bytes), Encoded ae l 0 none wire k.srcPrefix → l ≠ 0 → l ≤ 128 →
        k.srcPlen = l + (if ae = 1 ∨ ae = 4 then 96 else 0) → wire.length = (l + 7) / 8 →
        ([128, UInt8.ofNat (1 + (l + 7) / 8), UInt8.ofNat l] ++ wire).length ≤ 19 ∧
        ReadSource ae ([128, UInt8.ofNat (1 + (l + 7) / 8), UInt8.ofNat l] ++ wire) (k.srcPrefix, k.srcPlen) ∧
        ReadSeqnoSource ae ([128, UInt8.ofNat (1 + (l + 7) / 8), UInt8.ofNat l] ++ wire) (k.srcPrefix, k.srcPlen) := by
      intro l wire he h0 hl hpl hw
      have hln : (UInt8.ofNat l).toNat = l := by simp; omega
      have hsub : [128, UInt8.ofNat (1 + (l + 7) / 8), UInt8.ofNat l] ++ wire = encAll [.tlv 128 (UInt8.ofNat l :: wire)] := by
        rw [encAll_single]
        simp [Tlv.enc, hw, Nat.add_comm]
      have hsb : SourceBody ae (UInt8.ofNat l :: wire) (k.srcPrefix, k.srcPlen) :=
        ⟨UInt8.ofNat l, wire, [], by simp, by rw [hln]; exact he, by rw [hln]; exact hpl⟩
      have hok : ∀ t ∈ [Tlv.tlv 128 (UInt8.ofNat l :: wire)], t.Ok := by
        intro t ht; rw [List.mem_singleton] at ht; subst ht
        exact ⟨by decide, by simp; omega⟩
      have hbod : bodies 128 [.tlv 128 (UInt8.ofNat l :: wire)] = [UInt8.ofNat l :: wire] := by simp [bodies]
      have hu : Understood [128] [.tlv 128 (UInt8.ofNat l :: wire)] := by
        intro t b ht _
        rw [List.mem_singleton] at ht; cases ht; simp
      refine ⟨by simp; omega, ?_, ?_⟩
      · rw [hsub]
        refine ⟨_, ⟨rfl, hok⟩, hu, .present _ _ hbod hsb ?_⟩
        intro h'
        have h' := Option.some.inj h'
        have := congrArg UInt8.toNat h'
        rw [hln] at this
        exact h0 this
      · rw [hsub]
        exact ⟨_, ⟨rfl, hok⟩, hu, .present [] _ _ hbod (by simp) hsb⟩
    by_cases hv : isV4 k
    · rw [if_pos hv] at hae
      rw [if_pos ((key_v4 k).2 hv)]
      obtain ⟨h96, hm⟩ := h4 hv
      have := (ss_pos hs).2 hm
      have := hp.2.1
      rw [if_neg (by omega)]
      refine ⟨_, rfl, key (k.srcPlen - 96) _ (enc4 hp h96 hm ae hae none) (by omega) (by omega) ?_ ?_⟩
      · rw [if_pos hae]; omega
      · have := hp.1
        simp; omega
    · rw [if_neg hv] at hae
      rw [if_neg (fun h => hv ((key_v4 k).1 h))]
      subst hae
      have := (ss_pos hs).1
      have := hp.2.1
      refine ⟨_, rfl, key k.srcPlen _ (enc6 hp none) (by omega) (by omega) ?_ ?_⟩
      · simp
      · have := hp.1
        simp; omega
  · rw [if_neg hs, if_neg hs]
    have he : ([] : Bytes) = encAll [] := rfl
    have hsrc : (((if isV4 k then ({ k with srcPrefix := v4prefix, srcPlen := 96 } : PKey) else { k with srcPrefix := zeroes16, srcPlen := 0 })).srcPrefix,
        ((if isV4 k then ({ k with srcPrefix := v4prefix, srcPlen := 96 } : PKey) else { k with srcPrefix := zeroes16, srcPlen := 0 })).srcPlen) = anySource ae := by
      unfold anySource
      by_cases hv : isV4 k
      · rw [if_pos hv] at hae
        rw [if_pos hv, if_pos hae]
      · rw [if_neg hv] at hae
        rw [if_neg hv, hae]
        rfl
    rw [hsrc]
    exact ⟨[], rfl, by simp, ⟨[], ⟨he, by simp⟩, by intro t b h; simp at h, .absent rfl⟩,
      ⟨[], ⟨he, by simp⟩, by intro t b h; simp at h, .absent rfl⟩⟩

theorem canonical_pfx (k : PKey) : (canonical k).prefix_ = k.prefix_ ∧ (canonical k).plen = k.plen := by
  unfold canonical
  split
  · exact ⟨rfl, rfl⟩
  · split <;> exact ⟨rfl, rfl⟩

theorem one_of {e s ty body r} (h : runTlv e s ty body = some r) : one e s ty body = r := by
  rw [runTlv_one] at h; exact Option.some.inj h

theorem did_now {a tf o c now t t' ts ts' items} (d : Did a tf o c now t t' ts ts' items) : Did a tf o c now t (scheduleFlushNow o now t') ts ts' items := by
  have := d.schedule now (roughly (o.rnd t'.rnds) 10) (t'.rnds + 1)
  exact this

/-- What the receiver does with an IHU. -/
theorem ihu_body (r i : Nat) (ad : Bytes) (rtt : Option (Nat × Nat)) (hr : r < 65536) (hi' : i < 65536)
    (ha : ad.length = 16) (ht : ∀ t1 t2, rtt = some (t1, t2) → t1 < 4294967296 ∧ t2 < 4294967296) (e : PEnv) (s : PState) :
    one e s 5 ([if linklocal ad then 3 else 2, 0] ++ htons r ++ htons i ++
      (if linklocal ad then (ad.drop 8).take 8 else ad.take 16) ++
      rttSubTlv rtt) =
    if e.isOurs ad then ({ s with echo := rtt.getD s.echo }, [.ihu r i]) else (s, []) := by
  rw [htons_eq, htons_eq]
  have hea : EncodedAddr (if linklocal ad then (3 : UInt8) else 2).toNat
      (if linklocal ad then (ad.drop 8).take 8 else ad.take 16) ad := by
    by_cases hl : linklocal ad = true
    · rw [if_pos hl, if_pos hl]
      have h8 : ad.take 8 = llprefix.take 8 := by unfold linklocal at hl; simpa using hl
      have := EncodedAddr.linkLocal ((ad.drop 8).take 8) (by simp; omega)
      rw [← h8, List.take_of_length_le (l := ad.drop 8) (by simp; omega), List.take_append_drop] at this
      rw [List.take_of_length_le (l := ad.drop 8) (by simp; omega)]
      exact this
    · rw [if_neg hl, if_neg hl, List.take_of_length_le (by omega)]
      exact EncodedAddr.v6 ad ha
  have hne : ¬ ((if linklocal ad then (3 : UInt8) else 2) = 0) := by split <;> decide
  have hss : ∃ ss, SubTlvs (rttSubTlv rtt) ss ∧ Understood [] ss ∧
      ihuTimes ss = rtt := by
    cases rtt with
    | none => exact ⟨[], ⟨rfl, by simp⟩, by intro t b h; simp at h, rfl⟩
    | some p =>
      obtain ⟨t1, t2⟩ := p
      obtain ⟨h1, h2⟩ := ht t1 t2 rfl
      refine ⟨[.tlv 3 (be32 t1 ++ be32 t2)], ⟨?_, ?_⟩, ?_, ?_⟩
      · rw [encAll_single]
        simp [rttSubTlv, htonl_eq, Tlv.enc, be32_length]
      · intro t ht; rw [List.mem_singleton] at ht; subst ht
        exact ⟨by decide, by simp [be32_length]⟩
      · intro t b h h1
        rw [List.mem_singleton] at h; cases h
        exact absurd h1 (by decide)
      · have e1 : bodies 3 [.tlv 3 (be32 t1 ++ be32 t2)] = [be32 t1 ++ be32 t2] := by simp [bodies]
        have e2 : (be32 t1 ++ be32 t2).drop 4 = be32 t2 := List.drop_left' (be32_length t1)
        have e3 := number_be32 t2 h2 []
        rw [List.append_nil] at e3
        unfold ihuTimes
        rw [e1]
        simp [be32_length, e2, number_be32 t1 h1, e3]
  obtain ⟨ss, s1, s2, s3⟩ := hss
  have := fun sub => C50_ihu e s (if linklocal ad then 3 else 2) 0 r i _ ad sub hr hi' hea
  by_cases ho : e.isOurs ad = true
  · have := (this _).1 (.inr ho) ss s1 s2
    rw [if_pos ho, one_of this, s3]
  · rw [if_neg ho]
    exact one_of ((this _).2 (.inl (by rintro (h | h); exact hne h; exact ho h)))

section
variable {a tf : Bool} {o : Orc} {c : SIf} (hc : Circ a tf o c) (now : Timeval) {t : Tx} {ts : List Tlv}
  (g : Good a tf t.buf ts) (hi : t.index.length = 8)
include hc g hi

theorem did_ack (n i : Nat) : ∃ t' ts', sendAck o c now n i t = some t' ∧ Did a tf o c now t t' ts ts' (fun _ => []) := by
  obtain ⟨t', ts', h1, h2⟩ := did_message hc now g hi 3 2 (htons n) (by decide) (by rw [htons_eq]; rfl) (by decide) (fun _ => [])
    (by
      intro e s
      rw [show UInt8.ofNat 3 = 3 from rfl, one_of (C50_ack e s (htons n))]
      exact ⟨⟨rfl, rfl, rfl, rfl⟩, fun _ => rfl⟩)
  refine ⟨_, ts', ?_, h2.schedule now (roughly (o.rnd t'.rnds) (i * 6 : Nat)) (t'.rnds + 1)⟩
  unfold sendAck
  rw [h1]
  rfl

theorem did_challenge (n : Bytes) (hn : n.length = 8) :
    ∃ t' ts', bufferChallenge o c now n t = some t' ∧ Did a tf o c now t t' ts ts' (fun _ => []) := by
  obtain ⟨t', ts', h1, h2⟩ := did_message hc now g hi 18 8 n (by decide) hn (by decide) (fun _ => [])
    (by
      intro e s
      rw [one_of (run_other e s _ n (by decide))]
      exact ⟨⟨rfl, rfl, rfl, rfl⟩, fun _ => rfl⟩)
  refine ⟨_, ts', ?_, did_now h2⟩
  unfold bufferChallenge
  rw [h1]
  rfl

theorem did_reply (n : Bytes) (hn : n.length ≤ 192) :
    ∃ t' ts', bufferReply o c now n t = some t' ∧ Did a tf o c now t t' ts ts' (fun _ => []) := by
  obtain ⟨t', ts', h1, h2⟩ := did_message hc now g hi 19 n.length n (by decide) rfl hn (fun _ => [])
    (by
      intro e s
      rw [one_of (run_other e s _ n (by decide))]
      exact ⟨⟨rfl, rfl, rfl, rfl⟩, fun _ => rfl⟩)
  refine ⟨_, ts', ?_, did_now h2⟩
  unfold bufferReply
  rw [h1]
  rfl

theorem did_retraction (s : Nat) (hs : s < 65536) :
    ∃ t' ts', bufferRetraction o c now s t = some t' ∧ Did a tf o c now t t' ts ts' (fun _ => [.retractAll]) := by
  have hb : ([0, 0, 0, 0] ++ htons 0xFFFF ++ htons s ++ htons 0xFFFF : Bytes) =
      updateFixed 0 0 0 0 65535 s 65535 ++ [] ++ [] := by
    simp only [htons_eq, updateFixed, List.append_nil]
  obtain ⟨t', ts', h1, h2⟩ := did_message hc now g hi 8 10 ([0, 0, 0, 0] ++ htons 0xFFFF ++ htons s ++ htons 0xFFFF)
    (by decide) (by simp [htons_eq, be16]) (by decide) (fun _ => [.retractAll])
    (by
      intro e st
      rw [hb]
      have := ((C50_update e st 0 0 0 0 65535 s 65535 [] [] zeroes16 (by omega) hs (by omega) (by decide) (fun h => absurd h (by decide))
        (.inl rfl) (.wildcard _ _ _ (by decide))).1 (zeroes16, 0)
        ⟨[], ⟨rfl, by simp⟩, by intro t b h; simp at h, .absent rfl⟩)
      rw [show UInt8.ofNat 8 = 8 from rfl, one_of this]
      exact ⟨⟨rfl, rfl, rfl, rfl⟩, fun _ => rfl⟩)
  refine ⟨{ t' with buf := { t'.buf with id := none } }, ts', ?_, ?_⟩
  · unfold bufferRetraction
    rw [h1]
    rfl
  · exact ⟨h2.good.weaken rfl rfl rfl (.inr rfl) (.inl rfl) (.inl rfl), h2.idx, h2.size, h2.how⟩

theorem did_ihu (r i : Nat) (ad : Bytes) (rtt : Option (Nat × Nat)) (hr : r < 65536) (hi' : i < 65536)
    (ha : ad.length = 16) (ht : ∀ t1 t2, rtt = some (t1, t2) → t1 < 4294967296 ∧ t2 < 4294967296) :
    ∃ t' ts', bufferIhu o c now r i ad rtt t = some t' ∧
      Did a tf o c now t t' ts ts' (fun e => if e.isOurs ad then [.ihu r i] else []) := by
  unfold bufferIhu
  refine did_message hc now g hi 5 _ _ (by decide) ?_ ?_ _ ?_
  · simp only [List.length_append, htons_eq, be16_length, htonl_eq]
    cases rtt with
    | none => split <;> simp [ha, rttSubTlv]
    | some p => split <;> simp [ha, be32_length, htonl_eq, rttSubTlv]
  · split <;> split <;> omega
  · intro e s
    have := ihu_body r i ad rtt hr hi' ha ht e s
    rw [show UInt8.ofNat 5 = 5 from rfl, this]
    split
    · exact ⟨⟨rfl, rfl, rfl, rfl⟩, fun _ => rfl⟩
    · exact ⟨⟨rfl, rfl, rfl, rfl⟩, fun _ => rfl⟩

theorem did_request (k : Option PKey) (hk : ∀ k', k = some k' → KeyOk k') :
    ∃ t' ts', bufferRequest o c now k t = some t' ∧ Did a tf o c now t t' ts ts' (fun _ =>
      match k with
      | none => [.requestAll]
      | some k => if sendable c k then [.request (canonical k)] else []) := by
  cases k with
  | none =>
    unfold bufferRequest
    refine did_message hc now g hi 9 2 [0, 0] (by decide) rfl (by decide) _ ?_
    intro e s
    have := (C50_request e s 0 0 [] [] zeroes16 (.wildcard _ _ _ (by decide))).1 (zeroes16, 0)
      ⟨[], ⟨rfl, by simp⟩, by intro t b h; simp at h, .absent rfl⟩
    have := one_of this
    simp only [List.append_nil] at this
    rw [show UInt8.ofNat 9 = 9 from rfl, this]
    exact ⟨⟨rfl, rfl, rfl, rfl⟩, fun _ => rfl⟩
  | some k =>
    have hk := hk k rfl
    simp only [bufferRequest]
    by_cases hs : sendable c k
    · have hs' : ¬ ((k.isSS && c.rfc6126) = true) := by rw [Bool.and_eq_true]; exact hs
      rw [if_neg hs', if_pos hs]
      by_cases hv : isV4 k
      · have hkv := (key_v4 k).2 hv
        obtain ⟨sub, h1, h2, h3, h4⟩ := source_ok hk 1 (by rw [if_pos hv]; exact .inl rfl)
        rw [h1]
        simp only [hkv, if_true, Option.bind_eq_bind, Option.bind_some]
        have hpl := hk.1.1
        have hpl2 := hk.1.2.1
        have hv1 := hv.1
        refine did_message hc now g hi 9 _ _ (by decide) ?_ ?_ _ ?_
        · simp; omega
        · omega
        · intro e s
          have hb : (UInt8.ofNat (k.plen - 96)).toNat = k.plen - 96 := by simp; omega
          have := (C50_request e s 1 (UInt8.ofNat (k.plen - 96)) _ sub k.prefix_
            (by rw [hb]; exact enc4 hk.1 hv.1 hv.2 1 (.inl rfl) none)).1 _ h3
          rw [show UInt8.ofNat 9 = 9 from rfl, one_of this]
          refine ⟨⟨rfl, rfl, rfl, rfl⟩, fun _ => ?_⟩
          simp only [hb, List.map_cons, List.map_nil, untimed]
          rw [if_neg (by decide), if_pos (by decide), show k.plen - 96 + 96 = k.plen by omega]
          show [Item.request ⟨k.prefix_, k.plen, (canonical k).srcPrefix, (canonical k).srcPlen⟩] = _
          rw [← (canonical_pfx k).1, ← (canonical_pfx k).2]
      · have hkv : ¬ (keyIsV4 k = true) := fun h => hv ((key_v4 k).1 h)
        have hkf : keyIsV4 k = false := by simpa using hkv
        obtain ⟨sub, h1, h2, h3, h4⟩ := source_ok hk 2 (by rw [if_neg hv])
        rw [h1]
        simp only [hkf, if_false, Bool.false_eq_true, Option.bind_eq_bind, Option.bind_some]
        have hpl := hk.1.1
        have hpl2 := hk.1.2.1
        refine did_message hc now g hi 9 _ _ (by decide) ?_ ?_ _ ?_
        · simp; omega
        · omega
        · intro e s
          have hb : (UInt8.ofNat k.plen).toNat = k.plen := by simp; omega
          have := (C50_request e s 2 (UInt8.ofNat k.plen) _ sub k.prefix_
            (by rw [hb]; exact enc6 hk.1 none)).1 _ h3
          rw [show UInt8.ofNat 9 = 9 from rfl, one_of this]
          refine ⟨⟨rfl, rfl, rfl, rfl⟩, fun _ => ?_⟩
          simp only [hb, List.map_cons, List.map_nil, untimed]
          rw [if_neg (by decide), if_neg (by decide)]
          show [Item.request ⟨k.prefix_, k.plen, (canonical k).srcPrefix, (canonical k).srcPlen⟩] = _
          rw [← (canonical_pfx k).1, ← (canonical_pfx k).2]
    · have hs' : ((k.isSS && c.rfc6126) = true) := by
        unfold sendable at hs; rw [Bool.and_eq_true]; exact Decidable.not_not.1 hs
      rw [if_pos hs', if_neg hs]
      exact ⟨t, ts, rfl, Did.nothing g hi⟩

theorem did_seqno (k : PKey) (sq : Nat) (id : Bytes) (hop : Nat) (hk : KeyOk k) (hsq : sq < 65536) (hid : id.length = 8)
    (hh : hop < 256) :
    ∃ t' ts', sendMultihop o c now k sq id hop t = some t' ∧ Did a tf o c now t t' ts ts' (fun _ =>
      if sendable c k then [.seqnoRequest (canonical k) hop sq id] else []) := by
  simp only [sendMultihop, htons_eq]
  have hho : (UInt8.ofNat hop).toNat = hop := by simp; omega
  by_cases hs : sendable c k
  · have hs' : ¬ ((k.isSS && c.rfc6126) = true) := by rw [Bool.and_eq_true]; exact hs
    rw [if_neg hs']
    simp only [if_pos hs]
    by_cases hv : isV4 k
    · have hkv := (key_v4 k).2 hv
      obtain ⟨sub, h1, h2, h3, h4⟩ := source_ok hk 1 (by rw [if_pos hv]; exact .inl rfl)
      rw [h1]
      simp only [hkv, if_true, Option.bind_eq_bind, Option.bind_some]
      have hpl := hk.1.1
      have hpl2 := hk.1.2.1
      have hv1 := hv.1
      refine did_message hc now g hi 10 _ _ (by decide) ?_ ?_ _ ?_
      · simp [be16_length, hid]; omega
      · omega
      · intro e s
        have hb : (UInt8.ofNat (k.plen - 96)).toNat = k.plen - 96 := by simp; omega
        have := (C50_seqnoRequest e s 1 (UInt8.ofNat (k.plen - 96)) (UInt8.ofNat hop) (UInt8.ofNat (k.srcPlen + 160)) sq id _ sub k.prefix_
          hsq hid (by rw [hb]; exact enc4 hk.1 hv.1 hv.2 1 (.inl rfl) none)).1 _ h4
        rw [show UInt8.ofNat 10 = 10 from rfl, one_of this]
        refine ⟨⟨rfl, rfl, rfl, rfl⟩, fun _ => ?_⟩
        simp only [hb, hho, List.map_cons, List.map_nil, untimed]
        rw [if_pos (by decide), show k.plen - 96 + 96 = k.plen by omega]
        show [Item.seqnoRequest ⟨k.prefix_, k.plen, (canonical k).srcPrefix, (canonical k).srcPlen⟩ hop sq id] = _
        rw [← (canonical_pfx k).1, ← (canonical_pfx k).2]
    · have hkv : ¬ (keyIsV4 k = true) := fun h => hv ((key_v4 k).1 h)
      have hkf : keyIsV4 k = false := by simpa using hkv
      obtain ⟨sub, h1, h2, h3, h4⟩ := source_ok hk 2 (by rw [if_neg hv])
      rw [h1]
      simp only [hkf, if_false, Bool.false_eq_true, Option.bind_eq_bind, Option.bind_some]
      have hpl := hk.1.1
      have hpl2 := hk.1.2.1
      refine did_message hc now g hi 10 _ _ (by decide) ?_ ?_ _ ?_
      · simp [be16_length, hid]; omega
      · omega
      · intro e s
        have hb : (UInt8.ofNat k.plen).toNat = k.plen := by simp; omega
        have := (C50_seqnoRequest e s 2 (UInt8.ofNat k.plen) (UInt8.ofNat hop) (UInt8.ofNat (k.srcPlen + 0)) sq id _ sub k.prefix_
          hsq hid (by rw [hb]; exact enc6 hk.1 none)).1 _ h4
        rw [show UInt8.ofNat 10 = 10 from rfl, one_of this]
        refine ⟨⟨rfl, rfl, rfl, rfl⟩, fun _ => ?_⟩
        simp only [hb, hho, List.map_cons, List.map_nil, untimed]
        rw [if_neg (by decide)]
        show [Item.seqnoRequest ⟨k.prefix_, k.plen, (canonical k).srcPrefix, (canonical k).srcPlen⟩ hop sq id] = _
        rw [← (canonical_pfx k).1, ← (canonical_pfx k).2]
  · have hs' : ((k.isSS && c.rfc6126) = true) := by
      unfold sendable at hs; rw [Bool.and_eq_true]; exact Decidable.not_not.1 hs
    rw [if_pos hs']
    simp only [if_neg hs]
    exact ⟨t, ts, rfl, Did.nothing g hi⟩

end
end Babel
