import Verif.Lemmas.Wire4
/-
What each kind of TLV does.
-/
set_option linter.unusedSimpArgs false
set_option linter.unusedVariables false
namespace Babel
open Spec

/-- Every byte string is a sequence of TLVs followed by a truncated one. -/
theorem split_tlvs (b : Bytes) : ∃ ts tail, (∀ t ∈ ts, t.Ok) ∧ Truncated tail ∧ b = encAll ts ++ tail := by
  have : ∀ n (b : Bytes), b.length ≤ n → ∃ ts tail, (∀ t ∈ ts, t.Ok) ∧ Truncated tail ∧ b = encAll ts ++ tail := by
    intro n
    induction n with
    | zero =>
      intro b h
      exact ⟨[], b, by simp, .inl (List.eq_nil_of_length_eq_zero (by omega)), rfl⟩
    | succ n ih =>
      intro b h
      cases b with
      | nil => exact ⟨[], [], by simp, .inl rfl, rfl⟩
      | cons ty b =>
        by_cases h0 : ty = 0
        · obtain ⟨ts, tail, h1, h2, h3⟩ := ih b (by simp at h; omega)
          refine ⟨.pad1 :: ts, tail, ?_, h2, ?_⟩
          · intro t ht
            rcases List.mem_cons.1 ht with rfl | ht
            · trivial
            · exact h1 t ht
          · rw [encAll_cons, h0, h3]; rfl
        · cases b with
          | nil => exact ⟨[], [ty], by simp, .inr (.inl ⟨ty, h0, rfl⟩), rfl⟩
          | cons len r =>
            by_cases hl : r.length < len.toNat
            · exact ⟨[], ty :: len :: r, by simp, .inr (.inr ⟨ty, len, r, h0, rfl, hl⟩), rfl⟩
            · obtain ⟨ts, tail, h1, h2, h3⟩ := ih (r.drop len.toNat) (by simp at h ⊢; omega)
              have hlen := len.toNat_lt
              have htl : (r.take len.toNat).length = len.toNat := by rw [List.length_take]; omega
              refine ⟨.tlv ty (r.take len.toNat) :: ts, tail, ?_, h2, ?_⟩
              · intro t ht
                rcases List.mem_cons.1 ht with rfl | ht
                · exact ⟨h0, by omega⟩
                · exact h1 t ht
              · rw [encAll_cons, List.append_assoc, ← h3]
                simp only [Tlv.enc, List.cons_append]
                rw [htl, List.take_append_drop]
                simp
  exact this _ b (Nat.le_refl _)

section
variable {f : σ → Nat → Bytes → Nat → Option (Option σ)}
    (hs : ∀ s ty p len, len ≤ p.length → (f s ty p len).isSome)
    (hb : ∀ s ty len {p q : Bytes}, p <+: q → Below (f s ty p len) (f s ty q len))
include hs hb

theorem subTlvs_good {subs ss} (h : SubTlvs subs ss) (s : σ) {alen : Int} (ha : alen = subs.length) :
    subTlvs f (alen.toNat + 1) subs alen s = some (foldSub f ss s) := by
  obtain ⟨rfl, hok⟩ := h
  have := subTlvs_fold hs hb [] [] (.inl rfl) ss s (alen.toNat + 1) hok (by omega)
  simp at this
  rw [ha] at this ⊢
  simpa using this

/-- A sub-TLV area is read entirely or fails. -/
theorem subTlvs_cases (subs : Bytes) (s : σ) {alen : Int} (ha : alen = subs.length) :
    (∃ ss, SubTlvs subs ss ∧ subTlvs f (alen.toNat + 1) subs alen s = some (foldSub f ss s)) ∨
    subTlvs f (alen.toNat + 1) subs alen s = some none := by
  obtain ⟨ss, tail, hok, ht, rfl⟩ := split_tlvs subs
  by_cases h : tail = []
  · subst h
    left
    rw [List.append_nil] at *
    exact ⟨ss, ⟨rfl, hok⟩, subTlvs_good hs hb ⟨rfl, hok⟩ s ha⟩
  · right
    have := subTlvs_fold hs hb tail [] ht ss s (alen.toNat + 1) hok (by simp at ha; omega)
    rw [if_neg h] at this
    simp only [List.append_nil] at this
    rw [ha]
    rw [ha] at this
    simpa using this
end

theorem parseOtherSub_good {subs} (h : Readable [] subs) {alen : Int} (ha : alen = subs.length) :
    parseOtherSub subs alen = some (some ()) := by
  obtain ⟨ss, h1, h2⟩ := h
  unfold parseOtherSub
  rw [subTlvs_good otherSub_isSome otherSub_below h1 () ha]
  rcases other_fold ss () with h | h
  · rw [h.1]
  · exact absurd h2 h.2

theorem parseOtherSub_bad {subs} (h : ¬ Readable [] subs) {alen : Int} (ha : alen = subs.length) :
    parseOtherSub subs alen = some none := by
  unfold parseOtherSub
  rcases subTlvs_cases otherSub_isSome otherSub_below subs () ha with ⟨ss, h1, h2⟩ | h2
  · rw [h2]
    rcases other_fold ss () with h' | h'
    · exact absurd ⟨ss, h1, h'.2⟩ h
    · rw [h'.1]
  · exact h2

theorem parseHelloSub_good {subs ss} (h1 : SubTlvs subs ss) (h2 : Understood [] ss) {alen : Int}
    (ha : alen = subs.length) : parseHelloSub subs alen = some (some (helloTime ss)) := by
  unfold parseHelloSub
  rw [subTlvs_good helloSub_isSome helloSub_below h1 none ha]
  rcases hello_fold ss none with h | h
  · rw [h.1]; simp
  · exact absurd h2 h.2

theorem parseHelloSub_bad {subs} (h : ¬ Readable [] subs) {alen : Int} (ha : alen = subs.length) :
    parseHelloSub subs alen = some none := by
  unfold parseHelloSub
  rcases subTlvs_cases helloSub_isSome helloSub_below subs none ha with ⟨ss, h1, h2⟩ | h2
  · rw [h2]
    rcases hello_fold ss none with h' | h'
    · exact absurd ⟨ss, h1, h'.2⟩ h
    · rw [h'.1]
  · exact h2

theorem parseIhuSub_good {subs ss} (h1 : SubTlvs subs ss) (h2 : Understood [] ss) {alen : Int}
    (ha : alen = subs.length) : parseIhuSub subs alen = some (some (ihuTimes ss)) := by
  unfold parseIhuSub
  rw [subTlvs_good ihuSub_isSome ihuSub_below h1 none ha]
  rcases ihu_fold ss none with h | h
  · rw [h.1]; simp
  · exact absurd h2 h.2

theorem parseIhuSub_bad {subs} (h : ¬ Readable [] subs) {alen : Int} (ha : alen = subs.length) :
    parseIhuSub subs alen = some none := by
  unfold parseIhuSub
  rcases subTlvs_cases ihuSub_isSome ihuSub_below subs none ha with ⟨ss, h1, h2⟩ | h2
  · rw [h2]
    rcases ihu_fold ss none with h' | h'
    · exact absurd ⟨ss, h1, h'.2⟩ h
    · rw [h'.1]
  · exact h2

theorem anySource_eq (ae : Nat) : defaultSrc ae = anySource ae := by
  unfold defaultSrc anySource
  by_cases h : ae = 1 ∨ ae = 4
  · rw [if_pos h, if_pos (by rcases h with rfl | rfl <;> rfl)]; rfl
  · rw [if_neg h, if_neg (by simp [aeIsV4]; omega)]

theorem parseSrcSub_good {ae subs src} (h : ReadSource ae subs src) {alen : Int}
    (ha : alen = subs.length) : ∃ r, parseSrcSub ae subs alen = some (some r) ∧ r.getD (defaultSrc ae) = src := by
  obtain ⟨ss, h1, h2, h3⟩ := h
  unfold parseSrcSub
  rw [subTlvs_good (srcSub_isSome ae) (srcSub_below ae) h1 none ha]
  rcases src_fold ae ss with ⟨r, h4, h5, h6⟩ | ⟨h4, h5⟩
  · refine ⟨r, by rw [h4], ?_⟩
    rcases h6 with ⟨h6, rfl⟩ | ⟨b, src', h6, h7, h8, rfl⟩
    · cases h3 with
      | absent => exact anySource_eq ae
      | present b _ h => rw [h6] at h; cases h
    · cases h3 with
      | absent h => rw [h6] at h; cases h
      | present b' _ h h9 _ =>
        rw [h6] at h
        cases h
        rw [← srcVal_iff] at h7 h9
        rw [h7] at h9
        cases h9; rfl
  · rcases h5 with h5 | h5
    · exact absurd h2 h5
    · exact absurd ⟨_, h3⟩ h5

theorem parseSrcSub_bad {ae subs} (h : ¬ ∃ src, ReadSource ae subs src) {alen : Int}
    (ha : alen = subs.length) : parseSrcSub ae subs alen = some none := by
  unfold parseSrcSub
  rcases subTlvs_cases (srcSub_isSome ae) (srcSub_below ae) subs none ha with ⟨ss, h1, h2⟩ | h2
  · rw [h2]
    rcases src_fold ae ss with ⟨r, h4, h5, h6⟩ | ⟨h4, h5⟩
    · exfalso
      apply h
      rcases h6 with ⟨h6, rfl⟩ | ⟨b, src', h6, h7, h8, rfl⟩
      · exact ⟨_, ss, h1, h5, .absent h6⟩
      · exact ⟨_, ss, h1, h5, .present b _ h6 h7 h8⟩
    · rw [h4]
  · exact h2

theorem parseSeqSub_good {ae subs src} (h : ReadSeqnoSource ae subs src) {alen : Int}
    (ha : alen = subs.length) : ∃ r, parseSeqSub ae subs alen = some (some r) ∧ r.getD (defaultSrc ae) = src := by
  obtain ⟨ss, h1, h2, h3⟩ := h
  unfold parseSeqSub
  rw [subTlvs_good (seqSub_isSome ae) (seqSub_below ae) h1 none ha]
  rcases seq_fold ae ss none with ⟨r, h4, h5, h6⟩ | ⟨h4, h5⟩
  · refine ⟨r, by rw [h4], ?_⟩
    rcases h6 with ⟨h6, rfl⟩ | ⟨bs, b, src', h6, h7, h8, rfl⟩
    · cases h3 with
      | absent => exact anySource_eq ae
      | present bs b _ h => rw [h6] at h; simp at h
    · cases h3 with
      | absent h => rw [h6] at h; simp at h
      | present bs' b' _ h h9 h10 =>
        rw [h6] at h
        obtain ⟨_, h⟩ := List.append_inj' h rfl
        cases h
        rw [← srcVal_iff] at h8 h10
        rw [h8] at h10
        cases h10; rfl
  · rcases h5 with h5 | ⟨b, hm, hb⟩
    · exact absurd h2 h5
    · exfalso
      cases h3 with
      | absent h => rw [h] at hm; cases hm
      | present bs' b' _ h h9 h10 =>
        rw [h] at hm
        rcases List.mem_append.1 hm with hm | hm
        · exact hb (h9 _ hm)
        · simp at hm; subst hm; exact hb ⟨_, h10⟩

theorem parseSeqSub_bad {ae subs} (h : ¬ ∃ src, ReadSeqnoSource ae subs src) {alen : Int}
    (ha : alen = subs.length) : parseSeqSub ae subs alen = some none := by
  unfold parseSeqSub
  rcases subTlvs_cases (seqSub_isSome ae) (seqSub_below ae) subs none ha with ⟨ss, h1, h2⟩ | h2
  · rw [h2]
    rcases seq_fold ae ss none with ⟨r, h4, h5, h6⟩ | ⟨h4, h5⟩
    · exfalso
      apply h
      rcases h6 with ⟨h6, rfl⟩ | ⟨bs, b, src', h6, h7, h8, rfl⟩
      · exact ⟨_, ss, h1, h5, .absent h6⟩
      · exact ⟨_, ss, h1, h5, .present bs b _ h6 h7 h8⟩
    · rw [h4]
  · exact h2

theorem rd16_at (pre : Bytes) (n : Nat) (l : Bytes) (h : n < 65536) :
    rd16 (pre ++ (be16 n ++ l)) pre.length = some n := by
  induction pre with
  | nil => exact rd16_be16 n l h
  | cons a p ih => simpa [rd16_cons] using ih

/-- An encoded prefix followed by anything. -/
theorem networkPrefix_good {ae plen om dp wire pfx} (h : Encoded ae plen om dp wire pfx) (rest : Bytes)
    {len : Nat} (hl : len = wire.length + rest.length) :
    networkPrefix ae (some plen) om (wire ++ rest) dp len = some (some (wire.length, pfx)) := by
  rw [networkPrefix_iff (by rw [hl]; simp)]
  exact ⟨by omega, by simpa using h⟩

theorem networkPrefix_bad {ae plen om dp} {p : Bytes}
    (h : ¬ ∃ wire rest pfx, p = wire ++ rest ∧ Encoded ae plen om dp wire pfx) {len : Nat} (hl : len = p.length) :
    networkPrefix ae (some plen) om p dp len = some none := by
  obtain ⟨v, hv⟩ := Option.isSome_iff_exists.1
    (networkPrefix_isSome (ae := ae) (plen := some plen) (om := om) (dp := dp) (p := p) (len := len) (by omega))
  rw [hv]
  rcases v with _ | ⟨rc, pfx⟩
  · rfl
  · rw [networkPrefix_iff (by omega)] at hv
    exact absurd ⟨p.take rc, p.drop rc, pfx, by simp, hv.2⟩ h

theorem networkAddress_good {ae wire addr} (h : EncodedAddr ae wire addr) (rest : Bytes)
    {len : Nat} (hl : len = wire.length + rest.length) :
    networkAddress ae (wire ++ rest) len = some (some (wire.length, addr)) := by
  rw [networkAddress_iff (by rw [hl]; simp)]
  exact ⟨by omega, by simpa using h⟩

theorem networkAddress_bad {ae} {p : Bytes}
    (h : ¬ ∃ wire rest addr, p = wire ++ rest ∧ EncodedAddr ae wire addr) {len : Nat} (hl : len = p.length) :
    networkAddress ae p len = some none := by
  obtain ⟨v, hv⟩ := Option.isSome_iff_exists.1
    (networkPrefix_isSome (ae := ae) (plen := none) (om := 0) (dp := none) (p := p) (len := len) (by omega))
  have hv' : networkAddress ae p len = some v := hv
  rw [hv']
  rcases v with _ | ⟨rc, pfx⟩
  · rfl
  · rw [networkAddress_iff (by omega)] at hv'
    exact absurd ⟨p.take rc, p.drop rc, pfx, by simp, hv'.2⟩ h

end Babel
