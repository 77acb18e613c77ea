import Verif.Spec.Auth
import Verif.Lemmas.Wire6
/-
The MAC of a packet is checked against all the MAC TLVs of its trailer; the loop of
`preparse_packet` sees the packet TLV by TLV.
-/
set_option linter.unusedSimpArgs false
set_option linter.unusedVariables false
namespace Babel
open Spec

/-! The trailer -/

theorem hasMac_nil (m : Bytes) : ¬ HasMac [] m := by
  rintro ⟨pre, rest, _, _, h⟩
  have := congrArg List.length h
  simp at this

theorem hasMac_one (x : UInt8) (m : Bytes) : ¬ HasMac [x] m := by
  rintro ⟨pre, rest, _, _, h⟩
  have := congrArg List.length h
  simp at this
  omega

theorem hasMac_cons (ty len : UInt8) (rest m : Bytes) :
    HasMac (ty :: len :: rest) m ↔
      len.toNat ≤ rest.length ∧ (ty = 16 ∧ m = rest.take len.toNat ∨ HasMac (rest.drop len.toNat) m) := by
  constructor
  · rintro ⟨pre, r, hp, hm, h⟩
    cases pre with
    | nil =>
      simp only [List.flatMap_nil, List.nil_append, List.cons_append, List.cons.injEq] at h
      obtain ⟨h1, h2, h3⟩ := h
      have hl : len.toNat = m.length := by rw [h2, toNat_ofNat8]; omega
      refine ⟨by rw [h3, hl]; simp, .inl ⟨h1, by rw [h3, hl]; simp⟩⟩
    | cons t pre =>
      simp only [List.flatMap_cons, List.cons_append, List.cons.injEq, List.append_assoc] at h
      obtain ⟨h1, h2, h3⟩ := h
      have h255 := hp t (List.mem_cons_self ..)
      have hl : len.toNat = t.2.length := by rw [h2, toNat_ofNat8]; omega
      refine ⟨by rw [h3, hl]; simp, .inr ?_⟩
      rw [h3, hl, List.drop_left]
      exact ⟨pre, r, fun t ht => hp t (List.mem_cons_of_mem _ ht), hm, by simp⟩
  · rintro ⟨hl, ⟨rfl, rfl⟩ | ⟨pre, r, hp, hm, h⟩⟩
    · have h1 : (rest.take len.toNat).length = len.toNat := by simp; omega
      have := len.toNat_lt
      refine ⟨[], rest.drop len.toNat, by simp, by omega, ?_⟩
      rw [h1]
      simp
    · have h1 : (rest.take len.toNat).length = len.toNat := by simp; omega
      have := len.toNat_lt
      refine ⟨(ty, rest.take len.toNat) :: pre, r, ?_, hm, ?_⟩
      · intro t ht
        rcases List.mem_cons.1 ht with rfl | ht
        · simp only; omega
        · exact hp t ht
      · simp only [List.flatMap_cons, List.append_assoc, ← h, h1]
        simp

theorem compareHmac_eq (k : Key) (src dst P : Bytes) (b : Nat) (h : Bytes) (n : Nat)
    (hP : 4 + b ≤ P.length) (hn : n ≤ h.length) :
    compareHmac k src dst P b h n =
      some (k.mac src dst (P.take 4) ((P.drop 4).take b) == some (h.take n)) := by
  unfold compareHmac
  rw [rdN_some (by omega)]
  simp only [Option.bind_eq_bind, Option.bind_some, Int.toNat_natCast]
  rw [rdN_some (by simp; omega)]
  simp only [Option.bind_some]
  cases hm : k.mac src dst (P.take 4) ((P.drop 4).take b) with
  | none => rfl
  | some m =>
    simp only
    split
    · rw [rdN_some hn]; rfl
    · next hne =>
      have : (m == h.take n) = false := by
        rw [beq_eq_false_iff_ne]
        rintro rfl
        exact hne (by simp; omega)
      simp [this]

theorem checkHmacLoop_eq (k : Key) (src dst P : Bytes) (b : Nat) (hP : 4 + b ≤ P.length) (stale : Bytes) :
    ∀ (fuel : Nat) (tr : Bytes) (rc : Int), tr.length < fuel → rc ≤ 0 →
      ∃ rc', checkHmacLoop k src dst P b fuel (tr ++ stale) tr.length rc = some rc' ∧
        (0 < rc' ↔ ∃ m, k.mac src dst (P.take 4) ((P.drop 4).take b) = some m ∧ HasMac tr m) := by
  intro fuel
  induction fuel with
  | zero => intro tr rc h; omega
  | succ fuel ih =>
    intro tr rc hf hrc
    unfold checkHmacLoop
    match tr, hf with
    | [], _ =>
      refine ⟨rc, by simp, by omega, ?_⟩
      rintro ⟨m, _, h⟩
      exact absurd h (hasMac_nil m)
    | [x], _ =>
      refine ⟨rc, by simp, by omega, ?_⟩
      rintro ⟨m, _, h⟩
      exact absurd h (hasMac_one x m)
    | ty :: len :: rest, hf =>
      rw [if_neg (by simp only [List.length_cons]; omega), if_neg (by simp only [List.length_cons]; omega)]
      simp only [List.cons_append, rd_cons_zero, rd_cons_one, Option.bind_eq_bind, Option.bind_some]
      have hnext : ∀ rc : Int, rc ≤ 0 → ∃ rc', checkHmacLoop k src dst P b fuel
            ((ty :: len :: (rest ++ stale)).drop (len.toNat + 2))
            (((ty :: len :: rest).length : Nat) - ((len.toNat : Int) + 2)) rc = some rc' ∧
          (0 < rc' ↔ len.toNat ≤ rest.length ∧
            ∃ m, k.mac src dst (P.take 4) ((P.drop 4).take b) = some m ∧ HasMac (rest.drop len.toNat) m) := by
        intro rc hrc
        by_cases hl : len.toNat ≤ rest.length
        · obtain ⟨rc', h1, h2⟩ := ih (rest.drop len.toNat) rc (by simp at hf ⊢; omega) hrc
          refine ⟨rc', ?_, by rw [h2]; simp [hl]⟩
          rw [← h1]
          congr 1
          · simp only [List.drop_succ_cons, List.drop_append]
            rw [show len.toNat - rest.length = 0 by omega, List.drop_zero]
          · simp only [List.length_cons, List.length_drop]; omega
        · refine ⟨rc, ?_, by omega, fun h => absurd h.1 hl⟩
          obtain ⟨n, rfl⟩ : ∃ n, fuel = n + 1 := ⟨fuel - 1, by simp at hf; omega⟩
          unfold checkHmacLoop
          rw [if_pos (by simp only [List.length_cons]; omega)]
      by_cases h16 : ty.toNat = 16
      · have h16' : ty = 16 := UInt8.toNat_inj.1 (by simpa using h16)
        rw [if_pos h16]
        by_cases hl : len.toNat ≤ rest.length
        · rw [if_neg (by simp only [List.length_cons]; omega)]
          rw [compareHmac_eq k src dst P b _ _ hP (by simp; omega)]
          simp only [Option.bind_some, List.drop_succ_cons, List.drop_zero]
          rw [List.take_append_of_le_length hl]
          by_cases hm : k.mac src dst (P.take 4) ((P.drop 4).take b) = some (rest.take len.toNat)
          · rw [if_pos (by simp [hm])]
            refine ⟨1, rfl, fun _ => ⟨_, hm, (hasMac_cons ..).2 ⟨hl, .inl ⟨h16', rfl⟩⟩⟩, by omega⟩
          · rw [if_neg (by simp [hm])]
            obtain ⟨rc', h1, h2⟩ := hnext 0 (by omega)
            refine ⟨rc', by simpa using h1, ?_⟩
            rw [h2]
            constructor
            · rintro ⟨_, m, e, h⟩
              exact ⟨m, e, (hasMac_cons ..).2 ⟨hl, .inr h⟩⟩
            · rintro ⟨m, e, h⟩
              obtain ⟨_, ⟨_, rfl⟩ | h⟩ := (hasMac_cons ..).1 h
              · exact absurd e hm
              · exact ⟨hl, m, e, h⟩
        · rw [if_pos (by simp only [List.length_cons]; omega)]
          refine ⟨-1, rfl, by omega, ?_⟩
          rintro ⟨m, _, h⟩
          exact absurd ((hasMac_cons ..).1 h).1 hl
      · rw [if_neg h16]
        obtain ⟨rc', h1, h2⟩ := hnext rc hrc
        refine ⟨rc', by simpa using h1, ?_⟩
        rw [h2]
        have h16' : ty ≠ 16 := by rintro rfl; exact h16 rfl
        constructor
        · rintro ⟨hl, m, e, h⟩
          exact ⟨m, e, (hasMac_cons ..).2 ⟨hl, .inr h⟩⟩
        · rintro ⟨m, e, h⟩
          obtain ⟨hl, ⟨h, _⟩ | h⟩ := (hasMac_cons ..).1 h
          · exact absurd h h16'
          · exact ⟨hl, m, e, h⟩

theorem packet_length (b tr : Bytes) : (packet b tr).length = 4 + b.length + tr.length := by
  simp [packet, be16]; omega

theorem packet_take4 (b tr : Bytes) : (packet b tr).take 4 = (packet b []).take 4 := by
  simp [packet, be16]

theorem packet_drop4 (b tr : Bytes) : (packet b tr).drop 4 = b ++ tr := by simp [packet, be16]

theorem packet_inj {b tr b' tr' : Bytes} (h : packet b tr = packet b' tr') (hb : b.length < 65536)
    (hb' : b'.length < 65536) : b = b' ∧ tr = tr' := by
  have h1 : rd16 (packet b tr) 2 = some b.length := by
    unfold packet
    rw [show (2 : Nat) = 0 + 1 + 1 from rfl, rd16_cons, rd16_cons, List.append_assoc, rd16_be16 _ _ hb]
  have h2 : rd16 (packet b' tr') 2 = some b'.length := by
    unfold packet
    rw [show (2 : Nat) = 0 + 1 + 1 from rfl, rd16_cons, rd16_cons, List.append_assoc, rd16_be16 _ _ hb']
  rw [h, h2] at h1
  have h3 := congrArg (List.drop 4) h
  rw [packet_drop4, packet_drop4] at h3
  exact List.append_inj h3 (by simpa using h1.symm)

/-- The check of a complete packet. -/
theorem checkHmac_packet (k : Key) (src dst b tr stale : Bytes) (hb : b.length < 65536) :
    ∃ rc, checkHmac k src dst (packet b tr ++ stale) (packet b tr).length b.length = some rc ∧
      (0 < rc ↔ Signed k src dst (packet b tr)) := by
  obtain ⟨rc, h1, h2⟩ := checkHmacLoop_eq k src dst (packet b tr ++ stale) b.length
    (by simp [packet_length]; omega) stale ((packet b tr).length + 1) tr (-1)
    (by rw [packet_length]; omega) (by omega)
  refine ⟨rc, ?_, ?_⟩
  · unfold checkHmac
    rw [← h1]
    simp only
    have e : ((b.length : Int) + 4).toNat = 4 + b.length := by omega
    rw [e, List.drop_append_of_le_length (by rw [packet_length]; omega), ← List.drop_drop, packet_drop4,
      List.drop_left]
    congr 1
    rw [packet_length]; omega
  · rw [h2, List.take_append_of_le_length (by rw [packet_length]; omega),
      List.drop_append_of_le_length (by rw [packet_length]; omega), packet_drop4, List.append_assoc, List.take_left]
    constructor
    · rintro ⟨m, e, h⟩
      exact ⟨b, tr, m, hb, rfl, e, h⟩
    · rintro ⟨b', tr', m, hb', e, hm, h⟩
      obtain ⟨rfl, rfl⟩ := packet_inj e hb hb'
      exact ⟨m, hm, h⟩

/-- A truncated packet has no trailer. -/
theorem checkHmac_short (k : Key) (src dst P : Bytes) (n : Nat) :
    checkHmac k src dst P n (n - 4) = some (-1) := by
  unfold checkHmac checkHmacLoop
  rw [if_pos (by omega)]

/-! The loop over the body -/

/-- The effect of one TLV on the variables of `preparse_packet`. -/
def scanOne (mc : Bool) (now : Timeval) (s : Scan) (ty : UInt8) (b : Bytes) : Scan × Bool :=
  if ty = 17 then
    if s.pc.isSome then (s, true)
    else if 4 ≤ b.length ∧ b.length ≤ 36 then ({ s with pc := some (b.take 4, b.drop 4) }, true)
    else (s, false)
  else if ty = 18 then
    if mc then (s, true)
    else if 192 < b.length then (s, false)
    else ({ s with nonce := some b }, true)
  else if ty = 19 then
    if 192 < b.length then (s, false)
    else if timevalCompare now (s.ent.getD {}).deadline > 0 then ({ s with ent := some (s.ent.getD {}) }, true)
    else if b.length = 8 ∧ (s.ent.getD {}).nonce = b then
      ({ s with success := true, ent := some { (s.ent.getD {}) with deadline := ⟨0, 0⟩ } }, true)
    else ({ s with ent := some (s.ent.getD {}) }, true)
  else (s, true)

theorem scanTlv_one (mc : Bool) (now : Timeval) (s : Scan) (ty l : UInt8) (b rest : Bytes) :
    scanTlv mc now s ty.toNat (ty :: l :: (b ++ rest)) b.length = some (scanOne mc now s ty b) := by
  unfold scanTlv scanOne
  by_cases h17 : ty = 17
  · subst h17
    rw [if_pos (by rfl), if_pos rfl]
    unfold scanPc
    split
    · rfl
    · split
      · rw [if_neg (by omega)]
      · split
        · rw [if_neg (by omega)]
        · rw [if_pos (by omega)]
          rw [rdN_some (by simp; omega)]
          simp only [Option.bind_eq_bind, Option.bind_some, List.drop_succ_cons, List.drop_zero]
          rw [rdN_some (by simp; omega)]
          simp only [Option.bind_some]
          have e1 : (b ++ rest).take 4 = b.take 4 := List.take_append_of_le_length (by omega)
          have e2 : ((b ++ rest).drop 4).take (b.length - 4) = b.drop 4 := by
            rw [List.drop_append_of_le_length (by omega), ← List.length_drop, List.take_left]
          rw [e1, e2]
          rfl
  have n17 : ty.toNat ≠ 17 := fun h => h17 (UInt8.toNat_inj.1 (by simpa using h))
  rw [if_neg n17, if_neg h17]
  by_cases h18 : ty = 18
  · subst h18
    rw [if_pos (by rfl), if_pos rfl]
    unfold scanRequest
    split
    · rfl
    · split
      · rfl
      · rw [rdN_some (by simp)]
        simp [List.take_left]
  have n18 : ty.toNat ≠ 18 := fun h => h18 (UInt8.toNat_inj.1 (by simpa using h))
  rw [if_neg n18, if_neg h18]
  by_cases h19 : ty = 19
  · subst h19
    rw [if_pos (by rfl), if_pos rfl]
    unfold scanReply
    split
    · rfl
    · simp only
      split
      · rfl
      · by_cases h8 : b.length = 8
        · rw [if_pos h8, rdN_some (by simp)]
          simp only [Option.bind_eq_bind, Option.bind_some, List.drop_succ_cons, List.drop_zero, List.take_left]
          by_cases hn : (s.ent.getD {}).nonce = b
          · rw [if_pos hn, if_pos ⟨h8, hn⟩]; rfl
          · rw [if_neg hn, if_neg (fun h => hn h.2)]; rfl
        · rw [if_neg h8, if_neg (fun h => h8 h.1)]
  have n19 : ty.toNat ≠ 19 := fun h => h19 (UInt8.toNat_inj.1 (by simpa using h))
  rw [if_neg n19, if_neg h19]

/-- The effect of a sequence of TLVs. -/
def scanMany (mc : Bool) (now : Timeval) : Scan → List Tlv → Scan
  | s, [] => s
  | s, .pad1 :: ts => scanMany mc now s ts
  | s, .tlv ty b :: ts =>
    let r := scanOne mc now s ty b
    if r.2 then scanMany mc now r.1 ts else r.1

theorem scanBody_trunc (mc : Bool) (now : Timeval) (tail rest : Bytes) (ht : Truncated tail) (s : Scan)
    (fuel : Nat) (hf : 0 < fuel) : scanBody mc now fuel (tail ++ rest) tail.length s = some s := by
  obtain ⟨n, rfl⟩ : ∃ n, fuel = n + 1 := ⟨fuel - 1, by omega⟩
  unfold scanBody
  rcases ht with rfl | ⟨ty, h0, rfl⟩ | ⟨ty, len, r, h0, rfl, hl⟩
  · simp
  · have : ty.toNat ≠ 0 := fun h => h0 (UInt8.toNat_inj.1 (by simpa using h))
    simp [this]
  · have h1 : ty.toNat ≠ 0 := fun h => h0 (UInt8.toNat_inj.1 (by simpa using h))
    rw [if_neg (by simp only [List.length_cons]; omega)]
    simp only [List.cons_append, rd_cons_zero, Option.bind_eq_bind, Option.bind_some]
    rw [if_neg h1, if_neg (by simp only [List.length_cons]; omega)]
    simp only [rd_cons_one, Option.bind_some]
    rw [if_pos (by simp only [List.length_cons]; omega)]
    rfl

theorem scanBody_enc (mc : Bool) (now : Timeval) (tail rest : Bytes) (ht : Truncated tail) :
    ∀ (ts : List Tlv) (s : Scan) (fuel : Nat), (∀ t ∈ ts, t.Ok) →
      (encAll ts).length < fuel →
      scanBody mc now fuel (encAll ts ++ tail ++ rest) ((encAll ts).length + tail.length : Nat) s =
        some (scanMany mc now s ts) := by
  intro ts
  induction ts with
  | nil =>
    intro s fuel _ hf
    simpa [encAll, scanMany] using scanBody_trunc mc now tail rest ht s fuel (by simpa [encAll] using hf)
  | cons t ts ih =>
    intro s fuel hok hf
    obtain ⟨n, rfl⟩ : ∃ n, fuel = n + 1 := ⟨fuel - 1, by omega⟩
    have hok' : ∀ t ∈ ts, t.Ok := fun t h => hok t (List.mem_cons_of_mem _ h)
    have ht' := hok t (List.mem_cons_self ..)
    cases t with
    | pad1 =>
      simp only [encAll_cons, Tlv.enc, List.cons_append, List.nil_append, List.length_cons] at hf ⊢
      unfold scanBody
      rw [if_neg (by omega)]
      simp only [rd_cons_zero, Option.bind_eq_bind, Option.bind_some]
      rw [if_pos (by rfl)]
      have := ih s n hok' (by omega)
      rw [scanMany, ← this]
      simp only [List.drop_succ_cons, List.drop_zero]
      congr 1
      omega
    | tlv ty b =>
      obtain ⟨h0, hl⟩ : ty ≠ 0 ∧ b.length ≤ 255 := ht'
      have h1 : ty.toNat ≠ 0 := fun h => h0 (UInt8.toNat_inj.1 (by simpa using h))
      have h2 : (UInt8.ofNat b.length).toNat = b.length := by rw [toNat_ofNat8]; omega
      simp only [encAll_cons, Tlv.enc, List.cons_append, List.append_assoc, List.length_cons, List.length_append] at hf ⊢
      unfold scanBody
      rw [if_neg (by omega)]
      simp only [rd_cons_zero, Option.bind_eq_bind, Option.bind_some]
      rw [if_neg h1, if_neg (by omega)]
      simp only [rd_cons_one, Option.bind_some, h2]
      rw [if_neg (by omega), scanTlv_one]
      simp only [Option.bind_some, List.drop_succ_cons, List.drop_append_length, scanMany]
      by_cases hg : (scanOne mc now s ty b).2 = true
      · rw [if_pos hg, if_pos hg]
        have := ih (scanOne mc now s ty b).1 n hok' (by omega)
        rw [List.append_assoc] at this
        rw [← this]
        congr 1
        omega
      · rw [if_neg hg, if_neg hg]
        rfl

theorem bodiesOf_cons (ty : UInt8) (t : UInt8) (b : Bytes) (ts : List Tlv) :
    bodiesOf ty (.tlv t b :: ts) = if t = ty then b :: bodiesOf ty ts else bodiesOf ty ts := by
  unfold bodiesOf
  rw [List.filterMap_cons]
  split
  · next h =>
    split
    · next hh => simp [hh] at h
    · rfl
  · next h =>
    split
    · next hh => simp [hh] at h; rw [h]
    · next hh => simp [hh] at h

theorem bodiesOf_pad (ty : UInt8) (ts : List Tlv) : bodiesOf ty (.pad1 :: ts) = bodiesOf ty ts := rfl

/-- A reply in `bs` answers the challenge outstanding in `a`. -/
def answers (now : Timeval) (a : NAuth) (bs : List Bytes) : Bool :=
  !decide (timevalCompare now a.deadline > 0) && decide (a.nonce.length = 8) && decide (a.nonce ∈ bs)

/-- The variables after the loop, in terms of the TLVs that are used. -/
theorem scanMany_eq (mc : Bool) (now : Timeval) (hnow : timevalCompare now ⟨0, 0⟩ > 0) :
    ∀ (ts : List Tlv) (s : Scan),
      (scanMany mc now s ts).pc =
          s.pc.or ((bodiesOf 17 (usable mc s.pc.isSome ts)).head?.map fun b => (b.take 4, b.drop 4)) ∧
      (scanMany mc now s ts).nonce =
          (if mc then s.nonce else ((bodiesOf 18 (usable mc s.pc.isSome ts)).getLast?).or s.nonce) ∧
      (scanMany mc now s ts).success =
          (s.success || answers now (s.ent.getD {}) (bodiesOf 19 (usable mc s.pc.isSome ts))) ∧
      (scanMany mc now s ts).ent =
          (if bodiesOf 19 (usable mc s.pc.isSome ts) = [] then s.ent
           else if answers now (s.ent.getD {}) (bodiesOf 19 (usable mc s.pc.isSome ts)) then
             some { (s.ent.getD {}) with deadline := ⟨0, 0⟩ }
           else some (s.ent.getD {})) := by
  intro ts
  induction ts with
  | nil => intro s; cases hpc : s.pc <;> simp [scanMany, usable, bodiesOf, answers, hpc]
  | cons t ts ih =>
    intro s
    cases t with
    | pad1 => simp only [scanMany, usable, bodiesOf_pad]; exact ih s
    | tlv ty b =>
      simp only [scanMany]
      by_cases h17 : ty = 17
      · subst h17
        simp only [scanOne, usable, if_true]
        by_cases hpc : s.pc.isSome = true
        · rw [if_pos hpc, if_pos hpc]
          simp only [if_true, bodiesOf_cons]
          have := ih s
          rw [hpc] at this
          obtain ⟨i1, i2, i3, i4⟩ := this
          obtain ⟨x, hx⟩ := Option.isSome_iff_exists.1 hpc
          refine ⟨by rw [i1, hx]; rfl, by simpa using i2, by simpa using i3, by simpa using i4⟩
        · rw [if_neg hpc, if_neg hpc]
          by_cases hl : 4 ≤ b.length ∧ b.length ≤ 36
          · rw [if_pos hl, if_pos hl]
            simp only [if_true, bodiesOf_cons]
            obtain ⟨i1, i2, i3, i4⟩ := ih { s with pc := some (b.take 4, b.drop 4) }
            simp only [Option.isSome_some] at i1 i2 i3 i4
            have hn : s.pc = none := by simpa using hpc
            refine ⟨by rw [i1, hn]; rfl, by simpa using i2, by simpa using i3, by simpa using i4⟩
          · rw [if_neg hl, if_neg hl]
            have hn : s.pc = none := by simpa using hpc
            simp [bodiesOf, answers, hn]
      by_cases h18 : ty = 18
      · subst h18
        simp only [scanOne, usable]
        rw [if_neg h17, if_neg h17]
        simp only [if_true, true_and]
        cases mc with
        | true =>
          simp only [if_true]
          rw [if_neg (by simp)]
          simpa [bodiesOf_cons] using ih s
        | false =>
          simp only [if_false, Bool.false_eq_true]
          by_cases hl : 192 < b.length
          · have hc : (True ∨ (18 : UInt8) = 19) ∧ 192 < b.length := ⟨.inl trivial, hl⟩
            rw [if_pos hl, if_pos hc]
            cases hpc : s.pc <;> simp [bodiesOf, answers, hpc]
          · have hc : ¬ ((True ∨ (18 : UInt8) = 19) ∧ 192 < b.length) := fun h => hl h.2
            rw [if_neg hl, if_neg hc]
            simp only [if_true, bodiesOf_cons]
            obtain ⟨i1, i2, i3, i4⟩ := ih { s with nonce := some b }
            simp only [Bool.false_eq_true, if_false] at i1 i2 i3 i4
            refine ⟨by simpa using i1, ?_, by simpa using i3, by simpa using i4⟩
            rw [i2]
            simp only [List.getLast?_cons]
            cases (bodiesOf 18 (usable false s.pc.isSome ts)).getLast? <;> simp
      by_cases h19 : ty = 19
      · subst h19
        simp only [scanOne, usable]
        rw [if_neg h17, if_neg h17, if_neg h18]
        simp only [if_true, or_true, true_and]
        by_cases hl : 192 < b.length
        · rw [if_pos hl, if_pos hl]
          cases hpc : s.pc <;> simp [bodiesOf, answers, hpc]
        · rw [if_neg hl, if_neg hl]
          by_cases hd : timevalCompare now (s.ent.getD {}).deadline > 0
          · rw [if_pos hd]
            obtain ⟨i1, i2, i3, i4⟩ := ih { s with ent := some (s.ent.getD {}) }
            simp only [Option.getD_some] at i1 i2 i3 i4
            have hans : ∀ bs, answers now (s.ent.getD {}) bs = false := by
              intro bs; simp [answers, hd]
            simp only [if_true, bodiesOf_cons, hans] at i1 i2 i3 i4 ⊢
            refine ⟨by simpa using i1, by simpa using i2, by simpa using i3, ?_⟩
            rw [i4]
            simp
          · rw [if_neg hd]
            by_cases hh : b.length = 8 ∧ (s.ent.getD {}).nonce = b
            · rw [if_pos hh]
              obtain ⟨i1, i2, i3, i4⟩ := ih { s with success := true, ent := some { (s.ent.getD {}) with deadline := ⟨0, 0⟩ } }
              simp only [Option.getD_some] at i1 i2 i3 i4
              have h0 : ∀ bs, answers now { (s.ent.getD {}) with deadline := ⟨0, 0⟩ } bs = false := by
                intro bs; simp [answers, hnow]
              have h1 : ∀ bs, answers now (s.ent.getD {}) (b :: bs) = true := by
                intro bs; simp [answers, hd, hh.2, hh.1]
              simp only [if_true, bodiesOf_cons, h0, h1] at i1 i2 i3 i4 ⊢
              refine ⟨by simpa using i1, by simpa using i2, by simpa using i3, ?_⟩
              rw [i4]
              simp
            · rw [if_neg hh]
              obtain ⟨i1, i2, i3, i4⟩ := ih { s with ent := some (s.ent.getD {}) }
              simp only [Option.getD_some] at i1 i2 i3 i4
              have h1 : ∀ bs, answers now (s.ent.getD {}) (b :: bs) = answers now (s.ent.getD {}) bs := by
                intro bs
                unfold answers
                by_cases h8 : (s.ent.getD {}).nonce.length = 8
                · have : (s.ent.getD {}).nonce ≠ b := by
                    rintro e; rw [e] at h8; exact hh ⟨h8, e⟩
                  simp [this]
                · simp [h8]
              simp only [if_true, bodiesOf_cons, h1] at i1 i2 i3 i4 ⊢
              refine ⟨by simpa using i1, by simpa using i2, by simpa using i3, ?_⟩
              rw [i4]
              by_cases hb : bodiesOf 19 (usable mc s.pc.isSome ts) = []
              · rw [if_pos hb, hb]
                simp [answers]
              · rw [if_neg hb]; simp
      · have hu : usable mc s.pc.isSome (.tlv ty b :: ts) = .tlv ty b :: usable mc s.pc.isSome ts := by
          simp only [usable]
          rw [if_neg h17, if_neg (by rintro ⟨⟨h, _⟩ | h, _⟩ <;> contradiction)]
        rw [hu]
        simp only [scanOne]
        rw [if_neg h17, if_neg h18, if_neg h19]
        simp only [if_true, bodiesOf_cons]
        rw [if_neg h17, if_neg h18, if_neg h19]
        exact ih s

end Babel
