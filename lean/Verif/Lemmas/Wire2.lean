import Verif.Lemmas.Wire
import Verif.Spec.Wire
/-
A packet is decoded TLV by TLV.
-/
set_option linter.unusedSimpArgs false
set_option linter.unusedVariables false
namespace Babel
open Spec

theorem toNat_ofNat8 (n : Nat) : (UInt8.ofNat n).toNat = n % 256 := by simp

@[simp] theorem rd_cons_zero (a : UInt8) (l : Bytes) : rd (a :: l) 0 = some a.toNat := rfl
@[simp] theorem rd_cons_succ (a : UInt8) (l : Bytes) (i : Nat) : rd (a :: l) (i + 1) = rd l i := by
  simp [rd]

theorem rd_cons_one (a b : UInt8) (l : Bytes) : rd (a :: b :: l) 1 = some b.toNat := rfl

theorem be16_length (n : Nat) : (be16 n).length = 2 := rfl
theorem be32_length (n : Nat) : (be32 n).length = 4 := rfl

theorem rd16_be16 (n : Nat) (l : Bytes) (h : n < 65536) : rd16 (be16 n ++ l) 0 = some n := by
  simp only [rd16, be16, List.cons_append, rd_cons_zero, rd_cons_one, Option.bind_eq_bind, Option.bind_some,
    toNat_ofNat8, List.nil_append]
  have : 256 * (n / 256 % 256) + n % 256 = n := by omega
  simp [this]

theorem rd16_cons (a : UInt8) (l : Bytes) (i : Nat) : rd16 (a :: l) (i + 1) = rd16 l i := by
  simp [rd16]

theorem rd32_cons (a : UInt8) (l : Bytes) (i : Nat) : rd32 (a :: l) (i + 1) = rd32 l i := by
  simp [rd32, rd16]

theorem rd32_be32 (n : Nat) (l : Bytes) (h : n < 4294967296) : rd32 (be32 n ++ l) 0 = some n := by
  simp only [rd32, rd16, be32, be16, List.cons_append, rd_cons_zero, rd_cons_succ, Option.bind_eq_bind, Option.bind_some,
    toNat_ofNat8, List.nil_append, Nat.zero_add, Nat.reduceAdd, rd]
  simp
  omega

/-- The effect of one TLV. -/
def one (e : PEnv) (s : PState) (ty : UInt8) (body : Bytes) : PState × List Item :=
  (parseTlv e s ty.toNat (ty :: UInt8.ofNat body.length :: body) body.length).getD (s, [])

/-- The effect of a sequence of TLVs. -/
def many (e : PEnv) : PState → List Tlv → PState × List Item
  | s, [] => (s, [])
  | s, .pad1 :: ts => many e s ts
  | s, .tlv ty b :: ts =>
    let r := one e s ty b
    let r' := many e r.1 ts
    (r'.1, r.2 ++ r'.2)

theorem parseTlv_one (e : PEnv) (s : PState) (ty : UInt8) (body rest : Bytes) :
    parseTlv e s ty.toNat (ty :: UInt8.ofNat body.length :: (body ++ rest)) body.length =
      some (one e s ty body) := by
  have h1 : (parseTlv e s ty.toNat (ty :: UInt8.ofNat body.length :: body) body.length).isSome :=
    parseTlv_isSome (by simp)
  have h2 := (parseTlv_below (e := e) (s := s) (ty := ty.toNat) (len := body.length)
    (p := ty :: UInt8.ofNat body.length :: body) (q := ty :: UInt8.ofNat body.length :: (body ++ rest))
    ⟨rest, by simp⟩).eq h1
  rw [h2]
  obtain ⟨a, ha⟩ := Option.isSome_iff_exists.1 h1
  simp [one, ha]

theorem encAll_cons (t : Tlv) (ts : List Tlv) : encAll (t :: ts) = t.enc ++ encAll ts := rfl
theorem encAll_append (a b : List Tlv) : encAll (a ++ b) = encAll a ++ encAll b := by
  simp [encAll]

theorem parseBody_trunc (e : PEnv) (tail rest : Bytes) (ht : Truncated tail) (s : PState) (fuel : Nat)
    (hf : 0 < fuel) : parseBody e fuel (tail ++ rest) tail.length s = some (s, []) := by
  obtain ⟨n, rfl⟩ : ∃ n, fuel = n + 1 := ⟨fuel - 1, by omega⟩
  unfold parseBody
  rcases ht with rfl | ⟨ty, h0, rfl⟩ | ⟨ty, len, r, h0, rfl, hl⟩
  · simp
  · have : ty.toNat ≠ 0 := fun h => h0 (UInt8.toNat_inj.1 (by simpa using h))
    simp [this]
  · have h1 : ty.toNat ≠ 0 := fun h => h0 (UInt8.toNat_inj.1 (by simpa using h))
    rw [if_neg (by simp only [List.length_cons]; omega)]
    simp only [List.cons_append, rd_cons_zero, Option.bind_eq_bind, Option.bind_some]
    rw [if_neg h1, if_neg (by simp only [List.length_cons]; omega)]
    simp only [rd_cons_one, Option.bind_some]
    rw [if_pos (by simp only [List.length_cons]; omega)]
    rfl

theorem parseBody_enc (e : PEnv) (tail rest : Bytes) (ht : Truncated tail) :
    ∀ (ts : List Tlv) (s : PState) (fuel : Nat), (∀ t ∈ ts, t.Ok) →
      (encAll ts).length < fuel →
      parseBody e fuel (encAll ts ++ tail ++ rest) ((encAll ts).length + tail.length : Nat) s =
        some (many e s ts) := by
  intro ts
  induction ts with
  | nil =>
    intro s fuel _ hf
    simpa [encAll, many] using parseBody_trunc e tail rest ht s fuel (by simpa [encAll] using hf)
  | cons t ts ih =>
    intro s fuel hok hf
    obtain ⟨n, rfl⟩ : ∃ n, fuel = n + 1 := ⟨fuel - 1, by omega⟩
    have hok' : ∀ t ∈ ts, t.Ok := fun t h => hok t (List.mem_cons_of_mem _ h)
    have ht' := hok t (List.mem_cons_self ..)
    cases t with
    | pad1 =>
      simp only [encAll_cons, Tlv.enc, List.cons_append, List.nil_append, List.length_cons] at hf ⊢
      unfold parseBody
      rw [if_neg (by omega)]
      simp only [rd_cons_zero, Option.bind_eq_bind, Option.bind_some]
      rw [if_pos (by rfl)]
      have := ih s n hok' (by omega)
      rw [many, ← this]
      simp only [List.drop_succ_cons, List.drop_zero]
      congr 1
      omega
    | tlv ty b =>
      obtain ⟨h0, hl⟩ : ty ≠ 0 ∧ b.length ≤ 255 := ht'
      have h1 : ty.toNat ≠ 0 := fun h => h0 (UInt8.toNat_inj.1 (by simpa using h))
      have h2 : (UInt8.ofNat b.length).toNat = b.length := by rw [toNat_ofNat8]; omega
      simp only [encAll_cons, Tlv.enc, List.cons_append, List.append_assoc, List.length_cons, List.length_append] at hf ⊢
      unfold parseBody
      rw [if_neg (by omega)]
      simp only [rd_cons_zero, Option.bind_eq_bind, Option.bind_some]
      rw [if_neg h1, if_neg (by omega)]
      simp only [rd_cons_one, Option.bind_some, h2]
      rw [if_neg (by omega), parseTlv_one]
      have := ih (one e s ty b).1 n hok' (by omega)
      simp only [Option.bind_some, List.drop_succ_cons, List.drop_append_length, many]
      have e1 : ((b.length + 1 + 1 + (encAll ts).length + tail.length : Nat) : Int) - (b.length + 2) =
        ((encAll ts).length + tail.length : Nat) := by omega
      rw [List.append_assoc] at this
      have e2 : ((b.length + (encAll ts).length + 1 + 1 + tail.length : Nat) : Int) - (b.length + 2) =
        ((encAll ts).length + tail.length : Nat) := by omega
      first | rw [e2, this] | rw [e1, this]
      rfl

theorem packetHeader_packet (e : PEnv) (b tr : Bytes) (hb : b.length < 65536) (he : linklocal e.sender) :
    packetHeader e (packet b tr) (packet b tr).length = some (some (b.length : Int)) := by
  unfold packetHeader packet
  rw [if_neg (by simp [he])]
  simp only [rd_cons_zero, rd_cons_one, Option.bind_eq_bind, Option.bind_some, List.append_assoc]
  rw [if_neg (by decide), if_neg (by decide)]
  rw [show (2 : Nat) = 0 + 1 + 1 from rfl, rd16_cons, rd16_cons, rd16_be16 _ _ hb]
  simp only [Option.bind_some]
  rw [if_neg (by simp [be16])]
  rfl

/-- Decoding is TLV by TLV; what follows the last TLV is ignored. -/
theorem decode_many (e : PEnv) (ts : List Tlv) (tail tr : Bytes) (he : linklocal e.sender)
    (hok : ∀ t ∈ ts, t.Ok) (ht : Truncated tail) (hl : (encAll ts ++ tail).length < 65536) :
    decode e ts tail tr = some (many e {} ts) := by
  unfold decode parsePacket
  simp only []
  rw [packetHeader_packet e _ _ hl he]
  simp only [Option.bind_eq_bind, Option.bind_some]
  rw [show (packet (encAll ts ++ tail) tr).drop 4 = encAll ts ++ tail ++ tr from rfl]
  rw [List.length_append, Int.toNat_natCast]
  exact parseBody_enc e tail tr ht ts {} _ hok (by omega)

end Babel
