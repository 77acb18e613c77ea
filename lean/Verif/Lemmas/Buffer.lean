import Verif.Spec.Buffer
import Verif.Props.Wire
/-
The send buffer as a sequence of TLVs.
-/
set_option linter.unusedSimpArgs false
set_option linter.unusedVariables false
namespace Babel
open Spec

theorem htons_eq (n : Nat) : htons n = be16 n := by
  simp only [htons, be16, List.cons.injEq, and_true]
  refine ⟨?_, ?_⟩ <;> apply UInt8.toNat_inj.1 <;> simp

theorem be16_mod (n : Nat) : be16 (n % 65536) = be16 n := by
  simp only [be16, List.cons.injEq, and_true]
  refine ⟨?_, ?_⟩ <;> apply UInt8.toNat_inj.1 <;> simp <;> omega

theorem htonl_eq (n : Nat) : htonl n = be32 n := by
  unfold htonl be32
  rw [htons_eq, htons_eq, be16_mod, be16_mod]

theorem header_packet (body tr : Bytes) : header body.length ++ body ++ tr = packet body tr := by
  unfold header packet
  rw [htons_eq]
  simp

theorem encAll_single (t : Tlv) : encAll [t] = t.enc := by simp [encAll]

theorem encAll_snoc (ts : List Tlv) (t : Tlv) : encAll (ts ++ [t]) = encAll ts ++ t.enc := by
  rw [encAll_append, encAll_single]

/-! The effect of the emission time on the parser -/

/-- The parser state with another value of `have_hello_rtt`. -/
def flag (x : Bool) (s : PState) : PState := { s with haveHelloRtt := x }

theorem flag_applyFlags (x : Bool) (s : PState) (f ae : Nat) (p : Bytes) :
    (flag x s).applyFlags f ae p = flag x (s.applyFlags f ae p) := by
  have h : (flag x s).setDefault ae p = flag x (s.setDefault ae p) := by
    unfold PState.setDefault
    by_cases h3 : ae = 1
    · rw [if_pos h3, if_pos h3]; rfl
    · rw [if_neg h3, if_neg h3]
      by_cases h4 : ae = 2
      · rw [if_pos h4, if_pos h4]; rfl
      · rw [if_neg h4, if_neg h4]
        by_cases h5 : ae = 4
        · rw [if_pos h5, if_pos h5]; rfl
        · rw [if_neg h5, if_neg h5]
  unfold PState.applyFlags
  rw [h]
  by_cases h1 : f &&& 0x80 ≠ 0
  · rw [if_pos h1, if_pos h1]
    by_cases h2 : f &&& 0x40 ≠ 0
    · simp only []; rw [if_pos h2, if_pos h2]; rfl
    · simp only []; rw [if_neg h2, if_neg h2]
  · rw [if_neg h1, if_neg h1]
    by_cases h2 : f &&& 0x40 ≠ 0
    · simp only []; rw [if_pos h2, if_pos h2]; rfl
    · simp only []; rw [if_neg h2, if_neg h2]

theorem flag_updateItems (x : Bool) (e : PEnv) (s : PState) (ae l : Nat) (p : Bytes) (a b c : Nat) (d : Bytes) (n : Int) :
    updateItems e (flag x s) ae l p a b c d n = updateItems e s ae l p a b c d n := rfl

theorem flag_tlvUpdate (x : Bool) (e : PEnv) (s : PState) (m : Bytes) (len : Nat) :
    tlvUpdate e (flag x s) m len = (tlvUpdate e s m len).map fun r => (flag x r.1, r.2) := by
  unfold tlvUpdate
  have e1 : ∀ ae l om p n, updatePrefix (flag x s) ae l om p n = updatePrefix s ae l om p n := fun _ _ _ _ _ => rfl
  simp only [flag_applyFlags, flag_updateItems, e1, Option.bind_eq_bind]
  have nd : (flag x s).noDefaults = flag x s.noDefaults := rfl
  rw [nd]
  by_cases h1 : len < 10
  · rw [if_pos h1, if_pos h1]
    by_cases h2 : len < 2
    · rw [if_pos h2, if_pos h2]; rfl
    · rw [if_neg h2, if_neg h2]
      cases rd m 3 with
      | none => rfl
      | some f =>
        simp only [Option.bind_some]
        by_cases h3 : f &&& 0x80 ≠ 0
        · rw [if_pos h3, if_pos h3]; rfl
        · rw [if_neg h3, if_neg h3]; rfl
  · rw [if_neg h1, if_neg h1]
    cases rd m 2 with
    | none => rfl
    | some ae =>
      simp only [Option.bind_some]
      by_cases h2 : (!knownAe ae) = true
      · rw [if_pos h2, if_pos h2]; rfl
      · rw [if_neg h2, if_neg h2]
        by_cases h3 : (decide (ae = 4) && !e.v4viav6) = true
        · rw [if_pos h3, if_pos h3]; rfl
        · rw [if_neg h3, if_neg h3]
          cases rd m 3 with
          | none => rfl
          | some fl =>
          cases rd m 4 with
          | none => rfl
          | some l =>
          cases rd m 5 with
          | none => rfl
          | some om =>
          cases rd16 m 6 with
          | none => rfl
          | some iv =>
          cases rd16 m 8 with
          | none => rfl
          | some sq =>
          cases rd16 m 10 with
          | none => rfl
          | some mt =>
          simp only [Option.bind_some]
          cases updatePrefix s ae l om (m.drop 12) (len - 10) with
          | none => rfl
          | some r =>
            simp only [Option.bind_some]
            cases r with
            | none =>
              simp only []
              by_cases h4 : fl &&& 0x80 ≠ 0
              · rw [if_pos h4, if_pos h4]; rfl
              · rw [if_neg h4, if_neg h4]; rfl
            | some r =>
              obtain ⟨rc, pfx⟩ := r
              simp only []
              cases updateItems e (s.applyFlags fl ae pfx) ae l pfx sq mt iv (m.drop (12 + rc)) ((len : Int) - 10 - rc) with
              | none => rfl
              | some _ => rfl

theorem flag_tlvNh (x : Bool) (s : PState) (m : Bytes) (len : Nat) :
    tlvNh (flag x s) m len = (tlvNh s m len).map fun r => (flag x r.1, r.2) := by
  unfold tlvNh
  simp only [Option.bind_eq_bind]
  by_cases h1 : len < 2
  · rw [if_pos h1, if_pos h1]; rfl
  · rw [if_neg h1, if_neg h1]
    cases rd m 2 with
    | none => rfl
    | some ae =>
    simp only [Option.bind_some]
    cases networkAddress ae (m.drop 4) (len - 2) with
    | none => rfl
    | some r =>
    simp only [Option.bind_some]
    by_cases h2 : (!knownAe ae) = true
    · rw [if_pos h2, if_pos h2]; rfl
    · rw [if_neg h2, if_neg h2]
      by_cases h3 : ae = 0
      · rw [if_pos h3, if_pos h3]; rfl
      · rw [if_neg h3, if_neg h3]
        cases r with
        | none => rfl
        | some r =>
          obtain ⟨rc, nh⟩ := r
          simp only []
          by_cases h4 : ae = 1
          · rw [if_pos h4, if_pos h4]
            cases parseOtherSub (m.drop (4 + rc)) ((len : Int) - 2 - rc) <;> rfl
          · rw [if_neg h4, if_neg h4]
            by_cases h5 : (decide (ae = 2) || decide (ae = 3)) = true
            · rw [if_pos h5, if_pos h5]
              cases parseOtherSub (m.drop (4 + rc)) ((len : Int) - 2 - rc) <;> rfl
            · rw [if_neg h5, if_neg h5]; rfl

theorem flag_tlvRouterId (x : Bool) (s : PState) (m : Bytes) (len : Nat) :
    tlvRouterId (flag x s) m len = (tlvRouterId s m len).map fun r => (flag x r.1, r.2) := by
  unfold tlvRouterId
  simp only [Option.bind_eq_bind]
  by_cases h1 : len < 10
  · rw [if_pos h1, if_pos h1]; rfl
  · rw [if_neg h1, if_neg h1]
    cases rdN (m.drop 4) 8 with
    | none => rfl
    | some id =>
      simp only [Option.bind_some]
      cases parseOtherSub (m.drop 12) ((len : Int) - 10) <;> rfl

theorem flag_tlvIhu (x : Bool) (e : PEnv) (s : PState) (m : Bytes) (len : Nat) :
    tlvIhu e (flag x s) m len = (tlvIhu e s m len).map fun r => (flag x r.1, r.2) := by
  unfold tlvIhu
  simp only [Option.bind_eq_bind]
  by_cases h1 : len < 6
  · rw [if_pos h1, if_pos h1]; rfl
  · rw [if_neg h1, if_neg h1]
    cases rd m 2 with
    | none => rfl
    | some ae =>
    simp only [Option.bind_some]
    by_cases h2 : (!knownAe ae) = true
    · rw [if_pos h2, if_pos h2]; rfl
    · rw [if_neg h2, if_neg h2]
      cases rd16 m 4 with
      | none => rfl
      | some tc =>
      cases rd16 m 6 with
      | none => rfl
      | some iv =>
      simp only [Option.bind_some]
      cases networkAddress ae (m.drop 8) (len - 6) with
      | none => rfl
      | some r =>
      simp only [Option.bind_some]
      cases r with
      | none => rfl
      | some r =>
        obtain ⟨rc, addr⟩ := r
        simp only []
        by_cases h4 : (decide (ae = 0) || e.isOurs addr) = true
        · rw [if_pos h4, if_pos h4]
          cases parseIhuSub (m.drop (8 + rc)) ((len : Int) - 6 - rc) with
          | none => rfl
          | some ts => cases ts with
            | none => rfl
            | some ts => cases ts <;> rfl
        · rw [if_neg h4, if_neg h4]; rfl

theorem flag_tlvAckReq (x : Bool) (s : PState) (m : Bytes) (len : Nat) :
    tlvAckReq (flag x s) m len = (tlvAckReq s m len).map fun r => (flag x r.1, r.2) := by
  unfold tlvAckReq
  simp only [Option.bind_eq_bind]
  by_cases h1 : len < 6
  · rw [if_pos h1, if_pos h1]; rfl
  · rw [if_neg h1, if_neg h1]
    cases rd16 m 4 with
    | none => rfl
    | some _ =>
    cases rd16 m 6 with
    | none => rfl
    | some _ =>
    simp only [Option.bind_some]
    cases parseOtherSub (m.drop 8) ((len : Int) - 6) with
    | none => rfl
    | some r => cases r <;> rfl

theorem flag_tlvAck (x : Bool) (s : PState) (m : Bytes) (len : Nat) :
    tlvAck (flag x s) m len = (tlvAck s m len).map fun r => (flag x r.1, r.2) := by
  unfold tlvAck
  simp only [Option.bind_eq_bind]
  cases parseOtherSub (m.drop 4) ((len : Int) - 2) <;> rfl

theorem flag_tlvRequest (x : Bool) (s : PState) (m : Bytes) (len : Nat) :
    tlvRequest (flag x s) m len = (tlvRequest s m len).map fun r => (flag x r.1, r.2) := by
  unfold tlvRequest
  simp only [Option.bind_eq_bind]
  by_cases h1 : len < 2
  · rw [if_pos h1, if_pos h1]; rfl
  · rw [if_neg h1, if_neg h1]
    cases rd m 2 with
    | none => rfl
    | some ae =>
    simp only [Option.bind_some]
    by_cases h2 : (!knownAe ae) = true
    · rw [if_pos h2, if_pos h2]; rfl
    · rw [if_neg h2, if_neg h2]
      cases rd m 3 with
      | none => rfl
      | some l =>
      simp only [Option.bind_some]
      cases networkPrefix ae (some l) 0 (m.drop 4) none (len - 2) with
      | none => rfl
      | some r =>
      simp only [Option.bind_some]
      cases r with
      | none => rfl
      | some r =>
        obtain ⟨rc, pfx⟩ := r
        simp only []
        cases parseSrcSub ae (m.drop (4 + rc)) ((len : Int) - 2 - rc) with
        | none => rfl
        | some r =>
          simp only [Option.bind_some]
          cases r with
          | none => rfl
          | some src =>
            simp only []
            by_cases h3 : ae = 0
            · rw [if_pos h3, if_pos h3]
              by_cases h4 : (!isDefault (src.getD (defaultSrc ae)).1 (src.getD (defaultSrc ae)).2) = true
              · rw [if_pos h4, if_pos h4]; rfl
              · rw [if_neg h4, if_neg h4]; rfl
            · rw [if_neg h3, if_neg h3]; rfl

theorem flag_tlvSeqno (x : Bool) (s : PState) (m : Bytes) (len : Nat) :
    tlvSeqno (flag x s) m len = (tlvSeqno s m len).map fun r => (flag x r.1, r.2) := by
  unfold tlvSeqno
  simp only [Option.bind_eq_bind]
  by_cases h1 : len < 14
  · rw [if_pos h1, if_pos h1]; rfl
  · rw [if_neg h1, if_neg h1]
    cases rd m 2 with
    | none => rfl
    | some ae =>
    simp only [Option.bind_some]
    by_cases h2 : (!knownAe ae) = true
    · rw [if_pos h2, if_pos h2]; rfl
    · rw [if_neg h2, if_neg h2]
      cases rd m 3 with
      | none => rfl
      | some l =>
      cases rd16 m 4 with
      | none => rfl
      | some sq =>
      simp only [Option.bind_some]
      cases networkPrefix ae (some l) 0 (m.drop 16) none (len - 14) with
      | none => rfl
      | some r =>
      simp only [Option.bind_some]
      cases r with
      | none => rfl
      | some r =>
        obtain ⟨rc, pfx⟩ := r
        simp only []
        cases parseSeqSub ae (m.drop (16 + rc)) ((len : Int) - 14 - rc) with
        | none => rfl
        | some r =>
          simp only [Option.bind_some]
          cases r with
          | none => rfl
          | some src =>
            simp only []
            cases rd m 6 with
            | none => rfl
            | some _ =>
            cases rdN (m.drop 8) 8 <;> rfl

theorem flag_one (x : Bool) (e : PEnv) (s : PState) (ty : UInt8) (b : Bytes) (h : ty ≠ 4) :
    one e (flag x s) ty b = (flag x (one e s ty b).1, (one e s ty b).2) := by
  have key : runTlv e (flag x s) ty b = (runTlv e s ty b).map fun r => (flag x r.1, r.2) := by
    by_cases h0 : ty < 2 ∨ 10 < ty
    · rw [run_other e _ ty b h0, run_other e _ ty b h0]; rfl
    · have : ty = 2 ∨ ty = 3 ∨ ty = 5 ∨ ty = 6 ∨ ty = 7 ∨ ty = 8 ∨ ty = 9 ∨ ty = 10 := by
        have h1 : ty.toNat ≠ 4 := fun h' => h (UInt8.toNat_inj.1 h')
        have h2 : ¬ (ty.toNat < 2 ∨ 10 < ty.toNat) := h0
        have h3 : ty.toNat = 2 ∨ ty.toNat = 3 ∨ ty.toNat = 5 ∨ ty.toNat = 6 ∨ ty.toNat = 7 ∨ ty.toNat = 8 ∨
          ty.toNat = 9 ∨ ty.toNat = 10 := by omega
        simp only [← UInt8.toNat_inj]; exact h3
      rcases this with rfl | rfl | rfl | rfl | rfl | rfl | rfl | rfl
      · rw [run2, run2, flag_tlvAckReq]
      · rw [run3, run3, flag_tlvAck]
      · rw [run5, run5, flag_tlvIhu]
      · rw [run6, run6, flag_tlvRouterId]
      · rw [run7, run7, flag_tlvNh]
      · rw [run8, run8, flag_tlvUpdate]
      · rw [run9, run9, flag_tlvRequest]
      · rw [run10, run10, flag_tlvSeqno]
  rw [runTlv_one, runTlv_one] at key
  exact Option.some.inj key

theorem flag_many (x : Bool) (e : PEnv) (s : PState) (ts : List Tlv) (h : ∀ b, Tlv.tlv 4 b ∉ ts) :
    many e (flag x s) ts = (flag x (many e s ts).1, (many e s ts).2) := by
  induction ts generalizing s with
  | nil => rfl
  | cons t ts ih =>
    have h' : ∀ b, Tlv.tlv 4 b ∉ ts := fun b hb => h b (by simp [hb])
    cases t with
    | pad1 => exact ih s h'
    | tlv ty b =>
      have : ty ≠ 4 := by rintro rfl; exact h b (by simp)
      simp only [many]
      rw [flag_one x e s ty b this, ih _ h']

end Babel
