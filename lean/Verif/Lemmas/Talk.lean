import Verif.Spec.Talk
import Verif.Lemmas.NetlinkRead
set_option linter.unusedSimpArgs false
set_option linter.unusedVariables false
namespace Babel
open Spec

theorem hrd16_field {d : Bytes} {i l : Nat} (h : hrd16 d i = some l) : fieldAt d i 2 = l ∧ i + 2 ≤ d.length := by
  unfold hrd16 at h
  cases h1 : d[i]? with
  | none => rw [h1] at h; cases h
  | some x =>
    cases h2 : d[i + 1]? with
    | none => rw [h1, h2] at h; cases h
    | some y =>
      rw [h1, h2] at h
      cases h
      obtain ⟨l1, e1⟩ := List.getElem?_eq_some_iff.1 h1
      obtain ⟨l2, e2⟩ := List.getElem?_eq_some_iff.1 h2
      refine ⟨?_, by omega⟩
      unfold fieldAt
      rw [List.drop_eq_getElem_cons l1, List.drop_eq_getElem_cons l2, e1, e2]
      simp [leVal]

theorem fieldAt_add (d : Bytes) (i : Nat) (h : i + 4 ≤ d.length) : fieldAt d i 4 = fieldAt d i 2 + 65536 * fieldAt d (i + 2) 2 := by
  unfold fieldAt
  have e : d.drop (i + 2) = (d.drop i).drop 2 := by rw [List.drop_drop]
  have hl : 4 ≤ (d.drop i).length := by rw [List.length_drop]; omega
  rw [e]
  generalize d.drop i = x at hl
  match x, hl with
  | a :: b :: c :: f :: q, _ => simp [leVal]; omega

theorem hrd32_field {d : Bytes} {i l : Nat} (h : hrd32 d i = some l) : fieldAt d i 4 = l ∧ i + 4 ≤ d.length := by
  unfold hrd32 at h
  cases h1 : hrd16 d i with
  | none => rw [h1] at h; cases h
  | some x =>
    cases h2 : hrd16 d (i + 2) with
    | none => rw [h1, h2] at h; cases h
    | some y =>
      rw [h1, h2] at h
      cases h
      obtain ⟨a1, b1⟩ := hrd16_field h1
      obtain ⟨a2, b2⟩ := hrd16_field h2
      exact ⟨by rw [fieldAt_add _ _ (by omega), a1, a2], by omega⟩

theorem nlWalk_confirms (pid seqno : Nat) (filter : Bool) (fuel : Nat) : ∀ d : Bytes,
    ((nlWalk true pid seqno none filter fuel d false).2 = .ack ∨ (nlWalk true pid seqno none filter fuel d false).2 = .done) →
    Confirms d pid seqno := by
  induction fuel with
  | zero => intro d h; rcases h with h | h <;> cases h
  | succ fuel ih =>
    intro d h
    rw [nlWalk] at h
    cases h0 : hrd32 d 0 with
    | none => rw [h0] at h; simp at h
    | some l =>
    cases h4 : hrd16 d 4 with
    | none => rw [h0, h4] at h; simp at h
    | some type =>
    cases h8 : hrd32 d 8 with
    | none => rw [h0, h4, h8] at h; simp at h
    | some seq =>
    cases h12 : hrd32 d 12 with
    | none => rw [h0, h4, h8, h12] at h; simp at h
    | some p =>
    rw [h0, h4, h8, h12] at h
    simp only at h
    have rec' : ((nlWalk true pid seqno none filter fuel (d.drop (align4 l)) false).2 = .ack ∨
        (nlWalk true pid seqno none filter fuel (d.drop (align4 l)) false).2 = .done) → Confirms d pid seqno := by
      intro hh
      obtain ⟨pre, msg, e, r⟩ := ih _ hh
      exact ⟨d.take (align4 l) ++ pre, msg, by rw [List.append_assoc, ← e, List.take_append_drop], r⟩
    split at h
    · simp at h
    · rw [show (false || !true) = false from rfl] at h
      split at h
      · next hc => simp at hc
      · split at h
        · exact rec' h
        · next hc =>
          have hps : p = pid ∧ seq = seqno := by
            simp at hc
            exact hc
          obtain ⟨rfl, rfl⟩ := hps
          split at h
          · next ht =>
            exact ⟨[], d, rfl, by have := (hrd32_field h12).2; omega, (hrd32_field h8).1, (hrd32_field h12).1,
              Or.inl (by rw [(hrd16_field h4).1, ht]; rfl)⟩
          · split at h
            · next ht =>
              cases h16 : hrd32 d 16 with
              | none => rw [h16] at h; simp at h
              | some e =>
                rw [h16] at h
                simp only at h
                by_cases he : e = 0
                · subst he
                  exact ⟨[], d, rfl, by have := (hrd32_field h12).2; omega, (hrd32_field h8).1, (hrd32_field h12).1,
                    Or.inr ⟨by rw [(hrd16_field h4).1, ht]; rfl, (hrd32_field h16).2, (hrd32_field h16).1⟩⟩
                · rw [if_neg he] at h; simp at h
            · exact rec' h

theorem netlinkRead_confirms (pid seqno : Nat) (filter : Bool) (rs rest : List Recv) :
    (netlinkRead true pid seqno none filter rs).2 = some (.ok, rest) →
    ∃ used d, rs = used ++ Recv.data 0 d :: rest ∧ Confirms d pid seqno := by
  induction rs with
  | nil => intro h; cases h
  | cons r rs ih =>
    intro h
    rw [netlinkRead.eq_def] at h
    cases r with
    | fail => cases h
    | eof => cases h
    | badName => cases h
    | data sender d =>
      simp only at h
      split at h
      · cases h
      · next hs =>
        have hs : sender = 0 := by omega
        subst hs
        cases hw : (nlWalk true pid seqno none filter (d.length + 1) d false).2 with
        | more =>
          rw [hw] at h
          simp only at h
          obtain ⟨used, d', e, hc⟩ := ih h
          exact ⟨Recv.data 0 d :: used, d', by rw [e]; rfl, hc⟩
        | done => rw [hw] at h; cases h; exact ⟨[], d, rfl, nlWalk_confirms _ _ _ _ _ (Or.inr hw)⟩
        | ack => rw [hw] at h; cases h; exact ⟨[], d, rfl, nlWalk_confirms _ _ _ _ _ (Or.inl hw)⟩
        | error e => rw [hw] at h; cases h
        | undef => rw [hw] at h; cases h

end Babel
