import Verif.Lemmas.Auth2
/-
Histories of authenticated packets.
-/
set_option linter.unusedSimpArgs false
set_option linter.unusedVariables false
namespace Babel
open Spec

/-! The TLVs of a packet are unique. -/

theorem trunc_cons {t : Tlv} {b tail : Bytes} (ht : t.Ok) (h : Truncated tail) : t.enc ++ b ≠ tail := by
  intro he
  subst he
  cases t with
  | pad1 =>
    rcases h with h | ⟨ty, h0, h⟩ | ⟨ty, len, r, h0, h, _⟩ <;> simp [Tlv.enc] at h
    · exact h0 h.1.symm
    · exact h0 h.1.symm
  | tlv ty x =>
    obtain ⟨_, hx⟩ : ty ≠ 0 ∧ x.length ≤ 255 := ht
    rcases h with h | ⟨ty', h0, h⟩ | ⟨ty', len, r, h0, h, hl⟩ <;> simp [Tlv.enc] at h
    obtain ⟨_, h2, h3⟩ := h
    rw [← h2, ← h3, toNat_ofNat8] at hl
    simp at hl
    omega

theorem tlvs_unique : ∀ (a b : List Tlv) (ta tb : Bytes), (∀ t ∈ a, t.Ok) → (∀ t ∈ b, t.Ok) →
    Truncated ta → Truncated tb → encAll a ++ ta = encAll b ++ tb → a = b
  | [], [], _, _, _, _, _, _, _ => rfl
  | [], t :: b, ta, tb, _, hb, hta, _, h => by
    rw [encAll_cons, List.append_assoc] at h
    exact absurd h.symm (by simpa [encAll] using trunc_cons (hb t (by simp)) hta)
  | t :: a, [], ta, tb, ha, _, _, htb, h => by
    rw [encAll_cons, List.append_assoc] at h
    exact absurd h (by simpa [encAll] using trunc_cons (ha t (by simp)) htb)
  | t :: a, t' :: b, ta, tb, ha, hb, hta, htb, h => by
    rw [encAll_cons, encAll_cons, List.append_assoc, List.append_assoc] at h
    have ht := ha t (by simp)
    have ht' := hb t' (by simp)
    have ih := tlvs_unique a b ta tb (fun x hx => ha x (by simp [hx])) (fun x hx => hb x (by simp [hx])) hta htb
    cases t with
    | pad1 =>
      cases t' with
      | pad1 =>
        simp [Tlv.enc] at h
        rw [ih h]
      | tlv ty body =>
        simp [Tlv.enc] at h
        exact absurd h.1.symm ht'.1
    | tlv ty body =>
      cases t' with
      | pad1 =>
        simp [Tlv.enc] at h
        exact absurd h.1 ht.1
      | tlv ty' body' =>
        obtain ⟨_, hx⟩ : ty ≠ 0 ∧ body.length ≤ 255 := ht
        obtain ⟨_, hx'⟩ : ty' ≠ 0 ∧ body'.length ≤ 255 := ht'
        simp only [Tlv.enc, List.cons_append, List.cons.injEq] at h
        obtain ⟨h1, h2, h3⟩ := h
        have hl : body.length = body'.length := by
          have := congrArg UInt8.toNat h2
          rw [toNat_ofNat8, toNat_ofNat8] at this
          omega
        obtain ⟨h4, h5⟩ := List.append_inj h3 hl
        rw [h1, h4, ih h5]

theorem tlvsOf_unique {P : Bytes} {ts ts' : List Tlv} (h : TlvsOf P ts) (h' : TlvsOf P ts') : ts = ts' := by
  obtain ⟨h1, tail, tr, h2, h3, h4⟩ := h
  obtain ⟨h1', tail', tr', h2', h3', h4'⟩ := h'
  rw [h4] at h4'
  exact tlvs_unique ts ts' tail tail' h1 h1' h2 h2' (packet_inj h4' h3 h3').1

/-! Counters -/

theorem value_foldl (b : Bytes) (n : Nat) :
    b.foldl (fun n x => 256 * n + x.toNat) n = n * 256 ^ b.length + value b := by
  induction b generalizing n with
  | nil => simp [value]
  | cons x b ih =>
    have h1 := ih (256 * n + x.toNat)
    have h2 := ih (256 * 0 + x.toNat)
    simp only [value, List.foldl_cons] at *
    rw [h1, h2]
    simp only [List.length_cons, Nat.pow_succ, Nat.add_mul, Nat.mul_zero, Nat.zero_add]
    rw [Nat.mul_assoc, Nat.mul_left_comm, Nat.mul_comm (256 ^ b.length) 256]
    omega

theorem value_cons (x : UInt8) (b : Bytes) : value (x :: b) = x.toNat * 256 ^ b.length + value b := by
  have := value_foldl b (256 * 0 + x.toNat)
  simpa [value] using this

theorem value_lt (b : Bytes) : value b < 256 ^ b.length := by
  induction b with
  | nil => simp [value]
  | cons x b ih =>
    rw [value_cons, List.length_cons, Nat.pow_succ]
    have hx := x.toNat_lt
    have : x.toNat * 256 ^ b.length ≤ 255 * 256 ^ b.length := Nat.mul_le_mul_right _ (by omega)
    omega

theorem memcmpLe_value : ∀ (a b : Bytes), a.length = b.length → (memcmpLe a b = true ↔ value a ≤ value b)
  | [], [], _ => by simp [memcmpLe]
  | x :: a, y :: b, h => by
    have hl : a.length = b.length := by simpa using h
    have ih := memcmpLe_value a b hl
    have va := value_lt a
    have vb := value_lt b
    rw [value_cons, value_cons, hl]
    rw [hl] at va
    unfold memcmpLe
    split
    · next he => rw [ih, he]; omega
    · next he =>
      have hne : x.toNat ≠ y.toNat := fun h => he (UInt8.toNat_inj.1 h)
      simp only [decide_eq_true_eq, UInt8.lt_iff_toNat_lt]
      constructor
      · intro hlt
        have : (x.toNat + 1) * 256 ^ b.length ≤ y.toNat * 256 ^ b.length := Nat.mul_le_mul_right _ hlt
        rw [Nat.add_mul] at this
        omega
      · intro hle
        rcases Nat.lt_or_gt_of_ne hne with h1 | h1
        · exact h1
        · have : (y.toNat + 1) * 256 ^ b.length ≤ x.toNat * 256 ^ b.length := Nat.mul_le_mul_right _ h1
          rw [Nat.add_mul] at this
          omega
  | [], _ :: _, h => by simp at h
  | _ :: _, [], h => by simp at h

theorem usable_pc (mc : Bool) : ∀ (ts : List Tlv) (b : Bytes),
    (bodiesOf 17 (usable mc false ts)).head? = some b → 4 ≤ b.length ∧ b.length ≤ 36
  | [], b, h => by simp [usable, bodiesOf] at h
  | .pad1 :: ts, b, h => usable_pc mc ts b (by simpa [usable, bodiesOf_pad] using h)
  | .tlv ty x :: ts, b, h => by
    simp only [usable] at h
    by_cases h17 : ty = 17
    · rw [if_pos h17] at h
      simp only [Bool.false_eq_true, if_false] at h
      by_cases hl : 4 ≤ x.length ∧ x.length ≤ 36
      · rw [if_pos hl, bodiesOf_cons, if_pos h17] at h
        simp at h
        rw [← h]; exact hl
      · rw [if_neg hl] at h
        simp [bodiesOf] at h
    · rw [if_neg h17] at h
      split at h
      · simp [bodiesOf] at h
      · rw [bodiesOf_cons, if_neg h17] at h
        exact usable_pc mc ts b h

theorem counter_len {mc : Bool} {ts : List Tlv} {pc ix : Bytes} (h : counter mc ts = some (pc, ix)) :
    pc.length = 4 ∧ ix.length ≤ 32 := by
  unfold counter at h
  cases hb : (bodiesOf 17 (usable mc false ts)).head? with
  | none => simp [hb] at h
  | some b =>
    have := usable_pc mc ts b hb
    simp [hb] at h
    obtain ⟨rfl, rfl⟩ := h
    simp
    omega

/-! What a signed packet does -/

theorem answer1_frame (now : Timeval) (n : Option Bytes) (a : NAuth) :
    ∃ rl out, answer1 now n a = ({ a with replyLimit := rl }, out) ∧ (out = [] ∨ ∃ n, out = [.reply n]) := by
  cases n with
  | none => exact ⟨a.replyLimit, [], rfl, .inl rfl⟩
  | some n =>
    simp only [answer1, challengeReply]
    split
    · exact ⟨a.replyLimit, [], rfl, .inl rfl⟩
    · exact ⟨_, _, rfl, .inr ⟨n, rfl⟩⟩

theorem judged_cases (r : Nonces) (mc : Bool) (now : Timeval) (draws : Nat) (a : NAuth) (ts : List Tlv) :
    ∃ rl out, (out = [] ∨ ∃ n, out = [.reply n]) ∧
     ((counter mc ts = none ∧ judged r mc now draws a ts =
        ({ (if answers now a (replies mc ts) then { a with deadline := ⟨0, 0⟩ } else a) with replyLimit := rl },
          draws, .dropped, out)) ∨
      ∃ pc ix, counter mc ts = some (pc, ix) ∧
       ((answers now a (replies mc ts) = true ∧ judged r mc now draws a ts =
          ({ a with deadline := ⟨0, 0⟩, index := some ix, pcM := pc, pcU := pc, replyLimit := rl },
            draws, .answered, out)) ∨
        (answers now a (replies mc ts) = false ∧
         ((a.index ≠ some ix ∧ timevalCompare now a.requestLimit ≤ 0 ∧ judged r mc now draws a ts =
            ({ a with replyLimit := rl }, draws, .dropped, out)) ∨
          (a.index ≠ some ix ∧ timevalCompare now a.requestLimit > 0 ∧ (r draws).2 = true ∧
            judged r mc now draws a ts =
            ({ a with nonce := (r draws).1, deadline := timevalAddMsec now 30000,
                      requestLimit := timevalAddMsec now 300, replyLimit := rl },
              draws + 1, .dropped, .request (r draws).1 :: out)) ∨
          (a.index ≠ some ix ∧ timevalCompare now a.requestLimit > 0 ∧ (r draws).2 = false ∧
            judged r mc now draws a ts =
            ({ a with nonce := (r draws).1, replyLimit := rl }, draws + 1, .dropped, out)) ∨
          (a.index = some ix ∧ memcmpLe pc (a.last mc) = true ∧ judged r mc now draws a ts =
            ({ a with replyLimit := rl }, draws, .dropped, out)) ∨
          (a.index = some ix ∧ memcmpLe pc (a.last mc) = false ∧ judged r mc now draws a ts =
            ({ (if mc then { a with pcM := pc } else { a with pcU := pc }) with replyLimit := rl },
              draws, .newer, out)))))) := by
  unfold judged
  simp only
  cases hc : counter mc ts with
  | none =>
    obtain ⟨rl, out, h1, h2⟩ := answer1_frame now (requested mc ts)
      (if answers now a (replies mc ts) then { a with deadline := ⟨0, 0⟩ } else a)
    exact ⟨rl, out, h2, .inl ⟨rfl, by simp only [h1]⟩⟩
  | some q =>
    obtain ⟨pc, ix⟩ := q
    cases hh : answers now a (replies mc ts) with
    | true =>
      obtain ⟨rl, out, h1, h2⟩ := answer1_frame now (requested mc ts)
        { a with deadline := ⟨0, 0⟩, index := some ix, pcM := pc, pcU := pc }
      refine ⟨rl, out, h2, .inr ⟨pc, ix, rfl, .inl ⟨rfl, ?_⟩⟩⟩
      simp only [judge, if_true, Bool.false_eq_true, if_false, h1, List.nil_append]
    | false =>
      by_cases hi : a.index = some ix
      · cases hm : memcmpLe pc (a.last mc) with
        | true =>
          refine ⟨a.replyLimit, [], .inl rfl, .inr ⟨pc, ix, rfl, .inr ⟨rfl, .inr (.inr (.inr (.inl ⟨hi, hm, ?_⟩)))⟩⟩⟩
          unfold NAuth.last at hm
          have e : judge r mc now draws false pc ix a = (a, draws, .dropped, [], true) := by
            unfold judge
            rw [if_neg (by simp), if_neg (not_not_intro hi), if_pos hm]
          simp only [Bool.false_eq_true, if_false]
          rw [e]
          rfl
        | false =>
          obtain ⟨rl, out, h1, h2⟩ := answer1_frame now (requested mc ts) (if mc then { a with pcM := pc } else { a with pcU := pc })
          refine ⟨rl, out, h2, .inr ⟨pc, ix, rfl, .inr ⟨rfl, .inr (.inr (.inr (.inr ⟨hi, hm, ?_⟩)))⟩⟩⟩
          unfold NAuth.last at hm
          have e : judge r mc now draws false pc ix a =
              (if mc then { a with pcM := pc } else { a with pcU := pc }, draws, .newer, [], false) := by
            unfold judge
            rw [if_neg (by simp), if_neg (not_not_intro hi), if_neg (by rw [hm]; simp)]
          simp only [Bool.false_eq_true, if_false]
          rw [e]
          simp only [Bool.false_eq_true, if_false, h1, List.nil_append]
      · by_cases hl : timevalCompare now a.requestLimit ≤ 0
        · obtain ⟨rl, out, h1, h2⟩ := answer1_frame now (requested mc ts) a
          refine ⟨rl, out, h2, .inr ⟨pc, ix, rfl, .inr ⟨rfl, .inl ⟨hi, hl, ?_⟩⟩⟩⟩
          simp only [judge, challengeRequest, Bool.false_eq_true, if_false, hi, hl, ne_eq, not_false_eq_true, if_true, h1,
            List.nil_append]
        · cases hr : (r draws).2 with
          | true =>
            obtain ⟨rl, out, h1, h2⟩ := answer1_frame now (requested mc ts)
              { a with nonce := (r draws).1, deadline := timevalAddMsec now 30000, requestLimit := timevalAddMsec now 300 }
            refine ⟨rl, out, h2, .inr ⟨pc, ix, rfl, .inr ⟨rfl, .inr (.inl ⟨hi, by omega, rfl, ?_⟩)⟩⟩⟩
            simp only [judge, challengeRequest, Bool.false_eq_true, if_false, hi, hl, ne_eq, not_false_eq_true, if_true, h1, hr,
              List.cons_append, List.nil_append]
          | false =>
            obtain ⟨rl, out, h1, h2⟩ := answer1_frame now (requested mc ts) { a with nonce := (r draws).1 }
            refine ⟨rl, out, h2, .inr ⟨pc, ix, rfl, .inr ⟨rfl, .inr (.inr (.inl ⟨hi, by omega, rfl, ?_⟩))⟩⟩⟩
            simp only [judge, challengeRequest, Bool.false_eq_true, if_false, hi, hl, ne_eq, not_false_eq_true, if_true, h1, hr,
              List.nil_append]

/-! Invariants of histories -/

/-- The counters are four bytes and the times are normalised. -/
structure NAuth.Wf (a : NAuth) : Prop where
  m : a.pcM.length = 4
  u : a.pcU.length = 4
  d : TvOk a.deadline
  q : TvOk a.requestLimit
  p : TvOk a.replyLimit

theorem NAuth.Wf.last {a : NAuth} (h : a.Wf) (mc : Bool) : (a.last mc).length = 4 := by
  cases mc
  · exact h.u
  · exact h.m

theorem wf_fresh : ({} : NAuth).Wf := ⟨rfl, rfl, by unfold TvOk; decide, by unfold TvOk; decide, by unfold TvOk; decide⟩

theorem answer1_tv {now : Timeval} {n : Option Bytes} {a : NAuth} (h : TvOk a.replyLimit) (hn : TvOk now) :
    TvOk (answer1 now n a).1.replyLimit := by
  cases n with
  | none => exact h
  | some n =>
    simp only [answer1, challengeReply]
    split
    · exact h
    · exact (C03_add_msec_exact now 300 hn (by omega)).2

theorem judged_reply (r : Nonces) (mc : Bool) (now : Timeval) (draws : Nat) (a : NAuth) (ts : List Tlv)
    (h : TvOk a.replyLimit) (hn : TvOk now) : TvOk (judged r mc now draws a ts).1.replyLimit := by
  unfold judged
  simp only
  split
  · apply answer1_tv _ hn
    split <;> exact h
  · apply answer1_tv _ hn
    have hq : ∀ b : NAuth, TvOk b.replyLimit → TvOk (challengeRequest r now draws b).1.replyLimit := by
      intro b hb
      unfold challengeRequest
      split
      · exact hb
      · simp only
        split <;> exact hb
    have h1 : TvOk (if answers now a (replies mc ts) then { a with deadline := ⟨0, 0⟩ } else a).replyLimit := by
      split <;> exact h
    generalize (if answers now a (replies mc ts) then { a with deadline := ⟨0, 0⟩ } else a) = b at h1 ⊢
    unfold judge
    split
    · exact h1
    split
    · exact hq b h1
    cases mc <;> simp only [if_true, if_false, Bool.false_eq_true] <;> split <;> exact h1

theorem judged_wf (r : Nonces) (mc : Bool) (now : Timeval) (draws : Nat) (a : NAuth) (ts : List Tlv)
    (h : a.Wf) (hn : TvOk now) : (judged r mc now draws a ts).1.Wf := by
  have hp := judged_reply r mc now draws a ts h.p hn
  have h0 : TvOk ⟨0, 0⟩ := by unfold TvOk; decide
  obtain ⟨rl, out, -, ⟨-, e⟩ | ⟨pc, ix, hc, ⟨-, e⟩ | ⟨-, ⟨-, -, e⟩ | ⟨-, -, -, e⟩ | ⟨-, -, -, e⟩ | ⟨-, -, e⟩ |
    ⟨-, -, e⟩⟩⟩⟩ := judged_cases r mc now draws a ts <;> rw [e] at hp ⊢
  · split
    · exact ⟨h.m, h.u, h0, h.q, hp⟩
    · exact ⟨h.m, h.u, h.d, h.q, hp⟩
  · exact ⟨(counter_len hc).1, (counter_len hc).1, h0, h.q, hp⟩
  · exact ⟨h.m, h.u, h.d, h.q, hp⟩
  · exact ⟨h.m, h.u, (C03_add_msec_exact now 30000 hn (by omega)).2, (C03_add_msec_exact now 300 hn (by omega)).2, hp⟩
  · exact ⟨h.m, h.u, h.d, h.q, hp⟩
  · exact ⟨h.m, h.u, h.d, h.q, hp⟩
  · cases mc
    · exact ⟨h.m, (counter_len hc).1, h.d, h.q, hp⟩
    · exact ⟨(counter_len hc).1, h.u, h.d, h.q, hp⟩

/-- What holds of the entry of `x` at the start, and is preserved by each event, holds at the end. -/
theorem arun_ind (r : Nonces) (x : Bytes) (P : AState → List AEv → List Effect → Prop)
    (hnil : ∀ s, P s [] [])
    (hcons : ∀ s s' s'' ev o evs os, EvOk ev → AStep r s x s' ev o → arun r s' evs = some (s'', os) → P s' evs os →
      P s (ev :: evs) (o :: os)) :
    ∀ evs s s' os, (∀ ev ∈ evs, EvOk ev) → arun r s evs = some (s', os) → P s evs os := by
  intro evs
  induction evs with
  | nil =>
    intro s s' os _ h
    simp only [arun, Option.some.injEq, Prod.mk.injEq] at h
    rw [← h.2]; exact hnil s
  | cons ev evs ih =>
    intro s s' os hok h
    obtain ⟨s1, o, h1, h2⟩ := astep_ok r s ev (hok ev (by simp))
    simp only [arun, h1, Option.bind_eq_bind, Option.bind_some] at h
    cases h3 : arun r s1 evs with
    | none => simp [h3] at h
    | some q =>
      obtain ⟨s2, os'⟩ := q
      simp [h3] at h
      rw [← h.2]
      exact hcons s s1 s2 ev o evs os' (hok ev (by simp)) (h2 x) h3
        (ih s1 s2 os' (fun e he => hok e (by simp [he])) h3)

theorem arun_ok (r : Nonces) : ∀ evs s, (∀ ev ∈ evs, EvOk ev) → (arun r s evs).isSome := by
  intro evs
  induction evs with
  | nil => intro s _; rfl
  | cons ev evs ih =>
    intro s hok
    obtain ⟨s1, o, h1, h2⟩ := astep_ok r s ev (hok ev (by simp))
    have := ih s1 (fun e he => hok e (by simp [he]))
    obtain ⟨⟨s2, os⟩, h3⟩ := Option.isSome_iff_exists.1 this
    simp [arun, h1, h3]

theorem arun_inv (r : Nonces) (x : Bytes) (I : NAuth → Prop)
    (hs : ∀ s s' ev o, EvOk ev → AStep r s x s' ev o → I (s.ent x) → I (s'.ent x)) :
    ∀ evs s s' os, (∀ ev ∈ evs, EvOk ev) → arun r s evs = some (s', os) → I (s.ent x) → I (s'.ent x) := by
  intro evs
  induction evs with
  | nil =>
    intro s s' os _ h hi
    simp only [arun, Option.some.injEq, Prod.mk.injEq] at h
    rw [← h.1]; exact hi
  | cons ev evs ih =>
    intro s s' os hok h hi
    obtain ⟨s1, o, h1, h2⟩ := astep_ok r s ev (hok ev (by simp))
    simp only [arun, h1, Option.bind_eq_bind, Option.bind_some] at h
    cases h3 : arun r s1 evs with
    | none => simp [h3] at h
    | some q =>
      obtain ⟨s2, os'⟩ := q
      simp [h3] at h
      rw [← h.1]
      exact ih s1 s2 os' (fun e he => hok e (by simp [he])) h3 (hs s s1 ev o (hok ev (by simp)) (h2 x) hi)

theorem astep_wf {r : Nonces} {s s' : AState} {x : Bytes} {ev : AEv} {o : Effect} (hev : EvOk ev)
    (h : AStep r s x s' ev o) (hw : (s.ent x).Wf) : (s'.ent x).Wf := by
  cases h with
  | other _ h => rw [h]; exact hw
  | flush h => rw [h]; exact wf_fresh
  | plain _ h => rw [h]; exact hw
  | @signed c p o k ts hx hk hl hp hs hts hj hi =>
    have := congrArg Prod.fst hj
    simp only at this
    rw [this]
    exact judged_wf _ _ _ _ _ _ hw hp.2.2.1

theorem arun_wf {r : Nonces} {x : Bytes} {evs : List AEv} {s s' : AState} {os : List Effect} (hok : ∀ ev ∈ evs, EvOk ev)
    (h : arun r s evs = some (s', os)) (hw : (s.ent x).Wf) : (s'.ent x).Wf :=
  arun_inv r x NAuth.Wf (fun _ _ _ _ hev hst hw => astep_wf hev hst hw) evs s s' os hok h hw

/-- The packet with counter `pc` and index `ix` cannot be accepted on account of its counter. -/
def NAuth.Blocked (a : NAuth) (mc : Bool) (pc ix : Bytes) : Prop := a.index = some ix → value pc ≤ value (a.last mc)

/-- Strict form: the index, if any, is `ix`. -/
def NAuth.Past (a : NAuth) (mc : Bool) (pc ix : Bytes) : Prop :=
  ∀ ix', a.index = some ix' → ix' = ix ∧ value pc ≤ value (a.last mc)

theorem not_memcmpLe {a b : Bytes} (h : a.length = b.length) : memcmpLe a b = false ↔ value b < value a := by
  have := memcmpLe_value a b h
  cases hm : memcmpLe a b <;> simp [hm] at this ⊢ <;> omega

theorem last_answered (a : NAuth) (d rl ix : _) (pc : Bytes) (mc : Bool) :
    ({ a with deadline := d, index := ix, pcM := pc, pcU := pc, replyLimit := rl } : NAuth).last mc = pc := by
  cases mc <;> rfl

/-- The effect of a step on the counters. -/
theorem astep_counter {r : Nonces} {s s' : AState} {x : Bytes} {ev : AEv} {o : Effect} (hev : EvOk ev)
    (h : AStep r s x s' ev o) (hw : (s.ent x).Wf) :
    (s'.ent x = {} ∧ ev = .flush x ∧ authentic o = false) ∨
    ((s'.ent x).index = (s.ent x).index ∧ (∀ mc, (s'.ent x).last mc = (s.ent x).last mc) ∧
      (about x ev = true → authentic o = false)) ∨
    ∃ c p ts pc ix, ev = .packet c p ∧ p.env.sender = x ∧ TlvsOf p.bytes ts ∧
      counter (multicast p.dst) ts = some (pc, ix) ∧ (s'.ent x).index = some ix ∧
      (s'.ent x).last (multicast p.dst) = pc ∧
      ((o.verdict = .answered ∧ ∀ mc, (s'.ent x).last mc = pc) ∨
       (o.verdict = .newer ∧ (s.ent x).index = some ix ∧ value ((s.ent x).last (multicast p.dst)) < value pc ∧
        ∀ mc, mc ≠ multicast p.dst → (s'.ent x).last mc = (s.ent x).last mc)) := by
  cases h with
  | other h0 h => exact .inr (.inl ⟨by rw [h], fun _ => by rw [h], by simp [h0]⟩)
  | flush h => exact .inl ⟨h, rfl, rfl⟩
  | plain _ h _ _ hv => 
    refine .inr (.inl ⟨by rw [h], fun _ => by rw [h], fun _ => ?_⟩)
    rcases hv with hv | hv <;> simp [authentic, hv]
  | @signed c p o k ts hx hk hl hp hs hts hj hi =>
    have hla : ∀ (a : NAuth) n d q rl (mc : Bool),
        ({ a with nonce := n, deadline := d, requestLimit := q, replyLimit := rl } : NAuth).last mc = a.last mc := by
      intro a n d q rl mc; cases mc <;> rfl
    obtain ⟨rl, out, -, ⟨-, e⟩ | ⟨pc, ix, hc, ⟨-, e⟩ | ⟨-, ⟨-, -, e⟩ | ⟨-, -, -, e⟩ | ⟨-, -, -, e⟩ | ⟨-, -, e⟩ |
      ⟨hix, hm, e⟩⟩⟩⟩ := judged_cases r (multicast p.dst) p.now s.draws (s.ent x) ts <;>
      rw [e] at hj <;> simp only [Prod.mk.injEq] at hj <;> obtain ⟨j1, j2, j3, j4⟩ := hj
    · refine .inr (.inl ⟨?_, fun mc => ?_, fun _ => by simp [authentic, j3]⟩) <;> rw [j1]
      · split <;> rfl
      · split
        · cases mc <;> rfl
        · cases mc <;> rfl
    · refine .inr (.inr ⟨c, p, ts, pc, ix, rfl, hx, hts, hc, by rw [j1], by rw [j1, last_answered], .inl ⟨j3, fun mc => by rw [j1, last_answered]⟩⟩)
    · refine .inr (.inl ⟨by rw [j1], fun mc => by rw [j1]; cases mc <;> rfl, fun _ => by simp [authentic, j3]⟩)
    · refine .inr (.inl ⟨by rw [j1], fun mc => by rw [j1]; cases mc <;> rfl, fun _ => by simp [authentic, j3]⟩)
    · refine .inr (.inl ⟨by rw [j1], fun mc => by rw [j1]; cases mc <;> rfl, fun _ => by simp [authentic, j3]⟩)
    · refine .inr (.inl ⟨by rw [j1], fun mc => by rw [j1]; cases mc <;> rfl, fun _ => by simp [authentic, j3]⟩)
    · rw [not_memcmpLe (by rw [(counter_len hc).1, hw.last])] at hm
      refine .inr (.inr ⟨c, p, ts, pc, ix, rfl, hx, hts, hc, ?_, ?_, .inr ⟨j3, hix, hm, ?_⟩⟩)
      · rw [j1]; cases multicast p.dst <;> exact hix
      · rw [j1]; cases multicast p.dst <;> rfl
      · intro mc hmc
        rw [j1]
        cases hd : multicast p.dst <;> cases mc <;> first | rfl | (rw [hd] at hmc; exact absurd rfl hmc)

end Babel
