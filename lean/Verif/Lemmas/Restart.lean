import Verif.Spec.Restart
import Verif.Lemmas.Config2
import Verif.Props.Selected
set_option linter.unusedSimpArgs false
set_option linter.unusedVariables false
namespace Babel
open Spec

/-! ### The state file -/

theorem digitOf_dec (d : Nat) (h : d < 10) : digitOf 10 (UInt8.ofNat (48 + d)) = some d := by
  have : (UInt8.ofNat (48 + d)).toNat = 48 + d := by simp; omega
  unfold digitOf
  simp only [this]
  rw [if_pos (by omega)]
  simp [h]

theorem digitsOf_dec (fuel : Nat) : ∀ (m v n : Nat) (rest : Bytes), m < 10 ^ fuel →
    ∃ len, (0 < fuel → 0 < len) ∧ digitsOf 10 v n (decDigits fuel m ++ rest) = digitsOf 10 (v * 10 ^ len + m) (n + len) rest := by
  induction fuel with
  | zero =>
    intro m v n rest h
    have : m = 0 := by simpa using h
    subst this
    exact ⟨0, by simp, by simp [decDigits]⟩
  | succ fuel ih =>
    intro m v n rest h
    unfold decDigits
    by_cases hm : m < 10
    · rw [if_pos hm]
      refine ⟨1, by simp, ?_⟩
      simp only [List.cons_append, List.nil_append, digitsOf, digitOf_dec m hm]
      try simp
    · rw [if_neg hm]
      obtain ⟨len, h1, h2⟩ := ih (m / 10) v n (UInt8.ofNat (48 + m % 10) :: rest) (by rw [Nat.pow_succ] at h; omega)
      refine ⟨len + 1, by omega, ?_⟩
      rw [List.append_assoc, List.singleton_append, h2, digitsOf, digitOf_dec _ (by omega)]
      simp only
      rw [Nat.pow_succ, Nat.add_mul, Nat.add_assoc (v * 10 ^ len * 10), Nat.mul_assoc]
      congr 1
      omega

theorem decDigits_mem (fuel : Nat) : ∀ m, ∀ c ∈ decDigits fuel m, 48 ≤ c.toNat ∧ c.toNat ≤ 57 := by
  induction fuel with
  | zero => intro m c h; simp [decDigits] at h
  | succ fuel ih =>
    intro m c h
    unfold decDigits at h
    split at h
    · simp only [List.mem_singleton] at h; subst h; simp; omega
    · simp only [List.mem_append, List.mem_singleton] at h
      rcases h with h | rfl
      · exact ih _ c h
      · simp; omega

theorem decDigits_length (fuel : Nat) : ∀ k m, m < 10 ^ k → 0 < k → (decDigits fuel m).length ≤ k := by
  induction fuel with
  | zero => intro k m _ _; simp [decDigits]
  | succ fuel ih =>
    intro k m h hk
    unfold decDigits
    split
    · simp only [List.length_singleton]; omega
    · next hm =>
      obtain ⟨j, rfl⟩ : ∃ j, k = j + 1 := ⟨k - 1, by omega⟩
      rw [Nat.pow_succ] at h
      have hj : 0 < j := by
        rcases j with _ | j
        · simp at h; omega
        · omega
      have := ih j (m / 10) (by omega) hj
      simp only [List.length_append, List.length_singleton]
      omega

theorem digits_head {l : Bytes} (h : ∀ c ∈ l, 48 ≤ c.toNat ∧ c.toNat ≤ 57) (hn : l ≠ []) (rest : Bytes) :
    (l ++ rest).dropWhile isSpaceC = l ++ rest ∧ signOf (l ++ rest) = (false, l ++ rest) := by
  rcases l with _ | ⟨c, l⟩
  · exact absurd rfl hn
  · have hc := h c (by simp)
    have h1 : isSpaceC c = false := by
      unfold isSpaceC
      simp only [Bool.or_eq_false_iff, beq_eq_false_iff_ne, ne_eq, Bool.and_eq_false_iff, decide_eq_false_iff_not, UInt8.le_iff_toNat_le]
      refine ⟨fun e => by subst e; revert hc; decide, .inr (by
        have : (13 : UInt8).toNat = 13 := rfl
        omega)⟩
    refine ⟨by simp [h1], ?_⟩
    have h2 : c ≠ 43 := fun e => by subst e; revert hc; decide
    have h3 : c ≠ 45 := fun e => by subst e; revert hc; decide
    simp only [List.cons_append]
    unfold signOf
    split
    · next e => simp only [List.cons.injEq] at e; exact absurd e.1 h2
    · next e => simp only [List.cons.injEq] at e; exact absurd e.1 h3
    · rfl

theorem cstr_digits {l : Bytes} (h : ∀ c ∈ l, 48 ≤ c.toNat ∧ c.toNat ≤ 57) : cstr (l ++ [10]) = l ++ [10] := by
  unfold cstr
  have : ∀ c ∈ l ++ [10], c ≠ 0 := by
    intro c hc
    simp only [List.mem_append, List.mem_singleton] at hc
    rcases hc with hc | rfl
    · intro e; have := h c hc; subst e; revert this; decide
    · decide
  generalize l ++ [10] = l at this
  induction l with
  | nil => rfl
  | cons c l ih =>
    rw [List.takeWhile_cons, if_pos (by simpa using this c (by simp)), ih (fun x hx => this x (by simp [hx]))]

theorem scan_saved (q : Nat) (h : q < 65536) : scanInt (decDigits 10 q ++ [10]) = some (q : Int) := by
  obtain ⟨len, h1, h2⟩ := digitsOf_dec 10 q 0 0 [10] (by omega)
  have hm := decDigits_mem 10 q
  have hne : decDigits 10 q ≠ [] := by
    unfold decDigits; split <;> simp
  obtain ⟨e1, e2⟩ := digits_head hm hne [10]
  unfold scanInt
  rw [cstr_digits hm, e1, e2]
  simp only
  rw [h2]
  have e3 : digitsOf 10 (0 * 10 ^ len + q) (0 + len) [10] = (q, len, [10]) := by
    have : digitOf 10 10 = none := by decide
    simp [digitsOf, this]
  rw [e3]
  simp only [if_neg (show ¬ len = 0 by have := h1 (by omega); omega), Bool.false_eq_true, if_false, Option.some.injEq]
  unfold longToInt toInt32
  rw [show min (q : Int) 9223372036854775807 = q by omega]
  have : ((q : Int) % 4294967296).toNat = q := by omega
  rw [this]
  rw [if_pos (by omega)]

theorem restart_seqno (random : Nat) (q : UInt16) :
    startSeqno random (saveState true true q) true true = q + 1 := by
  have hq := q.toNat_lt
  have hl := decDigits_length 10 5 q.toNat (by omega) (by omega)
  unfold saveState
  simp only [Bool.not_true, Bool.false_eq_true, if_false, if_true, List.length_append, List.length_singleton]
  rw [if_neg (by omega)]
  unfold startSeqno
  simp only [Bool.not_true, Bool.false_eq_true, if_false]
  rw [List.take_of_length_le (by simp; omega), scan_saved _ hq]
  simp only
  rw [if_pos (by omega)]
  unfold seqnoPlus
  apply UInt16.toNat_inj.1
  simp [UInt16.toNat_add]
  omega

/-! ### Sequence numbers of own announcements -/

/-- The router's sequence number is `base + n`, and its announcements carry `base`, …, `base + n`. -/
def OwnSeq (c : Cfg) (base : UInt16) (n : Nat) (s : St) : Prop :=
  s.myseqno = base + UInt16.ofNat n ∧
  ∀ i k q m, Out.update i c.myid k q m ∈ s.out → ∃ j ≤ n, q = base + UInt16.ofNat j

theorem Ms.own {c : Cfg} {A : Allow} {s s' : St} {ex ex' : List SKey} (h : Ms c A s ex s' ex') (hl : Inv c s ex)
    (hA : ¬ A.bump) {base : UInt16} {n : Nat} (ho : OwnSeq c base n s) : OwnSeq c base n s' := by
  refine ⟨((h.others hl).1 hA).trans ho.1, fun i k q m hm => ?_⟩
  rcases h.news hl hm rfl rfl with h1 | ⟨t, e, t', h1, h2, h3, h4, h5, h6⟩
  · exact ho.2 i k q m h1
  · have hq : t.myseqno = s.myseqno := (h1.others hl).1 hA
    rcases h3.news h4 rfl with h7 | ⟨i', x, _, _, _, h7⟩ | ⟨i', x, _, _, _, h7⟩ | ⟨i', r, hr, _, _, _, h7, _⟩
    · exact absurd h7 h5
    · simp only [Out.update.injEq] at h7
      exact ⟨n, Nat.le_refl n, by rw [h7.2.2.2.1, hq, ho.1]⟩
    · simp only [Out.update.injEq] at h7
      exact ⟨n, Nat.le_refl n, by rw [h7.2.2.2.1, hq, ho.1]⟩
    · simp only [Out.update.injEq] at h7
      exact absurd h7.2.1.symm (h2.lst.ok r (findInstalled_mem hr).1).1

theorem step_own {c : Cfg} {s : St} (h : Reachable c s) (ev : Ev) {base : UInt16} {n : Nat} (ho : OwnSeq c base n s) :
    OwnSeq c base (n + if (step c s ev).myseqno = s.myseqno then 0 else 1) (step c s ev) := by
  by_cases hb : (allowEv ev).bump
  · cases ev with
    | seqnoRequest nb k hop q id =>
      cases hp : preferredXroute c s k with
      | none =>
        have hm := handleRequest_quiet c s nb k hop q id hp
        have e : (step c s (.seqnoRequest nb k hop q id)).myseqno = s.myseqno := (hm.others h.inv).1 (fun h => h)
        rw [if_pos e]
        exact hm.own h.inv (fun h => h) ho
      | some x =>
        have est : step c s (.seqnoRequest nb k hop q id) = answerOwn c s nb k hop q id := by
          show handleRequest c s nb k hop q id = _
          unfold handleRequest
          rw [hp]
        rw [est]
        unfold answerOwn
        split
        · split
          · rw [if_pos rfl]; exact ho
          · next hc hc2 =>
            have e1 : seqnoPlus s.myseqno 1 = s.myseqno + 1 := by
              unfold seqnoPlus
              apply UInt16.toNat_inj.1
              have := s.myseqno.toNat_lt
              simp [UInt16.toNat_add]
              omega
            have hq := qms_sendUpdateIf c { s with myseqno := seqnoPlus s.myseqno 1 } (c.ifOf nb) true k
            have hi : Inv c { s with myseqno := seqnoPlus s.myseqno 1 } [] := ⟨h.inv.lst, h.inv.src, h.inv.xr⟩
            have h0 : OwnSeq c base (n + 1) { s with myseqno := seqnoPlus s.myseqno 1 } := by
              refine ⟨?_, fun i k q m hm => ?_⟩
              · show seqnoPlus s.myseqno 1 = _
                rw [e1, ho.1]
                apply UInt16.toNat_inj.1
                simp [UInt16.toNat_add]
                omega
              · obtain ⟨j, hj, e⟩ := ho.2 i k q m hm
                exact ⟨j, by omega, e⟩
            have h1 := (hq.ms (A := {}) []).own hi (fun h => h) h0
            rw [if_neg]
            · exact h1
            · rw [hq.same.myseqno]
              show ¬ seqnoPlus s.myseqno 1 = s.myseqno
              rw [e1]
              intro e
              have e2 := congrArg UInt16.toNat e
              have := s.myseqno.toNat_lt
              simp [UInt16.toNat_add] at e2
              omega
        · have hq := qms_sendUpdateIf c s (c.ifOf nb) true k
          rw [if_pos hq.same.myseqno]
          exact (hq.ms (A := {}) []).own h.inv (fun h => h) ho
    | _ => exact hb.elim
  · have hm := run_ms c h.inv ev
    rw [if_pos ((hm.others h.inv).1 hb)]
    exact hm.own h.inv hb ho

theorem run_own {c : Cfg} (evs : List Ev) : ∀ {s : St}, Reachable c s → ∀ {base : UInt16} {n : Nat}, OwnSeq c base n s →
    OwnSeq c base (n + bumps c s evs) (run c s evs) := by
  induction evs with
  | nil => intro s _ base n ho; exact ho
  | cons e es ih =>
    intro s h base n ho
    have h1 := ih (h.step e) (step_own h e ho)
    rw [bumps, ← Nat.add_assoc]
    exact h1

theorem life_own (c : Cfg) (q : UInt16) (l : Life) :
    OwnSeq c q (bumps c (St.init l.now q l.ifaces l.ncost l.rand l.kres) l.evs) (l.endState c q) := by
  have := run_own (c := c) l.evs (.init l.now q l.ifaces l.ncost l.rand l.kres) (base := q) (n := 0)
    ⟨by simp [St.init], by simp [St.init]⟩
  unfold Life.endState
  simpa using this

theorem lives_own (c : Cfg) (ls : List Life) : ∀ (q base : UInt16) (n : Nat), q = base + UInt16.ofNat n →
    (lives c q ls).2 = base + UInt16.ofNat (n + livesBumps c q ls) ∧
    ∀ i k x m, Out.update i c.myid k x m ∈ (lives c q ls).1 →
      ∃ j < n + livesBumps c q ls, x = base + UInt16.ofNat j := by
  induction ls with
  | nil => intro q base n h; exact ⟨by simpa [lives, livesBumps] using h, by simp [lives]⟩
  | cons l ls ih =>
    intro q base n h
    have h1 := life_own c q l
    have h2 : startSeqno l.random (saveState true true (l.endState c q).myseqno) true true =
        base + UInt16.ofNat (n + (bumps c (St.init l.now q l.ifaces l.ncost l.rand l.kres) l.evs + 1)) := by
      rw [restart_seqno, h1.1, h]
      apply UInt16.toNat_inj.1
      simp [UInt16.toNat_add]
      omega
    obtain ⟨g1, g2⟩ := ih _ base _ h2
    unfold lives livesBumps
    refine ⟨by rw [g1]; simp only [Nat.add_assoc], fun i k x m hm => ?_⟩
    simp only [List.mem_append] at hm
    rcases hm with hm | hm
    · obtain ⟨j, hj, e⟩ := g2 i k x m hm
      exact ⟨j, by omega, e⟩
    · obtain ⟨j, hj, e⟩ := h1.2 i k x m hm
      refine ⟨n + j, by omega, ?_⟩
      rw [e, h]
      apply UInt16.toNat_inj.1
      simp [UInt16.toNat_add]
      omega

end Babel
