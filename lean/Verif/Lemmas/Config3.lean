import Verif.Lemmas.Config2
/-
The meaning of a filter.
-/
set_option linter.unusedSimpArgs false
set_option linter.unusedVariables false
namespace Babel
open Spec

theorem ite_false_iff {c : Prop} [Decidable c] {b : Bool} :
    (if c then false else b) = true ↔ ¬ c ∧ b = true := by
  by_cases h : c <;> simp [h]

theorem v4mapped_sameBits {a : Bytes} (h : a.length = 16) :
    v4mapped a = true ↔ SameBits 96 a (mapped [0, 0, 0, 0]) := by
  rw [sameBits_iff]
  unfold v4mapped mapped v4prefix
  rw [beq_iff_eq]
  constructor
  · intro e
    refine ⟨fun i hi => ?_, by simp⟩
    have hi : i < 12 := hi
    have h1 : (a.take 12).getD i 0 = a.getD i 0 := by
      simp only [List.getD_eq_getElem?_getD, List.getElem?_take, if_pos hi]
    rw [← h1, e]
    have : i = 0 ∨ i = 1 ∨ i = 2 ∨ i = 3 ∨ i = 4 ∨ i = 5 ∨ i = 6 ∨ i = 7 ∨ i = 8 ∨ i = 9 ∨ i = 10 ∨ i = 11 := by omega
    rcases this with rfl | rfl | rfl | rfl | rfl | rfl | rfl | rfl | rfl | rfl | rfl | rfl <;> rfl
  · rintro ⟨h1, -⟩
    match a, h with
    | [a0, a1, a2, a3, a4, a5, a6, a7, a8, a9, a10, a11, a12, a13, a14, a15], _ =>
      have e0 := h1 0 (by decide); have e1 := h1 1 (by decide); have e2 := h1 2 (by decide)
      have e3 := h1 3 (by decide); have e4 := h1 4 (by decide); have e5 := h1 5 (by decide)
      have e6 := h1 6 (by decide); have e7 := h1 7 (by decide); have e8 := h1 8 (by decide)
      have e9 := h1 9 (by decide); have e10 := h1 10 (by decide); have e11 := h1 11 (by decide)
      simp at e0 e1 e2 e3 e4 e5 e6 e7 e8 e9 e10 e11
      simp [*]

/-- The filter a rule compiles to. -/
def ruleFilter (L : Libc) (r : List FClause) : Filter :=
  finishFilter { r.foldl (FClause.put L) {} with af := r.findSome? FClause.af }

theorem parseFilter_text {L : Libc} (hL : LibcOk L) {r : List FClause} {t e rest : Bytes}
    (h : Clauses (FText L) r t) (he : Ends e rest) (ha : Agree r) :
    parseFilter L (t ++ (e ++ rest)) = .ok (ruleFilter L r, rest) := by
  unfold parseFilter
  rw [filterLoop_text hL h he _ _ (by simp; omega), steps_ok r {} ha (by simp)]
  rfl

theorem parseFilter_bad {L : Libc} (hL : LibcOk L) {r : List FClause} {t e rest : Bytes}
    (h : Clauses (FText L) r t) (he : Ends e rest) (ha : ¬ Agree r) :
    parseFilter L (t ++ (e ++ rest)) = .error .bad := by
  unfold parseFilter
  rw [filterLoop_text hL h he _ _ (by simp; omega), steps_bad r {} (.inl ha)]
  rfl

theorem finishFilter_frame (f : Filter) : (finishFilter f).dst = f.dst ∧ (finishFilter f).src = f.src ∧
    (finishFilter f).neigh = f.neigh ∧ (finishFilter f).id = f.id ∧ (finishFilter f).proto = f.proto ∧
    (finishFilter f).ifname = f.ifname ∧ (finishFilter f).ifindex = f.ifindex ∧
    (finishFilter f).action = f.action := by
  unfold finishFilter
  split
  · split <;> simp
  · simp
  · simp

section
variable {L : Libc} (r : List FClause)

theorem rule_dst : (ruleFilter L r).dst = lastOf FClause.dst? r := by
  unfold ruleFilter
  rw [(finishFilter_frame _).1]
  show (r.foldl (FClause.put L) {}).dst = _
  rw [foldl_last' (FClause.put L) (·.dst) FClause.dst? (by intro f c; cases c <;> rfl)]
  simp

theorem rule_src : (ruleFilter L r).src = lastOf FClause.src? r := by
  unfold ruleFilter
  rw [(finishFilter_frame _).2.1]
  show (r.foldl (FClause.put L) {}).src = _
  rw [foldl_last' (FClause.put L) (·.src) FClause.src? (by intro f c; cases c <;> rfl)]
  simp

theorem rule_neigh : (ruleFilter L r).neigh = lastOf FClause.neigh? r := by
  unfold ruleFilter
  rw [(finishFilter_frame _).2.2.1]
  show (r.foldl (FClause.put L) {}).neigh = _
  rw [foldl_last' (FClause.put L) (·.neigh) FClause.neigh? (by intro f c; cases c <;> rfl)]
  simp

theorem rule_id : (ruleFilter L r).id = lastOf FClause.id? r := by
  unfold ruleFilter
  rw [(finishFilter_frame _).2.2.2.1]
  show (r.foldl (FClause.put L) {}).id = _
  rw [foldl_last' (FClause.put L) (·.id) FClause.id? (by intro f c; cases c <;> rfl)]
  simp

theorem rule_proto : (ruleFilter L r).proto =
    (lastOf FClause.proto? r).getD 0 := by
  unfold ruleFilter
  rw [(finishFilter_frame _).2.2.2.2.1]
  show (r.foldl (FClause.put L) {}).proto = _
  rw [foldl_last (FClause.put L) (·.proto) FClause.proto?
    (by intro f c; cases c <;> rfl)]

theorem rule_ifname : (ruleFilter L r).ifname = lastOf FClause.ifname? r := by
  unfold ruleFilter
  rw [(finishFilter_frame _).2.2.2.2.2.1]
  show (r.foldl (FClause.put L) {}).ifname = _
  rw [foldl_last' (FClause.put L) (·.ifname) FClause.ifname? (by intro f c; cases c <;> rfl)]
  simp

theorem rule_ifindex (s : Bytes) (h : (ruleFilter L r).ifname = some s) : (ruleFilter L r).ifindex = L.ifindex s := by
  have key : ∀ (l : List FClause) (f : Filter), (∀ s, f.ifname = some s → f.ifindex = L.ifindex s) →
      ∀ s, (l.foldl (FClause.put L) f).ifname = some s → (l.foldl (FClause.put L) f).ifindex = L.ifindex s := by
    intro l
    induction l with
    | nil => intro f h; exact h
    | cons c l ih =>
      intro f hf
      rw [List.foldl_cons]
      apply ih
      cases c <;> try exact hf
      intro s hs
      simp only [FClause.put, Option.some.injEq] at hs ⊢
      rw [hs]
  unfold ruleFilter at h ⊢
  rw [(finishFilter_frame _).2.2.2.2.2.1] at h
  rw [(finishFilter_frame _).2.2.2.2.2.2.1]
  exact key r {} (by simp) s h

theorem rule_action : (ruleFilter L r).action = ruleAction r := by
  unfold ruleFilter
  rw [(finishFilter_frame _).2.2.2.2.2.2.2]
  show (r.foldl (FClause.put L) {}).action = _
  have e1 := foldl_last (FClause.put L) (·.action.addMetric)
    FClause.metric?
    (by intro f c; cases c <;> rfl) r {}
  have e2 := foldl_last' (FClause.put L) (·.action.src) FClause.newSrc?
    (by intro f c; cases c <;> rfl) r {}
  have e3 := foldl_last (FClause.put L) (·.action.table) FClause.table?
    (by intro f c; cases c <;> rfl) r {}
  have e4 := foldl_last' (FClause.put L) (·.action.prefSrc) FClause.prefSrc?
    (by intro f c; cases c <;> rfl) r {}
  generalize (r.foldl (FClause.put L) {}).action = a at *
  cases a
  simp only at e1 e2 e3 e4
  unfold ruleAction
  rw [e1, e2, e3, e4]
  simp

/-- Some condition on a length is not trivial. -/
theorem any_length_iff {f : Filter} {B : Nat} (hb : Bounds B f r {}) :
    r.any FClause.limits = true ↔ f.plenLe < 128 ∨ f.plenGe > 0 ∨ f.srcLe < 128 ∨ f.srcGe > 0 := by
  have h1 := hb.ge 0
  have h2 := hb.le 128
  have h3 := hb.sge 0
  have h4 := hb.sle 128
  constructor
  · intro h
    rw [List.any_eq_true] at h
    obtain ⟨c, hc, h⟩ := h
    refine Classical.byContradiction fun hn => ?_
    simp only [not_or, Nat.not_lt] at hn
    have g1 := h1.1 hn.2.1
    have g2 := h2.1 hn.1
    have g3 := h3.1 hn.2.2.2
    have g4 := h4.1 hn.2.2.1
    cases c <;> simp [FClause.limits] at h
    · have := g1.2.2 _ hc; have := g2.2.2 _ hc; omega
    · have := g2.2.1 _ hc; omega
    · have := g1.2.1 _ hc; omega
    · have := g3.2.2 _ hc; have := g4.2.2 _ hc; omega
    · have := g4.2.1 _ hc; omega
    · have := g3.2.1 _ hc; omega
  · intro h
    refine Classical.byContradiction fun hn => ?_
    rw [List.any_eq_true] at hn
    have key : ∀ c ∈ r, ¬ (c.limits = true) := fun c hc h => hn ⟨c, hc, h⟩
    have g1 := h1.2 ⟨Nat.le_refl 0, fun n hm => by have := key _ hm; simp [FClause.limits] at this; omega,
      fun n hm => by have := key _ hm; simp [FClause.limits] at this⟩
    have g2 := h2.2 ⟨Nat.le_refl 128, fun n hm => by have := key _ hm; simp [FClause.limits] at this; omega,
      fun n hm => by have := key _ hm; simp [FClause.limits] at this⟩
    have g3 := h3.2 ⟨Nat.le_refl 0, fun n hm => by have := key _ hm; simp [FClause.limits] at this; omega,
      fun n hm => by have := key _ hm; simp [FClause.limits] at this⟩
    have g4 := h4.2 ⟨Nat.le_refl 128, fun n hm => by have := key _ hm; simp [FClause.limits] at this; omega,
      fun n hm => by have := key _ hm; simp [FClause.limits] at this⟩
    omega

theorem v4_lengths {a b x : Nat} (ha : a ≤ 32) (hb : b ≤ 32 ∨ b = 128) (hx : x ≤ 128) :
    (((if a > 0 then uchar (a + 96) else a) > 0 ∨ (if b < 128 then uchar (b + 96) else b) < 128) ∧
      (x > (if b < 128 then uchar (b + 96) else b) ∨ x < (if a > 0 then uchar (a + 96) else a))) ↔
    ¬ (a ≤ x - 96 ∧ x - 96 ≤ b) := by
  have e1 : uchar ((a : Int) + 96) = a + 96 := by unfold uchar; omega
  by_cases h2 : b < 128
  · have e2 : uchar ((b : Int) + 96) = b + 96 := by unfold uchar; omega
    rw [if_pos h2, e1, e2]
    by_cases h1 : a > 0
    · rw [if_pos h1]; omega
    · rw [if_neg h1]; omega
  · rw [if_neg h2, e1]
    by_cases h1 : a > 0
    · rw [if_pos h1]; omega
    · rw [if_neg h1]; omega

/-- Family and lengths of a rule. -/
theorem rule_lengths (hr : InRange r) :
    (ruleFilter L r).af = ruleFamily r ∧
    (∀ x, x ≤ 128 → ((((ruleFilter L r).plenGe > 0 ∨ (ruleFilter L r).plenLe < 128) ∧
        (x > (ruleFilter L r).plenLe ∨ x < (ruleFilter L r).plenGe)) ↔
      ¬ ((r.foldl (FClause.put L) {}).plenGe ≤ written (ruleFamily r) x ∧
        written (ruleFamily r) x ≤ (r.foldl (FClause.put L) {}).plenLe))) ∧
    (∀ x, x ≤ 128 → ((((ruleFilter L r).srcGe > 0 ∨ (ruleFilter L r).srcLe < 128) ∧
        (x > (ruleFilter L r).srcLe ∨ x < (ruleFilter L r).srcGe)) ↔
      ¬ ((r.foldl (FClause.put L) {}).srcGe ≤ written (ruleFamily r) x ∧
        written (ruleFamily r) x ≤ (r.foldl (FClause.put L) {}).srcLe))) := by
  have hb : Bounds (if ruleFamily r = some .v4 then 32 else 128) (r.foldl (FClause.put L) {}) r {} :=
    bounds_foldl (by split <;> omega) r {} hr (Nat.zero_le _) (.inr rfl) (Nat.zero_le _) (.inr rfl)
  have hany := any_length_iff r hb
  have h1 := hb.geB
  have h2 := hb.leB
  have h3 := hb.sgeB
  have h4 := hb.sleB
  unfold ruleFilter finishFilter ruleFamily written at *
  generalize r.foldl (FClause.put L) {} = F at *
  rcases hf : r.findSome? FClause.af with _ | a
  · simp only [hf] at *
    by_cases hc : F.plenLe < 128 ∨ F.plenGe > 0 ∨ F.srcLe < 128 ∨ F.srcGe > 0
    · rw [if_pos hc]
      rw [if_pos (hany.2 hc)] at *
      simp only [Option.some.injEq, reduceCtorEq, if_false] at *
      refine ⟨trivial, fun x hx => ?_, fun x hx => ?_⟩ <;> omega
    · rw [if_neg hc]
      have : ¬ (r.any _ = true) := fun h => hc (hany.1 h)
      rw [if_neg this] at *
      simp only [reduceCtorEq, if_false] at *
      refine ⟨trivial, fun x hx => ?_, fun x hx => ?_⟩ <;> omega
  · simp only [hf] at *
    cases a
    · simp only [if_true] at *
      exact ⟨trivial, fun x hx => v4_lengths h1 h2 hx, fun x hx => v4_lengths h3 h4 hx⟩
    · simp only [Option.some.injEq, reduceCtorEq, if_false] at *
      refine ⟨trivial, fun x hx => ?_, fun x hx => ?_⟩ <;> omega

theorem rule_matches (hL : LibcOk L) (hr : InRange r) (q : FArgs) (hq : ArgsOk q)
    (hip : ∀ p n, lastOf FClause.dst? r = some (p, n) → p.length = 16 ∧ n ≤ 128)
    (hsip : ∀ p n, lastOf FClause.src? r = some (p, n) → p.length = 16 ∧ n ≤ 128) :
    filterMatch (ruleFilter L r) q = true ↔ Matches L r q := by
  obtain ⟨hq1, hq2, hq3, hq4⟩ := hq
  obtain ⟨haf, hpl, hspl⟩ := rule_lengths (L := L) r hr
  have hb : Bounds (if ruleFamily r = some .v4 then 32 else 128) (r.foldl (FClause.put L) {}) r {} :=
    bounds_foldl (by split <;> omega) r {} hr (Nat.zero_le _) (.inr rfl) (Nat.zero_le _) (.inr rfl)
  unfold filterMatch
  simp only [ite_false_iff]
  rw [hpl _ hq3, hspl _ hq4, haf, rule_dst, rule_src, rule_neigh, rule_id, rule_proto]
  have hifx := rule_ifindex (L := L) r
  rw [rule_ifname] at *
  have hle := hb.le (written (ruleFamily r) q.plen)
  have hge := hb.ge (written (ruleFamily r) q.plen)
  have hsle := hb.sle (written (ruleFamily r) q.srcPlen)
  have hsge := hb.sge (written (ruleFamily r) q.srcPlen)
  have hwl : written (ruleFamily r) q.plen ≤ 128 := by unfold written; split <;> omega
  have hws : written (ruleFamily r) q.srcPlen ≤ 128 := by unfold written; split <;> omega
  constructor
  · rintro ⟨a1, a2, a3, a4, a5, a6, a7, a8, a9⟩
    have a5 := Classical.not_not.1 a5
    have a6 := Classical.not_not.1 a6
    have b1 := hge.1 a5.1
    have b2 := hle.1 a5.2
    have b3 := hsge.1 a6.1
    have b4 := hsle.1 a6.2
    refine ⟨?_, ?_, ?_, ?_, b2.2.1, b1.2.1, ?_, b4.2.1, b3.2.1, ?_, ?_, ?_, ?_⟩
    · intro a ha
      rw [ha] at a1
      have hm := v4mapped_sameBits hq1
      unfold IsV4
      rw [← hm]
      by_cases hc : q.plen ≥ 96 ∧ v4mapped q.dst = true
      · rw [if_pos hc] at a1
        cases a <;> simp_all
      · rw [if_neg hc] at a1
        cases a <;> simp_all
    · intro p n h
      rw [h] at a3
      obtain ⟨g1, g2⟩ := hip p n h
      simp only [Bool.or_eq_true, decide_eq_true_eq, Bool.not_eq_true', not_or, Bool.not_eq_false] at a3
      exact ⟨by omega, (C04_in_prefix_iff _ _ _ hq1 g1 g2).1 a3.2⟩
    · intro p n h
      rw [h] at a4
      obtain ⟨g1, g2⟩ := hsip p n h
      simp only [Bool.or_eq_true, decide_eq_true_eq, Bool.not_eq_true', not_or, Bool.not_eq_false] at a4
      exact ⟨by omega, (C04_in_prefix_iff _ _ _ hq2 g1 g2).1 a4.2⟩
    · intro n hn; have := b1.2.2 n hn; have := b2.2.2 n hn; omega
    · intro n hn; have := b3.2.2 n hn; have := b4.2.2 n hn; omega
    · intro a ha; rw [ha] at a7; simpa using a7
    · intro a ha; rw [ha] at a2; simpa using a2
    · intro s hs
      have := hifx s hs
      rw [hs, this] at a8
      simp only [ne_eq, reduceCtorEq, not_false_eq_true, true_and, not_or, Classical.not_not] at a8
      exact ⟨a8.1, a8.2.2.symm⟩
    · split
      · rename_i h
        rw [h] at a9
        simp only [ne_eq, not_true_eq_false, if_false, ite_false_iff] at a9
        exact ⟨a9.1, a9.2.1⟩
      · rename_i h
        rw [if_pos h] at a9
        simp at a9
        exact a9.2.symm
  · rintro ⟨a1, a2, a3, a4, a5, a6, a7, a8, a9, a10, a11, a12, a13⟩
    refine ⟨?_, ?_, ?_, ?_, ?_, ?_, ?_, ?_, ?_⟩
    · rintro ⟨hn, hx⟩
      rcases ha : ruleFamily r with _ | a
      · exact hn ha
      · have a1 := a1 a ha
        unfold IsV4 at a1
        rw [← v4mapped_sameBits hq1] at a1
        by_cases hc : q.plen ≥ 96 ∧ v4mapped q.dst = true
        · rw [if_pos hc] at hx
          cases a <;> simp_all
        · rw [if_neg hc] at hx
          cases a <;> simp_all
    · rintro ⟨hn, hx⟩
      rcases ha : lastOf FClause.id? r with _ | a
      · exact hn ha
      · exact hx (by rw [ha]; exact a11 a ha)
    · split
      · rename_i p n h
        obtain ⟨g1, g2⟩ := hip p n h
        obtain ⟨g3, g4⟩ := a2 p n h
        have := (C04_in_prefix_iff _ _ _ hq1 g1 g2).2 g4
        simp only [this, Bool.not_true, Bool.or_false, decide_eq_true_eq]
        omega
      · simp
    · split
      · rename_i p n h
        obtain ⟨g1, g2⟩ := hsip p n h
        obtain ⟨g3, g4⟩ := a3 p n h
        have := (C04_in_prefix_iff _ _ _ hq2 g1 g2).2 g4
        simp only [this, Bool.not_true, Bool.or_false, decide_eq_true_eq]
        omega
      · simp
    · exact Classical.not_not.2 ⟨hge.2 ⟨Nat.zero_le _, a6, fun n hn => by rw [a4 n hn]; omega⟩,
        hle.2 ⟨hwl, a5, fun n hn => by rw [a4 n hn]; omega⟩⟩
    · exact Classical.not_not.2 ⟨hsge.2 ⟨Nat.zero_le _, a9, fun n hn => by rw [a7 n hn]; omega⟩,
        hsle.2 ⟨hws, a8, fun n hn => by rw [a7 n hn]; omega⟩⟩
    · rintro ⟨hn, hx⟩
      rcases ha : lastOf FClause.neigh? r with _ | a
      · exact hn ha
      · exact hx (by rw [ha]; exact a10 a ha)
    · rintro ⟨hn, hx⟩
      rcases ha : lastOf FClause.ifname? r with _ | s
      · exact hn ha
      · obtain ⟨g1, g2⟩ := a12 s ha
        have := hifx s ha
        rw [this] at hx
        rcases hx with hx | hx | hx
        · exact g1 hx
        · rw [g2] at hx; exact g1 hx
        · exact hx g2.symm
    · split at a13
      · rename_i h
        rw [h]
        simp only [ne_eq, not_true_eq_false, if_false, ite_false_iff]
        exact ⟨a13.1, a13.2, trivial⟩
      · rename_i h
        rw [if_pos h, a13]
        simp
        exact h

end

end Babel
