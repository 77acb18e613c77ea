import Verif.Lemmas.Wire3
/-
What the sub-TLV parsers compute.
-/
set_option linter.unusedSimpArgs false
set_option linter.unusedVariables false
namespace Babel
open Spec

/-- The effect of a sequence of sub-TLVs. -/
def foldSub (f : σ → Nat → Bytes → Nat → Option (Option σ)) : List Tlv → σ → Option σ
  | [], s => some s
  | .pad1 :: ss, s => foldSub f ss s
  | .tlv ty b :: ss, s =>
    match (f s ty.toNat b b.length).getD none with
    | none => none
    | some s => foldSub f ss s

theorem subTlvs_fold {f : σ → Nat → Bytes → Nat → Option (Option σ)}
    (hs : ∀ s ty p len, len ≤ p.length → (f s ty p len).isSome)
    (hb : ∀ s ty len {p q : Bytes}, p <+: q → Below (f s ty p len) (f s ty q len))
    (tail rest : Bytes) (ht : Truncated tail) :
    ∀ (ss : List Tlv) (s : σ) (fuel : Nat), (∀ t ∈ ss, t.Ok) → (encAll ss).length < fuel →
      subTlvs f fuel (encAll ss ++ tail ++ rest) ((encAll ss).length + tail.length : Nat) s =
        some (if tail = [] then foldSub f ss s else none) := by
  intro ss
  induction ss with
  | nil =>
    intro s fuel _ hf
    obtain ⟨n, rfl⟩ : ∃ n, fuel = n + 1 := ⟨fuel - 1, by omega⟩
    simp only [encAll, List.flatMap_nil, List.nil_append, List.length_nil, Nat.zero_add]
    unfold subTlvs
    rcases ht with rfl | ⟨ty, h0, rfl⟩ | ⟨ty, len, r, h0, rfl, hl⟩
    · simp [foldSub]
    · have : ty.toNat ≠ 0 := fun h => h0 (UInt8.toNat_inj.1 (by simpa using h))
      simp [this]
    · have h1 : ty.toNat ≠ 0 := fun h => h0 (UInt8.toNat_inj.1 (by simpa using h))
      rw [if_neg (by simp only [List.length_cons]; omega)]
      simp only [List.cons_append, rd_cons_zero, Option.bind_eq_bind, Option.bind_some]
      rw [if_neg h1, if_neg (by simp only [List.length_cons]; omega)]
      simp only [rd_cons_one, Option.bind_some]
      rw [if_pos (by simp only [List.length_cons]; omega), if_neg (by simp)]
      rfl
  | cons t ss ih =>
    intro s fuel hok hf
    obtain ⟨n, rfl⟩ : ∃ n, fuel = n + 1 := ⟨fuel - 1, by omega⟩
    have hok' : ∀ t ∈ ss, t.Ok := fun t h => hok t (List.mem_cons_of_mem _ h)
    have ht' := hok t (List.mem_cons_self ..)
    cases t with
    | pad1 =>
      simp only [encAll_cons, Tlv.enc, List.cons_append, List.nil_append, List.length_cons] at hf ⊢
      unfold subTlvs
      rw [if_neg (by omega)]
      simp only [rd_cons_zero, Option.bind_eq_bind, Option.bind_some]
      rw [if_pos (by rfl)]
      have := ih s n hok' (by omega)
      rw [foldSub, ← this]
      simp only [List.drop_succ_cons, List.drop_zero]
      congr 1
      omega
    | tlv ty b =>
      obtain ⟨h0, hl⟩ : ty ≠ 0 ∧ b.length ≤ 255 := ht'
      have h1 : ty.toNat ≠ 0 := fun h => h0 (UInt8.toNat_inj.1 (by simpa using h))
      have h2 : (UInt8.ofNat b.length).toNat = b.length := by rw [toNat_ofNat8]; omega
      simp only [encAll_cons, Tlv.enc, List.cons_append, List.append_assoc, List.length_cons, List.length_append] at hf ⊢
      unfold subTlvs
      rw [if_neg (by omega)]
      simp only [rd_cons_zero, Option.bind_eq_bind, Option.bind_some]
      rw [if_neg h1, if_neg (by omega)]
      simp only [rd_cons_one, Option.bind_some, h2]
      rw [if_neg (by omega)]
      have hsome := hs s ty.toNat b b.length (Nat.le_refl _)
      have hext := (hb s ty.toNat b.length (p := b) (q := b ++ (encAll ss ++ (tail ++ rest))) ⟨_, rfl⟩).eq hsome
      simp only [List.drop_succ_cons, List.drop_zero, hext]
      obtain ⟨v, hv⟩ := Option.isSome_iff_exists.1 hsome
      simp only [foldSub, hv, Option.bind_some, Option.getD_some]
      cases v with
      | none => simp
      | some s' =>
        simp only [List.drop_append_length]
        have := ih s' n hok' (by omega)
        rw [List.append_assoc] at this
        rw [← this]
        congr 1
        omega

theorem Understood_cons_pad {k ss} : Understood k (.pad1 :: ss) ↔ Understood k ss := by
  simp [Understood]

theorem Understood_cons {k t b ss} :
    Understood k (.tlv t b :: ss) ↔ (128 ≤ t → t ∈ k) ∧ Understood k ss := by
  constructor
  · intro h
    exact ⟨h t b (List.mem_cons_self ..), fun t' b' hm => h t' b' (List.mem_cons_of_mem _ hm)⟩
  · rintro ⟨h1, h2⟩ t' b' hm
    rcases List.mem_cons.1 hm with h | h
    · cases h; exact h1
    · exact h2 _ _ h

theorem and_0x80 (t : UInt8) : t.toNat &&& 0x80 = if 128 ≤ t then 128 else 0 := by
  have : ∀ n < 256, n &&& 0x80 = if 128 ≤ n then 128 else 0 := by decide +kernel
  rw [this _ t.toNat_lt]
  have : (128 ≤ t) ↔ 128 ≤ t.toNat := by rw [UInt8.le_iff_toNat_le]; rfl
  simp only [this]

theorem unknownSub_eq (s : σ) (t : UInt8) : unknownSub s t.toNat = some (if 128 ≤ t then none else some s) := by
  unfold unknownSub
  rw [and_0x80]
  split <;> simp_all

theorem other_fold (ss : List Tlv) (s : Unit) :
    foldSub otherSub ss s = some () ∧ Understood [] ss ∨ foldSub otherSub ss s = none ∧ ¬ Understood [] ss := by
  induction ss with
  | nil => left; exact ⟨rfl, by simp [Understood]⟩
  | cons t ss ih =>
    cases t with
    | pad1 => rw [foldSub, Understood_cons_pad]; exact ih
    | tlv ty b =>
      rw [foldSub, Understood_cons, otherSub, unknownSub_eq]
      simp only [Option.getD_some]
      by_cases h : 128 ≤ ty
      · right; simp [h]
      · simp only [h, if_false]
        simpa [h] using ih

theorem toNat_eq {t : UInt8} {n : Nat} (hn : n < 256) : t.toNat = n ↔ t = UInt8.ofNat n := by
  constructor
  · rintro rfl; simp
  · rintro rfl; simp; omega

/-- The value of a well-formed timestamp. -/
theorem rd32_number {b : Bytes} (h : 4 ≤ b.length) : rd32 b 0 = some (number 4 b) := by
  rcases b with _ | ⟨a, _ | ⟨c, _ | ⟨d, _ | ⟨e, r⟩⟩⟩⟩ <;> simp at h
  simp [rd32, rd16, rd, number]
  omega

theorem rd32_drop (b : Bytes) (k i : Nat) : rd32 (b.drop k) i = rd32 b (k + i) := by
  simp [rd32, rd16, rd, Nat.add_assoc]

theorem helloSub_eq (s : Option Nat) (t : UInt8) (b : Bytes) : helloSub s t.toNat b b.length =
    some (if t = 3 then (if 4 ≤ b.length then some (some (number 4 b)) else some s)
      else if 128 ≤ t then none else some s) := by
  unfold helloSub
  have e1 : t.toNat = 1 ↔ t = 1 := toNat_eq (by decide)
  have e3 : t.toNat = 3 ↔ t = 3 := toNat_eq (by decide)
  by_cases h1 : t = 1
  · subst h1; rfl
  rw [if_neg (by rw [e1]; exact h1)]
  by_cases h3 : t = 3
  · subst h3
    rw [if_pos (e3.2 rfl), if_pos rfl]
    by_cases h : 4 ≤ b.length
    · rw [if_pos h, if_pos h, rd32_number h]; rfl
    · rw [if_neg h, if_neg h]
  · rw [if_neg (by rw [e3]; exact h3), if_neg h3, unknownSub_eq]

theorem getLast?_cons_getD {α : Type} (b : α) (l : List α) :
    (b :: l).getLast? = some (l.getLast?.getD b) := by
  cases l with
  | nil => rfl
  | cons a l => rw [List.getLast?_cons_cons, List.getLast?_eq_some_getLast (by simp)]; rfl

theorem hello_fold (ss : List Tlv) : ∀ (s : Option Nat),
    foldSub helloSub ss s = some ((helloTime ss).or s) ∧ Understood [] ss ∨
    foldSub helloSub ss s = none ∧ ¬ Understood [] ss := by
  induction ss with
  | nil => intro s; left; exact ⟨by simp [foldSub, helloTime, bodies], by simp [Understood]⟩
  | cons t ss ih =>
    intro s
    cases t with
    | pad1 => rw [foldSub, Understood_cons_pad]; exact ih s
    | tlv ty b =>
      rw [foldSub, Understood_cons, helloSub_eq]
      simp only [Option.getD_some]
      by_cases h3 : ty = 3
      · subst h3
        simp only [if_true]
        have hu : ((128 ≤ (3 : UInt8) → (3 : UInt8) ∈ ([] : List UInt8)) ∧ Understood [] ss) ↔ Understood [] ss := by
          constructor
          · exact fun h => h.2
          · exact fun h => ⟨fun h => absurd h (by decide), h⟩
        rw [hu]
        by_cases hl : 4 ≤ b.length
        · simp only [hl, if_true]
          have e : (helloTime (.tlv 3 b :: ss)).or s = (helloTime ss).or (some (number 4 b)) := by
            simp only [helloTime, bodies, if_true, List.filter_cons, decide_eq_true_eq, hl, getLast?_cons_getD]
            cases (List.filter (fun b => decide (4 ≤ b.length)) (bodies 3 ss)).getLast? <;> simp
          rw [e]; exact ih _
        · simp only [hl, if_false]
          have e : helloTime (.tlv 3 b :: ss) = helloTime ss := by
            simp only [helloTime, bodies, if_true, List.filter_cons, decide_eq_true_eq, hl]
            simp
          rw [e]; exact ih _
      · simp only [h3, if_false]
        have e : helloTime (.tlv ty b :: ss) = helloTime ss := by
          simp only [helloTime, bodies, h3, if_false]
        rw [e]
        by_cases h : 128 ≤ ty
        · right; simp [h]
        · simp only [h, if_false]
          simpa [h] using ih s

theorem ihuSub_eq (s : Option (Nat × Nat)) (t : UInt8) (b : Bytes) : ihuSub s t.toNat b b.length =
    some (if t = 3 then (if 8 ≤ b.length then some (some (number 4 b, number 4 (b.drop 4))) else some s)
      else if 128 ≤ t then none else some s) := by
  unfold ihuSub
  have e1 : t.toNat = 1 ↔ t = 1 := toNat_eq (by decide)
  have e3 : t.toNat = 3 ↔ t = 3 := toNat_eq (by decide)
  by_cases h1 : t = 1
  · subst h1; rfl
  rw [if_neg (by rw [e1]; exact h1)]
  by_cases h3 : t = 3
  · subst h3
    rw [if_pos (e3.2 rfl), if_pos rfl]
    by_cases h : 8 ≤ b.length
    · have hd := rd32_number (b := b.drop 4) (by simp; omega)
      rw [rd32_drop] at hd
      rw [if_pos h, if_pos h, rd32_number (by omega), hd]; rfl
    · rw [if_neg h, if_neg h]
  · rw [if_neg (by rw [e3]; exact h3), if_neg h3, unknownSub_eq]

theorem ihu_fold (ss : List Tlv) : ∀ (s : Option (Nat × Nat)),
    foldSub ihuSub ss s = some ((ihuTimes ss).or s) ∧ Understood [] ss ∨
    foldSub ihuSub ss s = none ∧ ¬ Understood [] ss := by
  induction ss with
  | nil => intro s; left; exact ⟨by simp [foldSub, ihuTimes, bodies], by simp [Understood]⟩
  | cons t ss ih =>
    intro s
    cases t with
    | pad1 => rw [foldSub, Understood_cons_pad]; exact ih s
    | tlv ty b =>
      rw [foldSub, Understood_cons, ihuSub_eq]
      simp only [Option.getD_some]
      by_cases h3 : ty = 3
      · subst h3
        simp only [if_true]
        have hu : ((128 ≤ (3 : UInt8) → (3 : UInt8) ∈ ([] : List UInt8)) ∧ Understood [] ss) ↔ Understood [] ss := by
          constructor
          · exact fun h => h.2
          · exact fun h => ⟨fun h => absurd h (by decide), h⟩
        rw [hu]
        by_cases hl : 8 ≤ b.length
        · simp only [hl, if_true]
          have e : (ihuTimes (.tlv 3 b :: ss)).or s = (ihuTimes ss).or (some (number 4 b, number 4 (b.drop 4))) := by
            simp only [ihuTimes, bodies, if_true, List.filter_cons, decide_eq_true_eq, hl, getLast?_cons_getD]
            cases (List.filter (fun b => decide (8 ≤ b.length)) (bodies 3 ss)).getLast? <;> simp
          rw [e]; exact ih _
        · simp only [hl, if_false]
          have e : ihuTimes (.tlv 3 b :: ss) = ihuTimes ss := by
            simp only [ihuTimes, bodies, if_true, List.filter_cons, decide_eq_true_eq, hl]
            simp
          rw [e]; exact ih _
      · simp only [h3, if_false]
        have e : ihuTimes (.tlv ty b :: ss) = ihuTimes ss := by
          simp only [ihuTimes, bodies, h3, if_false]
        rw [e]
        by_cases h : 128 ≤ ty
        · right; simp [h]
        · simp only [h, if_false]
          simpa [h] using ih s

/-- The source prefix in the body of a sub-TLV. -/
def srcVal (ae : Nat) : Bytes → Option (Bytes × Nat)
  | [] => none
  | l :: w =>
    match (networkPrefix ae (some l.toNat) 0 w none w.length).getD none with
    | none => none
    | some (_, sp) => some (sp, if aeIsV4 ae then l.toNat + 96 else l.toNat)

theorem srcVal_iff {ae b src} : srcVal ae b = some src ↔ SourceBody ae b src := by
  have hv : (aeIsV4 ae = true) ↔ (ae = 1 ∨ ae = 4) := by simp [aeIsV4]
  cases b with
  | nil =>
    simp [srcVal]
    rintro ⟨l, w, x, h, _⟩; cases h
  | cons l w =>
    simp only [srcVal]
    have hs : (networkPrefix ae (some l.toNat) 0 w none w.length).isSome := networkPrefix_isSome (Nat.le_refl _)
    obtain ⟨v, hv'⟩ := Option.isSome_iff_exists.1 hs
    rw [hv']
    simp only [Option.getD_some]
    constructor
    · intro h
      cases v with
      | none => simp at h
      | some r =>
        obtain ⟨rc, sp⟩ := r
        simp at h
        subst h
        have := (networkPrefix_iff (Nat.le_refl _)).1 hv'
        refine ⟨l, w.take rc, w.drop rc, by simp, this.2, ?_⟩
        by_cases h1 : aeIsV4 ae = true
        · simp [h1, hv.1 h1]
        · have : ¬ (ae = 1 ∨ ae = 4) := fun h => h1 (hv.2 h)
          simp [h1, this]
    · rintro ⟨l', wire, extra, h, h2, h3⟩
      cases h
      have he : networkPrefix ae (some l.toNat) 0 (wire ++ extra) none (wire ++ extra).length =
          some (some (wire.length, src.1)) := by
        rw [networkPrefix_iff (Nat.le_refl _)]
        exact ⟨by simp, by simpa using h2⟩
      rw [he] at hv'
      cases hv'
      simp only [Option.some.injEq]
      refine Prod.ext rfl ?_
      rw [h3]
      by_cases h1 : aeIsV4 ae = true
      · simp [h1, hv.1 h1]
      · have : ¬ (ae = 1 ∨ ae = 4) := fun h => h1 (hv.2 h)
        simp [h1, this]

theorem seqSub_eq (ae : Nat) (s : Option (Bytes × Nat)) (t : UInt8) (b : Bytes) : seqSub ae s t.toNat b b.length =
    some (if t = 128 then (srcVal ae b).map some else if 128 ≤ t then none else some s) := by
  unfold seqSub
  have e1 : t.toNat = 1 ↔ t = 1 := toNat_eq (by decide)
  have e3 : t.toNat = 128 ↔ t = 128 := toNat_eq (by decide)
  by_cases h1 : t = 1
  · subst h1; rfl
  rw [if_neg (by rw [e1]; exact h1)]
  by_cases h3 : t = 128
  · subst h3
    rw [if_pos (e3.2 rfl), if_pos rfl]
    cases b with
    | nil => rfl
    | cons l w =>
      rw [if_neg (by simp)]
      simp only [rd_cons_zero, Option.bind_eq_bind, Option.bind_some, List.drop_succ_cons, List.drop_zero,
        List.length_cons, Nat.add_sub_cancel, srcVal]
      have hs : (networkPrefix ae (some l.toNat) 0 w none w.length).isSome := networkPrefix_isSome (Nat.le_refl _)
      obtain ⟨v, hv'⟩ := Option.isSome_iff_exists.1 hs
      rw [hv']
      cases v with
      | none => rfl
      | some r => rfl
  · rw [if_neg (by rw [e3]; exact h3), if_neg h3, unknownSub_eq]

theorem srcSub_eq (ae : Nat) (s : Option (Bytes × Nat)) (t : UInt8) (b : Bytes) : srcSub ae s t.toNat b b.length =
    some (if t = 128 then (if b.head? = some 0 ∨ s.isSome then none else (srcVal ae b).map some)
      else if 128 ≤ t then none else some s) := by
  unfold srcSub
  have e1 : t.toNat = 1 ↔ t = 1 := toNat_eq (by decide)
  have e3 : t.toNat = 128 ↔ t = 128 := toNat_eq (by decide)
  by_cases h1 : t = 1
  · subst h1; rfl
  rw [if_neg (by rw [e1]; exact h1)]
  by_cases h3 : t = 128
  · subst h3
    rw [if_pos (e3.2 rfl), if_pos rfl]
    cases b with
    | nil => simp [srcVal]
    | cons l w =>
      rw [if_neg (by simp)]
      simp only [rd_cons_zero, Option.bind_eq_bind, Option.bind_some, List.drop_succ_cons, List.drop_zero,
        List.length_cons, Nat.add_sub_cancel, srcVal, List.head?_cons, Option.some.injEq]
      have hz : l.toNat = 0 ↔ l = 0 := toNat_eq (by decide)
      by_cases h0 : l = 0
      · subst h0; simp
      · rw [if_neg (by rw [hz]; exact h0)]
        simp only [h0, false_or]
        by_cases hss : s.isSome = true
        · rw [if_pos hss, if_pos hss]; rfl
        · rw [if_neg hss, if_neg hss]
          have hs : (networkPrefix ae (some l.toNat) 0 w none w.length).isSome := networkPrefix_isSome (Nat.le_refl _)
          obtain ⟨v, hv'⟩ := Option.isSome_iff_exists.1 hs
          rw [hv']
          cases v with
          | none => rfl
          | some r => rfl
  · rw [if_neg (by rw [e3]; exact h3), if_neg h3, unknownSub_eq]

theorem Understood128_src {b ss} : Understood [128] (.tlv 128 b :: ss) ↔ Understood [128] ss := by
  rw [Understood_cons]; simp

theorem src_fold_some (ae : Nat) (ss : List Tlv) : ∀ x,
    foldSub (srcSub ae) ss (some x) = some (some x) ∧ Understood [128] ss ∧ bodies 128 ss = [] ∨
    foldSub (srcSub ae) ss (some x) = none ∧ ¬ (Understood [128] ss ∧ bodies 128 ss = []) := by
  induction ss with
  | nil => intro x; left; exact ⟨rfl, by simp [Understood], rfl⟩
  | cons t ss ih =>
    intro x
    cases t with
    | pad1 => rw [foldSub, Understood_cons_pad]; exact ih x
    | tlv ty b =>
      rw [foldSub, srcSub_eq]
      simp only [Option.getD_some, Option.isSome_some, or_true, if_true]
      by_cases h3 : ty = 128
      · subst h3
        right; simp [bodies]
      · simp only [h3, if_false, bodies]
        rw [Understood_cons]
        by_cases h : 128 ≤ ty
        · right; simp [h, h3]
        · simp only [h, if_false]
          simpa [h] using ih x

/-- The values of `parse_update_subtlv` and `parse_request_subtlv`. -/
theorem src_fold (ae : Nat) (ss : List Tlv) :
    (∃ r, foldSub (srcSub ae) ss none = some r ∧ Understood [128] ss ∧
      (bodies 128 ss = [] ∧ r = none ∨
       ∃ b src, bodies 128 ss = [b] ∧ SourceBody ae b src ∧ b.head? ≠ some 0 ∧ r = some src)) ∨
    foldSub (srcSub ae) ss none = none ∧
      (¬ Understood [128] ss ∨ ¬ ∃ src, Source ae ss src) := by
  induction ss with
  | nil => left; exact ⟨_, rfl, by simp [Understood], .inl ⟨rfl, rfl⟩⟩
  | cons t ss ih =>
    cases t with
    | pad1 =>
      rw [foldSub]
      simp only [Understood_cons_pad, bodies]
      rcases ih with h | ⟨h1, h2⟩
      · exact .inl h
      · refine .inr ⟨h1, h2.imp_right fun h => ?_⟩
        rintro ⟨src, hs⟩
        refine h ⟨src, ?_⟩
        cases hs with
        | absent h => exact .absent h
        | present b src h h' h'' => exact .present b _ h h' h''
    | tlv ty b =>
      rw [foldSub, srcSub_eq]
      simp only [Option.getD_some, Option.isSome_none, Bool.false_eq_true, or_false]
      by_cases h3 : ty = 128
      · subst h3
        rw [Understood128_src]
        simp only [if_true, bodies]
        by_cases h0 : b.head? = some 0
        · right
          rw [if_pos h0]
          refine ⟨rfl, .inr ?_⟩
          rintro ⟨src, hs⟩
          cases hs with
          | absent h => simp [bodies] at h
          | present b' _ h h' h'' =>
            simp [bodies] at h
            exact h'' (h.1 ▸ h0)
        · rw [if_neg h0]
          cases hv : srcVal ae b with
          | none =>
            right
            refine ⟨rfl, .inr ?_⟩
            rintro ⟨src, hs⟩
            cases hs with
            | absent h => simp [bodies] at h
            | present b' _ h h' h'' =>
              simp [bodies] at h
              rw [← h.1, ← srcVal_iff, hv] at h'
              cases h'
          | some x =>
            simp only [Option.map_some]
            rcases src_fold_some ae ss x with ⟨h1, h2, h4⟩ | ⟨h1, h2⟩
            · left
              exact ⟨_, h1, h2, .inr ⟨b, x, by rw [h4], srcVal_iff.1 hv, h0, rfl⟩⟩
            · right
              refine ⟨h1, ?_⟩
              by_cases hu : Understood [128] ss
              · right
                rintro ⟨src, hs⟩
                apply h2 ⟨hu, ?_⟩
                cases hs with
                | absent h => simp [bodies] at h
                | present b' _ h h' h'' =>
                  simp [bodies] at h
                  exact h.2
              · exact .inl hu
      · simp only [h3, if_false, bodies]
        rw [Understood_cons]
        by_cases h : 128 ≤ ty
        · right; exact ⟨by simp [h], .inl (by simp [h, h3])⟩
        · simp only [h, if_false]
          rcases ih with ⟨r, h1, h2, h4⟩ | ⟨h1, h2⟩
          · exact .inl ⟨r, h1, ⟨fun h' => absurd h' (by simp), h2⟩, h4⟩
          · refine .inr ⟨h1, ?_⟩
            rcases h2 with h2 | h2
            · exact .inl fun h => h2 h.2
            · refine .inr ?_
              rintro ⟨src, hs⟩
              refine h2 ⟨src, ?_⟩
              cases hs with
              | absent h => exact .absent (by simpa [bodies, h3] using h)
              | present b' _ h h' h'' => exact .present b' _ (by simpa [bodies, h3] using h) h' h''

/-- The values of `parse_seqno_request_subtlv`. -/
theorem seq_fold (ae : Nat) (ss : List Tlv) : ∀ s,
    (∃ r, foldSub (seqSub ae) ss s = some r ∧ Understood [128] ss ∧
      (bodies 128 ss = [] ∧ r = s ∨
       ∃ bs b src, bodies 128 ss = bs ++ [b] ∧ (∀ b' ∈ bs, ∃ src', SourceBody ae b' src') ∧
         SourceBody ae b src ∧ r = some src)) ∨
    foldSub (seqSub ae) ss s = none ∧
      (¬ Understood [128] ss ∨ ∃ b ∈ bodies 128 ss, ¬ ∃ src, SourceBody ae b src) := by
  induction ss with
  | nil => intro s; left; exact ⟨_, rfl, by simp [Understood], .inl ⟨rfl, rfl⟩⟩
  | cons t ss ih =>
    intro s
    cases t with
    | pad1 =>
      rw [foldSub]
      simp only [Understood_cons_pad, bodies]
      exact ih s
    | tlv ty b =>
      rw [foldSub, seqSub_eq]
      simp only [Option.getD_some]
      by_cases h3 : ty = 128
      · subst h3
        rw [Understood128_src]
        simp only [if_true, bodies]
        cases hv : srcVal ae b with
        | none =>
          right
          refine ⟨rfl, .inr ⟨b, by simp, ?_⟩⟩
          rintro ⟨src, hs⟩
          rw [← srcVal_iff, hv] at hs; cases hs
        | some x =>
          simp only [Option.map_some]
          rcases ih (some x) with ⟨r, h1, h2, h4⟩ | ⟨h1, h2⟩
          · left
            refine ⟨r, h1, h2, .inr ?_⟩
            rcases h4 with ⟨h4, rfl⟩ | ⟨bs, b', src, h5, h6, h7, h8⟩
            · exact ⟨[], b, x, by rw [h4]; rfl, by simp, srcVal_iff.1 hv, rfl⟩
            · refine ⟨b :: bs, b', src, by rw [h5]; rfl, ?_, h7, h8⟩
              intro b'' hm
              rcases List.mem_cons.1 hm with rfl | hm
              · exact ⟨x, srcVal_iff.1 hv⟩
              · exact h6 _ hm
          · right
            refine ⟨h1, h2.imp_right ?_⟩
            rintro ⟨b', hb, h⟩
            exact ⟨b', List.mem_cons_of_mem _ hb, h⟩
      · simp only [h3, if_false, bodies]
        rw [Understood_cons]
        by_cases h : 128 ≤ ty
        · right; exact ⟨by simp [h], .inl (by simp [h, h3])⟩
        · simp only [h, if_false]
          rcases ih s with ⟨r, h1, h2, h4⟩ | ⟨h1, h2⟩
          · exact .inl ⟨r, h1, ⟨fun h' => absurd h' (by simp), h2⟩, h4⟩
          · refine .inr ⟨h1, ?_⟩
            rcases h2 with h2 | h2
            · exact .inl fun h => h2 h.2
            · exact .inr h2

end Babel
