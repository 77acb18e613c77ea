import Verif.Spec.Identity
/-
Lemmas on the choice of the router-id.
-/
namespace Babel
open Spec

theorem isMac48_iff {n : Nat} : isMac48 n = true ↔ n ∈ [1, 774, 800, 6] := by
  simp [isMac48, or_assoc]

theorem isEui64_iff {n : Nat} : isEui64 n = true ↔ n ∈ [27, 24, 32] := by
  simp [isEui64, or_assoc]

theorem low_bits (x : UInt8) : (x &&& 1 = 0 ∧ x &&& 2 = 0) ↔ x.toNat % 4 = 0 := by
  have : ∀ n, n < 256 → ((UInt8.ofNat n &&& 1 = 0 ∧ UInt8.ofNat n &&& 2 = 0) ↔ n % 4 = 0) := by decide +kernel
  have h := this x.toNat x.toNat_lt
  rwa [UInt8.ofNat_toNat] at h

theorem badMac_iff {a : Bytes} (hl : a ≠ []) : badMac a = false ↔ Unique a := by
  cases a with
  | nil => exact absurd rfl hl
  | cons x r =>
    unfold badMac Unique
    simp only [List.headD_cons, List.head?_cons, Option.some.injEq, Bool.or_eq_false_iff, bne_eq_false_iff_eq]
    rw [and_assoc]
    constructor
    · rintro ⟨h, hb⟩
      refine ⟨?_, ?_⟩
      · rw [List.all_eq_false] at h
        obtain ⟨y, hy, hn⟩ := h
        exact ⟨y, hy, fun e => hn (by rw [e]; rfl)⟩
      · rintro y rfl
        exact (low_bits x).1 hb
    · rintro ⟨⟨y, hy, hn⟩, hb⟩
      refine ⟨?_, (low_bits x).2 (hb x rfl)⟩
      rw [List.all_eq_false]
      exact ⟨y, hy, fun e => hn (by simpa using e)⟩

theorem saData_take {h : HwAddr} {n : Nat} (hn : n ≤ 14) (hl : n ≤ h.addr.length) : h.saData.take n = h.addr.take n := by
  unfold HwAddr.saData
  rw [List.take_take, Nat.min_eq_left hn, List.take_append_of_le_length hl]

theorem ifEui64_iff {h : HwAddr} (hw : Whole h) {id : Bytes} : ifEui64 (some h) = some id ↔ Gives h id := by
  unfold ifEui64 Gives usedPart
  by_cases h1 : h.family ∈ [1, 774, 800, 6]
  · have hl := hw.1 h1
    rw [if_pos h1]
    simp only [isMac48_iff.2 h1, if_true, saData_take (by omega) hl]
    match hm : h.addr.take 6, (show (h.addr.take 6).length = 6 by rw [List.length_take]; omega) with
    | [a, b, c, d, e, f], _ =>
      by_cases hb : badMac [a, b, c, d, e, f] = true
      · rw [if_pos hb]
        constructor
        · intro h; cases h
        · intro h
          rw [(badMac_iff (by simp)).2 h.1] at hb
          cases hb
      · rw [if_neg hb]
        simp only [Bool.not_eq_true] at hb
        exact ⟨fun h => ⟨(badMac_iff (by simp)).1 hb, h⟩, fun h => h.2⟩
  · have h1' : isMac48 h.family = false := by rw [← Bool.not_eq_true, isMac48_iff]; exact h1
    rw [if_neg h1]
    simp only [h1', Bool.false_eq_true, if_false]
    by_cases h2 : h.family ∈ [27, 24, 32]
    · have hl := hw.2 h2
      rw [if_pos h2]
      simp only [isEui64_iff.2 h2, if_true, saData_take (n := 8) (by omega) hl]
      match hm : h.addr.take 8, (show (h.addr.take 8).length = 8 by rw [List.length_take]; omega) with
      | [a, b, c, d, e, f, g, i], _ =>
        by_cases hb : badMac [a, b, c, d, e, f, g, i] = true
        · rw [if_pos hb]
          constructor
          · intro h; cases h
          · intro h
            rw [(badMac_iff (by simp)).2 h.1] at hb
            cases hb
        · rw [if_neg hb]
          simp only [Bool.not_eq_true] at hb
          exact ⟨fun h => ⟨(badMac_iff (by simp)).1 hb, h⟩, fun h => h.2⟩
    · have h2' : isEui64 h.family = false := by rw [← Bool.not_eq_true, isEui64_iff]; exact h2
      rw [if_neg h2]
      simp only [h2', Bool.false_eq_true, if_false]
      constructor
      · intro h; cases h
      · intro h; cases h.2

theorem scanIds_some {b : Boot} {id : Bytes} : ∀ {n i : Nat}, scanIds b i n = some id ↔
    ∃ k, i ≤ k ∧ k < i + n ∧ (∃ h, b.hw k = some h ∧ ifEui64 h = some id) ∧ ∀ j, i ≤ j → j < k → ∀ h, b.hw j = some h → ifEui64 h = none
  | 0, i => by
    constructor
    · intro h; cases h
    · rintro ⟨k, h1, h2, _⟩; omega
  | n + 1, i => by
    have step : (∃ h e, b.hw i = some h ∧ ifEui64 h = some e ∧ scanIds b i (n + 1) = some e) ∨
        ((∀ h, b.hw i = some h → ifEui64 h = none) ∧ scanIds b i (n + 1) = scanIds b (i + 1) n) := by
      cases h : b.hw i with
      | none =>
        refine .inr ⟨fun _ h => (by cases h), ?_⟩
        conv => lhs; unfold scanIds
        rw [h]
      | some x =>
        cases he : ifEui64 x with
        | none =>
          refine .inr ⟨fun _ h => (by cases h; exact he), ?_⟩
          conv => lhs; unfold scanIds
          rw [h]; simp only; rw [he]
        | some e => exact .inl ⟨x, e, rfl, he, by unfold scanIds; rw [h]; simp only; rw [he]⟩
    rcases step with ⟨h, e, h1, h2, h3⟩ | ⟨h1, h2⟩
    · rw [h3]
      constructor
      · intro h4
        cases h4
        exact ⟨i, Nat.le_refl i, by omega, ⟨h, h1, h2⟩, fun j a b => by omega⟩
      · rintro ⟨k, a, _, ⟨h', c, d⟩, f⟩
        by_cases hk : k = i
        · subst hk
          rw [h1] at c; cases c; rw [h2] at d; exact d
        · have := f i (Nat.le_refl i) (by omega) h h1
          rw [h2] at this; cases this
    · rw [h2, scanIds_some]
      constructor
      · rintro ⟨k, a, b', c, d⟩
        refine ⟨k, by omega, by omega, c, fun j e f => ?_⟩
        by_cases hj : j = i
        · subst hj; exact h1
        · exact d j (by omega) f
      · rintro ⟨k, a, b', ⟨h, c, c'⟩, d⟩
        by_cases hk : k = i
        · subst hk
          rw [h1 h c] at c'; cases c'
        · exact ⟨k, by omega, by omega, ⟨h, c, c'⟩, fun j e f => d j (by omega) f⟩

theorem gives_at {b : Boot} (hb : ∀ i h, b.hw i = some (some h) → Whole h) {i : Nat} {id : Bytes} :
    (∃ h, b.hw i = some h ∧ ifEui64 h = some id) ↔ GivesAt b i id := by
  constructor
  · rintro ⟨h, h1, h2⟩
    cases h with
    | none => cases h2
    | some h => exact ⟨h, h1, (ifEui64_iff (hb i h h1)).1 h2⟩
  · rintro ⟨h, h1, h2⟩
    exact ⟨some h, h1, (ifEui64_iff (hb i h h1)).2 h2⟩

theorem scan_first {b : Boot} (hb : ∀ i h, b.hw i = some (some h) → Whole h) {id : Bytes} :
    scanIds b 1 255 = some id ↔ FirstGives b id := by
  rw [scanIds_some]
  constructor
  · rintro ⟨k, a, b', c, d⟩
    refine ⟨k, a, by omega, (gives_at hb).1 c, fun j e f id' hg => ?_⟩
    obtain ⟨h, h1, h2⟩ := (gives_at hb).2 hg
    rw [d j e f h h1] at h2; cases h2
  · rintro ⟨k, a, b', c, d⟩
    refine ⟨k, a, by omega, (gives_at hb).2 c, fun j e f h h1 => ?_⟩
    cases he : ifEui64 h with
    | none => rfl
    | some x => exact absurd ((gives_at hb).1 ⟨h, h1, he⟩) (d j e f x)

theorem scanIds_none {b : Boot} : ∀ {n i : Nat}, scanIds b i n = none ↔ ∀ k, i ≤ k → k < i + n → ∀ h, b.hw k = some h → ifEui64 h = none
  | 0, i => ⟨fun _ k a b => by omega, fun _ => rfl⟩
  | n + 1, i => by
    constructor
    · intro h k a c x hx
      cases he : ifEui64 x with
      | none => rfl
      | some e =>
        -- the first index that gives one is found
        exfalso
        have : ∀ m, ∀ i, i ≤ k → k < i + m → scanIds b i m ≠ none := by
          intro m
          induction m with
          | zero => intro i h1 h2; omega
          | succ m ih =>
            intro i h1 h2
            unfold scanIds
            by_cases hk : k = i
            · subst hk
              rw [hx]; simp only; rw [he]; exact nofun
            · cases hw : b.hw i with
              | none => exact ih (i + 1) (by omega) (by omega)
              | some y =>
                simp only
                cases hy : ifEui64 y with
                | none => exact ih (i + 1) (by omega) (by omega)
                | some z => exact nofun
        exact this (n + 1) i a c h
    · intro h
      unfold scanIds
      cases hw : b.hw i with
      | none => exact scanIds_none.2 fun k a c => h k (by omega) (by omega)
      | some y =>
        simp only
        rw [h i (Nat.le_refl i) (by omega) y hw]
        exact scanIds_none.2 fun k a c => h k (by omega) (by omega)

theorem scan_none {b : Boot} (hb : ∀ i h, b.hw i = some (some h) → Whole h) : scanIds b 1 255 = none ↔ NoneGives b := by
  rw [scanIds_none]
  constructor
  · intro h i h1 h2 id hg
    obtain ⟨x, h3, h4⟩ := (gives_at hb).2 hg
    rw [h i h1 (by omega) x h3] at h4; cases h4
  · intro h k h1 h2 x h3
    cases he : ifEui64 x with
    | none => rfl
    | some e => exact absurd ((gives_at hb).1 ⟨x, h3, he⟩) (h k h1 (by omega) e)

theorem clear_low (x : UInt8) : (x &&& ~~~3).toNat = x.toNat / 4 * 4 := by
  have : ∀ n, n < 256 → (UInt8.ofNat n &&& ~~~3).toNat = n / 4 * 4 := by decide +kernel
  have h := this x.toNat x.toNat_lt
  rwa [UInt8.ofNat_toNat] at h

theorem clear_iff {b : Boot} (hb : ∃ r, b.random = some r ∧ r.length = 8) {id : Bytes} : (∃ r, b.random = some r ∧ id = clearBits r) ↔ RandomId b id := by
  obtain ⟨r, hr, hl⟩ := hb
  match r, hl with
  | x :: r, hl =>
    constructor
    · rintro ⟨r', h1, h2⟩
      rw [hr] at h1
      cases h1
      exact ⟨x, _, r, hr, h2, clear_low x⟩
    · rintro ⟨x', y, r', h1, h2, h3⟩
      refine ⟨_, h1, ?_⟩
      rw [h2, UInt8.toNat_inj.1 (h3.trans (clear_low x').symm)]
      rfl

theorem flip_low (x : UInt8) (h : x.toNat % 4 = 0) : (x ^^^ 2).toNat = x.toNat + 2 := by
  have : ∀ n, n < 256 → n % 4 = 0 → (UInt8.ofNat n ^^^ 2).toNat = n + 2 := by decide +kernel
  have h := this x.toNat x.toNat_lt h
  rwa [UInt8.ofNat_toNat] at h

/-- An identifier from hardware: it starts with a byte that is 2 modulo 4. -/
theorem gives_head {h : HwAddr} {id : Bytes} (hg : Gives h id) : ∃ a r, id = a :: r ∧ r.length = 7 ∧ a.toNat % 4 = 2 := by
  obtain ⟨hu, hm⟩ := hg
  generalize usedPart h = p at hu hm
  unfold modifiedEui64 at hm
  split at hm
  · rename_i a b c d e f
    cases hm
    have := hu.2 a rfl
    exact ⟨_, _, rfl, rfl, by rw [flip_low a this]; omega⟩
  · rename_i a b c d e f g i
    cases hm
    have := hu.2 a rfl
    exact ⟨_, _, rfl, rfl, by rw [flip_low a this]; omega⟩
  · cases hm

theorem xor_two_inj {x y : UInt8} (h : x ^^^ 2 = y ^^^ 2) : x = y := by
  have : (x ^^^ 2) ^^^ 2 = (y ^^^ 2) ^^^ 2 := by rw [h]
  simpa [UInt8.xor_assoc] using this

end Babel
