import Verif.Lemmas.Config9
import Verif.Spec.Reject
/-
Rejected configurations.
-/
set_option linter.unusedSimpArgs false
set_option linter.unusedVariables false
namespace Babel
open Spec

theorem Spec.Delim.stop {r : Bytes} (h : Delim r) : Stop r := by
  intro c hc
  rcases h with rfl | ⟨d, t, rfl, h⟩
  · simp at hc
  · simp at hc
    subst hc
    unfold wordChar
    rcases h with (rfl | rfl | rfl) | rfl | rfl <;> decide

theorem Spec.LineOver.over {r : Bytes} (h : LineOver r) : atEol (skipWs r) = true ∧ (r.head? ≠ none → Stop r) ∧ Stop r := by
  obtain ⟨ws, t, rfl, hw, ht⟩ := h
  have hs : Stop (ws ++ t) := by
    intro c hc
    cases ws with
    | nil =>
      rcases ht with rfl | h | h
      · simp at hc
      · rw [List.nil_append, h] at hc; simp at hc; subst hc; decide
      · rw [List.nil_append, h] at hc; simp at hc; subst hc; decide
    | cons d ws =>
      simp at hc
      subst hc
      have := hw d (by simp)
      unfold wordChar
      rcases this with rfl | rfl | rfl <;> decide
  refine ⟨?_, fun _ => hs, hs⟩
  rw [skipWs_append _ _ hw]
  cases t with
  | nil => rfl
  | cons c t =>
    have : c = 10 ∨ c = 35 := by simpa using ht
    rw [skipWs_word _ (by intro d hd; simp at hd; subst hd; unfold BlankC; rcases this with rfl | rfl <;> decide)]
    rcases this with rfl | rfl <;> rfl

theorem skipWs_idem (r : Bytes) : skipWs (skipWs r) = skipWs r := by
  induction r with
  | nil => rfl
  | cons c r ih =>
    unfold skipWs at ih ⊢
    by_cases h : isWs c = true
    · rw [List.dropWhile_cons, if_pos h]; exact ih
    · rw [List.dropWhile_cons, if_neg h, List.dropWhile_cons, if_neg h]

theorem getword_over {r : Bytes} (h : LineOver r) : getword r = .error .bad := by
  unfold getword
  simp only [h.over.1, if_true]

theorem getword_over' {r : Bytes} (h : LineOver r) : getword (skipWs r) = .error .bad := by
  unfold getword
  simp only [skipWs_idem, h.over.1, if_true]

theorem getstring_over {r : Bytes} (h : LineOver r) : getstring r = .error .bad := by
  unfold getstring
  simp only [h.over.1, if_true]

theorem quoted_bad {q s : Bytes} (h : Quoted q s) (i : Nat) (t : Bytes)
    (ht : t = [] ∨ t.head? = some 10 ∨ 255 ≤ i + s.length) : quoted i (q ++ t) = .error .bad := by
  induction h generalizing i with
  | nil =>
    rw [List.nil_append]
    rcases ht with rfl | ht | ht
    · rfl
    · cases t with
      | nil => rfl
      | cons c t =>
        have : c = 10 := by simpa using ht
        subst this
        unfold quoted
        simp
    · cases t with
      | nil => rfl
      | cons c t =>
        unfold quoted
        rw [if_pos (by simp at ht ⊢; omega)]
  | @plain c q s h1 h2 h3 h4 h ih =>
    rw [List.cons_append]
    unfold quoted
    split
    · rfl
    · rw [if_neg (by simpa using h2), if_neg (by simpa using h3),
        ih (i + 1) (by simp only [List.length_cons] at ht; rcases ht with h | h | h <;> first | exact .inl h | exact .inr (.inl h) | exact .inr (.inr (by omega)))]
      rfl
  | @escaped c q s h1 h ih =>
    rw [List.cons_append, List.cons_append]
    unfold quoted
    split
    · rfl
    · rw [if_neg (by decide), if_pos (by decide)]
      simp only
      rw [ih (i + 1) (by simp only [List.length_cons] at ht; rcases ht with h | h | h <;> first | exact .inl h | exact .inr (.inl h) | exact .inr (.inr (by omega)))]
      rfl

theorem getstring_bad {g q : Bytes} (hg : ∀ c ∈ g, BlankC c) (h : BadString q) : getstring (g ++ q) = .error .bad := by
  have key : ∀ x : Bytes, quoted 0 x = .error .bad → getstring (g ++ 34 :: x) = .error .bad := by
    intro x hx
    have e : skipWs (g ++ 34 :: x) = 34 :: x := by
      rw [skipWs_append _ _ hg, skipWs_word]
      intro d hd
      have : 34 = d := by simpa using hd
      subst this
      unfold BlankC; decide
    unfold getstring
    rw [e]
    simp only
    rw [if_neg (by simp [atEol]), if_neg (by simp)]
    rw [List.drop_one, List.tail_cons, hx]
    rfl
  cases h with
  | opened h1 h2 => exact key _ (quoted_bad h1 0 _ (by rcases h2 with h | h; exact .inl h; exact .inr (.inl h)))
  | long h1 h2 => exact key _ (quoted_bad h1 0 _ (.inr (.inr (by omega))))

/-! ### Numbers -/

theorem digitOf_inv {base : Nat} {c : UInt8} {d : Nat} (hb : base ≤ 16) (h : digitOf base c = some d) :
    IsHex c d ∧ d < base := by
  unfold digitOf at h
  have hc : UInt8.ofNat c.toNat = c := by simp
  have hlt := c.toNat_lt
  simp only at h
  have conv : ∀ m, m < 256 → c.toNat = m → c = UInt8.ofNat m := by
    intro m hm e
    rw [← e]; exact hc.symm
  split at h
  · rename_i hr
    simp only [Option.filter_some, decide_eq_true_eq, Option.ite_none_right_eq_some, Option.some.injEq] at h
    obtain ⟨h1, rfl⟩ := h
    refine ⟨⟨by omega, .inl (conv _ ?_ ?_)⟩, h1⟩
    · rw [if_pos (by omega)]; omega
    · rw [if_pos (by omega)]; omega
  · split at h
    · rename_i hr
      simp only [Option.filter_some, decide_eq_true_eq, Option.ite_none_right_eq_some, Option.some.injEq] at h
      obtain ⟨h1, rfl⟩ := h
      refine ⟨⟨by omega, .inl (conv _ ?_ ?_)⟩, h1⟩
      · rw [if_neg (by omega)]; omega
      · rw [if_neg (by omega)]; omega
    · split at h
      · rename_i hr
        simp only [Option.filter_some, decide_eq_true_eq, Option.ite_none_right_eq_some, Option.some.injEq] at h
        obtain ⟨h1, rfl⟩ := h
        refine ⟨⟨by omega, .inr (conv _ ?_ ?_)⟩, h1⟩
        · rw [if_neg (by omega)]; omega
        · rw [if_neg (by omega)]; omega
      · simp at h

theorem digitsOf_inv {base : Nat} (hb : base ≤ 16) (w : Bytes) (v k : Nat) :
    ∃ ds, w = ds ++ (digitsOf base v k w).2.2 ∧ Digits base v ds (digitsOf base v k w).1 ∧
      (digitsOf base v k w).2.1 = k + ds.length := by
  induction w generalizing v k with
  | nil => exact ⟨[], rfl, .nil, rfl⟩
  | cons c w ih =>
    unfold digitsOf
    rcases h : digitOf base c with _ | d
    · exact ⟨[], rfl, .nil, rfl⟩
    · obtain ⟨ds, h1, h2, h3⟩ := ih (v * base + d) (k + 1)
      have hd := digitOf_inv hb h
      refine ⟨c :: ds, ?_, .cons hd.1 hd.2 h2, ?_⟩
      · simp only [List.cons_append]
        rw [← h1]
      · simp only [List.length_cons]
        rw [h3]
        omega

theorem dropWhile_split' {p : UInt8 → Bool} (w : Bytes) : ∃ sp, w = sp ++ w.dropWhile p ∧ ∀ c ∈ sp, p c = true := by
  induction w with
  | nil => exact ⟨[], rfl, by simp⟩
  | cons c w ih =>
    rw [List.dropWhile_cons]
    split
    · obtain ⟨sp, h1, h2⟩ := ih
      refine ⟨c :: sp, by rw [List.cons_append, ← h1], ?_⟩
      intro d hd
      simp only [List.mem_cons] at hd
      rcases hd with rfl | hd
      · assumption
      · exact h2 d hd
    · exact ⟨[], rfl, by simp⟩

theorem signOf_split (w : Bytes) : ∃ sg, w = sg ++ (signOf w).2 ∧ (sg = [] ∨ sg = [43] ∨ sg = [45]) := by
  unfold signOf
  split
  · exact ⟨[43], rfl, .inr (.inl rfl)⟩
  · exact ⟨[45], rfl, .inr (.inr rfl)⟩
  · exact ⟨[], rfl, .inl rfl⟩

theorem strtolMag_inv {w : Bytes} (hl : w.length ≤ 255) (h1 : (strtolMag w).2.1 ≠ 0) (h2 : (strtolMag w).2.2 = []) :
    ∃ n, NumText w n := by
  have oct : ∀ t, (digitsOf 8 0 0 (48 :: t)).2.2 = [] → t.length < 255 → ∃ n, NumText (48 :: t) n := by
    intro t h hl
    have e : digitsOf 8 0 0 (48 :: t) = digitsOf 8 0 1 t := rfl
    rw [e] at h
    obtain ⟨ds, e1, e2, e3⟩ := digitsOf_inv (by decide : 8 ≤ 16) t 0 1
    rw [h, List.append_nil] at e1
    subst e1
    exact ⟨_, .oct e2 (by omega)⟩
  unfold strtolMag at h1 h2
  split at h1
  · rename_i x d rest
    simp only at h1 h2
    split at h1
    · rename_i hx
      rw [if_pos hx] at h2
      simp only [Bool.and_eq_true, Bool.or_eq_true, beq_iff_eq] at hx
      obtain ⟨ds, e1, e2, e3⟩ := digitsOf_inv (by decide : 16 ≤ 16) (d :: rest) 0 0
      rw [h2, List.append_nil] at e1
      rw [e1]
      refine ⟨_, .hex hx.1 e2 ?_ ?_⟩
      · rw [← e1]; simp
      · rw [← e1]; simp at hl ⊢; omega
    · rename_i hx
      rw [if_neg hx] at h2
      exact oct _ h2 (by simp at hl ⊢; omega)
  · rename_i t ht
    have h2 : (digitsOf 8 0 0 (48 :: t)).2.2 = [] := by
      revert h2
      split
      · rename_i heq; simp at heq
        exact absurd (by rw [heq]) (ht _ _ _)
      · exact id
      · rename_i hn; exact absurd rfl (hn _)
    exact oct _ h2 (by simp at hl; omega)
  · rename_i hn1 hn2
    have h2 : (digitsOf 10 0 0 w).2.2 = [] := by
      revert h2
      split
      · exact absurd rfl (hn1 _ _ _)
      · exact absurd rfl (hn2 _)
      · exact id
    obtain ⟨ds, e1, e2, e3⟩ := digitsOf_inv (by decide : 10 ≤ 16) w 0 0
    rw [h2, List.append_nil] at e1
    rw [← e1] at e2 e3
    refine ⟨_, .dec e2 ?_ ?_ hl⟩
    · rintro rfl; apply h1; rfl
    · intro hh
      cases w with
      | nil => simp at hh
      | cons c t =>
        have : c = 48 := by simpa using hh
        subst this
        exact hn2 _ rfl

theorem strtol_inv {w : Bytes} {v : Int} (hl : w.length ≤ 255) (h0 : w ≠ []) (h : strtol w = some v) : NumWord w := by
  obtain ⟨sp, e1, h1⟩ := dropWhile_split' (p := isSpaceC) w
  obtain ⟨sg, e2, h2⟩ := signOf_split (w.dropWhile isSpaceC)
  unfold strtol at h
  simp only at h
  have hlen : (signOf (w.dropWhile isSpaceC)).2.length ≤ 255 := by
    have a1 := congrArg List.length e1
    have a2 := congrArg List.length e2
    simp only [List.length_append] at a1 a2
    omega
  split at h
  · rw [if_neg (by simpa using h0)] at h; simp at h
  · rename_i hn
    split at h
    · rename_i hr
      obtain ⟨n, hn⟩ := strtolMag_inv hlen hn (by simpa using hr)
      refine ⟨sp, sg, _, n, ?_, ?_, h2, hn⟩
      · rw [← e2]; exact e1
      · intro c hc
        have := h1 c hc
        unfold isSpaceC at this
        simp only [Bool.or_eq_true, beq_iff_eq, Bool.and_eq_true, decide_eq_true_eq] at this
        rcases this with rfl | ⟨h3, h4⟩
        · right; rfl
        · left
          exact ⟨h3, h4⟩
    · simp at h

theorem strtol_neg {w : Bytes} {n : Nat} (h : NumText w n) (hn : n < 9223372036854775808) :
    strtol (45 :: w) = some (-(n : Int)) := by
  obtain ⟨h1, h2⟩ := strtolMag_text h
  unfold strtol
  have e : (45 :: w).dropWhile isSpaceC = 45 :: w := rfl
  rw [e]
  have e2 : signOf (45 :: w) = (true, w) := rfl
  rw [e2]
  simp only
  rw [h1]
  simp only
  rw [if_neg h2, if_pos (by rfl)]
  simp only [if_true, Option.some.injEq]
  omega

theorem longToInt_neg {n : Nat} (h0 : 0 < n) (h : n < 2147483648) : longToInt (-(n : Int)) = -(n : Int) := by
  unfold longToInt toInt32
  have : ((-(n : Int)) % 4294967296).toNat = 4294967296 - n := by omega
  rw [this, if_neg (by omega)]
  omega

theorem word_minus {w : Bytes} (h : Word w) (hl : w.length < 255) : Word (45 :: w) := by
  refine ⟨by simp, by simp; omega, ?_, by simp⟩
  intro c hc
  simp only [List.mem_cons] at hc
  rcases hc with rfl | hc
  · unfold BlankC; decide
  · exact h.2.2.1 c hc

end Babel
