import Verif.Spec.Config
import Verif.Props.Literals
import Verif.Props.Prefix
/-
Lexical analysis of the configuration language.
-/
set_option linter.unusedSimpArgs false
set_option linter.unusedVariables false
namespace Babel
open Spec

/-- The text starts with white space, a comment or a newline, or is empty. -/
def Stop (r : Bytes) : Prop := ∀ c, r.head? = some c → wordChar c = false

theorem isWs_iff {c : UInt8} : isWs c = true ↔ BlankC c := by
  unfold isWs BlankC
  simp [Bool.or_eq_true, or_assoc]

theorem wordChar_iff {c : UInt8} : wordChar c = true ↔ ¬ BlankC c ∧ c ≠ 10 ∧ c ≠ 35 := by
  unfold wordChar BlankC
  simp [not_or, and_assoc]

theorem dropWhile_append_of {p : UInt8 → Bool} (g r : Bytes) (hg : ∀ c ∈ g, p c = true) :
    (g ++ r).dropWhile p = r.dropWhile p := by
  induction g with
  | nil => rfl
  | cons c g ih =>
    rw [List.cons_append, List.dropWhile_cons, if_pos (hg c (by simp))]
    exact ih (fun d hd => hg d (by simp [hd]))

theorem dropWhile_stop {p : UInt8 → Bool} (r : Bytes) (hr : ∀ c, r.head? = some c → p c = false) :
    r.dropWhile p = r := by
  cases r with
  | nil => rfl
  | cons c r => rw [List.dropWhile_cons, if_neg (by simp [hr c rfl])]

theorem takeWhile_append_stop {p : UInt8 → Bool} (g r : Bytes) (hg : ∀ c ∈ g, p c = true)
    (hr : ∀ c, r.head? = some c → p c = false) : (g ++ r).takeWhile p = g := by
  induction g with
  | nil =>
    cases r with
    | nil => rfl
    | cons c r => rw [List.nil_append, List.takeWhile_cons, if_neg (by simp [hr c rfl])]
  | cons c g ih =>
    rw [List.cons_append, List.takeWhile_cons, if_pos (hg c (by simp)), ih (fun d hd => hg d (by simp [hd]))]

theorem skipWs_append (g r : Bytes) (hg : ∀ c ∈ g, BlankC c) : skipWs (g ++ r) = skipWs r :=
  dropWhile_append_of g r fun c hc => isWs_iff.2 (hg c hc)

theorem skipWs_word (r : Bytes) (hr : ∀ c, r.head? = some c → ¬ BlankC c) : skipWs r = r :=
  dropWhile_stop r fun c hc => by
    rcases hb : isWs c with _ | _
    · rfl
    · exact absurd (isWs_iff.1 hb) (hr c hc)

theorem cstr_id (w : Bytes) (h : ∀ c ∈ w, c ≠ 0) : cstr w = w := by
  unfold cstr
  have := takeWhile_append_stop (p := (· != 0)) w [] (by simpa using h) (by simp)
  simpa using this

theorem Spec.Word.cons {w : Bytes} (h : Word w) : ∃ c t, w = c :: t ∧ c ≠ 34 ∧ wordChar c = true ∧
    (∀ d ∈ t, wordChar d = true) ∧ (∀ d ∈ w, d ≠ 0) := by
  obtain ⟨h0, hl, hc, hq⟩ := h
  cases w with
  | nil => exact absurd rfl h0
  | cons c t =>
    refine ⟨c, t, rfl, fun h => hq (by simp [h]), ?_, ?_, fun d hd => (hc d hd).2.2.2⟩
    · exact wordChar_iff.2 ⟨(hc c (by simp)).1, (hc c (by simp)).2.1, (hc c (by simp)).2.2.1⟩
    · intro d hd
      exact wordChar_iff.2 ⟨(hc d (by simp [hd])).1, (hc d (by simp [hd])).2.1, (hc d (by simp [hd])).2.2.1⟩

theorem skipWs_lexeme (g w r : Bytes) (hg : ∀ c ∈ g, BlankC c) (hw : Word w) :
    skipWs (g ++ (w ++ r)) = w ++ r := by
  rw [skipWs_append _ _ hg]
  obtain ⟨c, t, rfl, h1, h2, h3, h4⟩ := hw.cons
  exact skipWs_word _ (by intro d hd; simp at hd; subst hd; exact (wordChar_iff.1 h2).1)

theorem atEol_word {w : Bytes} (r : Bytes) (hw : Word w) : atEol (w ++ r) = false := by
  obtain ⟨c, t, rfl, h1, h2, h3, h4⟩ := hw.cons
  have := (wordChar_iff.1 h2).2
  simp [atEol, this]

theorem getword_text (g w r : Bytes) (hg : ∀ c ∈ g, BlankC c) (hw : Word w) (hr : Stop r) :
    getword (g ++ (w ++ r)) = .ok (w, r) := by
  unfold getword
  simp only [skipWs_lexeme g w r hg hw, atEol_word r hw, Bool.false_eq_true, if_false]
  have hl := hw.2.1
  obtain ⟨c, t, rfl, h1, h2, h3, h4⟩ := hw.cons
  simp only [List.cons_append]
  rw [takeWhile_append_stop t r h3 hr, if_neg (by simpa using h1)]
  rw [if_neg (by omega), cstr_id _ h4, dropWhile_append_of t r h3, dropWhile_stop r hr]

theorem getword_word (w r : Bytes) (hw : Word w) (hr : Stop r) : getword (w ++ r) = .ok (w, r) :=
  getword_text [] w r (by simp) hw hr

theorem Spec.Gap.stop {g : Bytes} (h : Gap g) (r : Bytes) : Stop (g ++ r) := by
  intro c hc
  cases g with
  | nil => exact absurd rfl h.1
  | cons d g =>
    simp at hc
    subst hc
    have := h.2 d (by simp)
    rcases hw : wordChar d with _ | _
    · rfl
    · exact absurd this (wordChar_iff.1 hw).1

/-! ### The end of a line -/

theorem Spec.Ends.stop {e rest : Bytes} (h : Ends e rest) : Stop (e ++ rest) := by
  obtain ⟨ws, cm, h1, h2, h3⟩ := h
  intro c hc
  rcases hw : wordChar c with _ | _
  · rfl
  · exfalso
    have hw := wordChar_iff.1 hw
    rcases ws with _ | ⟨d, ws⟩
    · rcases h2 with rfl | ⟨x, rfl, hx⟩
      · rcases h3 with rfl | ⟨rfl, rfl⟩
        · simp at hc; exact hw.2.1 hc.symm
        · simp at hc
      · rcases h3 with rfl | ⟨rfl, rfl⟩ <;> simp at hc <;> exact hw.2.2 hc.symm
    · have : d = c := by rcases h3 with rfl | ⟨rfl, rfl⟩ <;> simpa using hc
      subst this
      exact hw.1 (h1 d (by simp))

theorem Spec.Ends.skip {e rest : Bytes} (h : Ends e rest) :
    atEol (skipWs (e ++ rest)) = true ∧ skipToEol (skipWs (e ++ rest)) = rest := by
  obtain ⟨ws, cm, h1, h2, h3⟩ := h
  have hnl : ∀ x : Bytes, 10 ∉ x → ∀ c ∈ x, (c != 10) = true := by
    intro x hx c hc
    simp only [bne_iff_ne, ne_eq]
    rintro rfl; exact hx hc
  rcases h3 with rfl | ⟨rfl, rfl⟩
  · rw [List.append_assoc, List.append_assoc, skipWs_append _ _ h1]
    rcases h2 with rfl | ⟨x, rfl, hx⟩
    · simp [skipWs, isWs, atEol, skipToEol]
    · have : skipWs (35 :: x ++ ([10] ++ rest)) = 35 :: x ++ ([10] ++ rest) :=
        skipWs_word _ (by intro c hc; simp at hc; subst hc; unfold BlankC; decide)
      rw [this]
      refine ⟨by simp [atEol], ?_⟩
      unfold skipToEol
      rw [dropWhile_append_of _ _ (by
        intro c hc
        simp only [List.mem_cons] at hc
        rcases hc with rfl | hc
        · decide
        · exact hnl x hx c hc)]
      simp
  · rw [List.append_assoc, skipWs_append _ _ h1]
    rcases h2 with rfl | ⟨x, rfl, hx⟩
    · simp [skipWs, atEol, skipToEol]
    · have : skipWs (35 :: x ++ []) = 35 :: x ++ [] :=
        skipWs_word _ (by intro c hc; simp at hc; subst hc; unfold BlankC; decide)
      rw [this]
      refine ⟨by simp [atEol], ?_⟩
      unfold skipToEol
      rw [dropWhile_append_of _ _ (by
        intro c hc
        simp only [List.mem_cons] at hc
        rcases hc with rfl | hc
        · decide
        · exact hnl x hx c hc)]
      simp

theorem Spec.Ends.skipEol {e rest : Bytes} (h : Ends e rest) : skipEol (e ++ rest) = .ok rest := by
  unfold Babel.skipEol
  simp [h.skip.1, h.skip.2]

/-! ### Strings -/

theorem Spec.Quoted.noNul {q s : Bytes} (h : Quoted q s) : ∀ c ∈ s, c ≠ 0 := by
  induction h with
  | nil => simp
  | plain h1 h2 h3 h4 h ih =>
    intro c hc
    simp only [List.mem_cons] at hc
    rcases hc with rfl | hc
    · exact h4
    · exact ih c hc
  | escaped h4 h ih =>
    intro c hc
    simp only [List.mem_cons] at hc
    rcases hc with rfl | hc
    · exact h4
    · exact ih c hc

theorem quoted_text {q s : Bytes} (h : Quoted q s) (i : Nat) (r : Bytes) (hl : i + s.length ≤ 254) :
    quoted i (q ++ (34 :: r)) = .ok (s, r) := by
  induction h generalizing i with
  | nil =>
    unfold quoted
    have h1 : ¬ (i ≥ 255) := by simp at hl; omega
    simp [h1]
  | @plain c q s h1 h2 h3 h4 h ih =>
    simp only [List.length_cons] at hl
    rw [List.cons_append]
    unfold quoted
    have h5 : ¬ (i ≥ 255) := by omega
    simp [h5, h1, h2, h3, ih (i + 1) (by omega)]
    rfl
  | @escaped c q s h4 h ih =>
    simp only [List.length_cons] at hl
    rw [List.cons_append, List.cons_append]
    unfold quoted
    have h5 : ¬ (i ≥ 255) := by omega
    simp [h5, ih (i + 1) (by omega)]
    rfl

theorem getstring_text (g w s r : Bytes) (hg : ∀ c ∈ g, BlankC c) (hw : StrText w s) (hr : Stop r) :
    getstring (g ++ (w ++ r)) = .ok (s, r) := by
  cases hw with
  | bare hw =>
    unfold getstring
    simp only [skipWs_lexeme g w r hg hw, atEol_word r hw, Bool.false_eq_true, if_false]
    have : (w ++ r).head? ≠ some 34 := by
      obtain ⟨c, t, rfl, h1, h2, h3, h4⟩ := hw.cons
      simpa using h1
    rw [if_pos this]
    exact getword_word w r hw hr
  | @quoted q s hq hl =>
    unfold getstring
    have e : skipWs (g ++ (34 :: (q ++ [34]) ++ r)) = 34 :: (q ++ (34 :: r)) := by
      rw [skipWs_append _ _ hg]
      rw [skipWs_word _ (by intro c hc; simp at hc; subst hc; unfold BlankC; decide)]
      simp
    simp only [e]
    rw [if_neg (by simp [atEol]), if_neg (by simp)]
    simp only [List.drop_succ_cons, List.drop_zero, quoted_text hq 0 r (by omega)]
    show Except.ok (cstr s, r) = _
    rw [cstr_id _ hq.noNul]

/-! ### Numbers -/

theorem isHex_range {c : UInt8} {d : Nat} (h : IsHex c d) :
    (c.toNat = 48 + d ∧ d < 10) ∨ (c.toNat = 87 + d ∧ 10 ≤ d ∧ d < 16) ∨ (c.toNat = 55 + d ∧ 10 ≤ d ∧ d < 16) := by
  obtain ⟨h1, h⟩ := h
  rcases h with rfl | rfl
  · unfold hexDigit
    by_cases hd : d < 10
    · left; simp [hd, UInt8.toNat_ofNat]; omega
    · right; left; simp [hd, UInt8.toNat_ofNat]; omega
  · unfold hexDigitU
    by_cases hd : d < 10
    · left; simp [hd, UInt8.toNat_ofNat]; omega
    · right; right; simp [hd, UInt8.toNat_ofNat]; omega

theorem digitOf_isHex {c : UInt8} {d base : Nat} (h : IsHex c d) (hb : d < base) :
    digitOf base c = some d := by
  unfold digitOf
  rcases isHex_range h with ⟨h1, h2⟩ | ⟨h1, h2, h3⟩ | ⟨h1, h2, h3⟩
  · have : 48 ≤ c.toNat ∧ c.toNat ≤ 57 := by omega
    simp only [this, and_self, if_true]
    rw [show c.toNat - 48 = d by omega]
    simp [hb]
  · have h4 : ¬ (48 ≤ c.toNat ∧ c.toNat ≤ 57) := by omega
    have : 97 ≤ c.toNat ∧ c.toNat ≤ 122 := by omega
    simp only [h4, this, and_self, if_true, if_false]
    rw [show c.toNat - 97 + 10 = d by omega]
    simp [hb]
  · have h4 : ¬ (48 ≤ c.toNat ∧ c.toNat ≤ 57) := by omega
    have h5 : ¬ (97 ≤ c.toNat ∧ c.toNat ≤ 122) := by omega
    have : 65 ≤ c.toNat ∧ c.toNat ≤ 90 := by omega
    simp only [h4, h5, this, and_self, if_true, if_false]
    rw [show c.toNat - 65 + 10 = d by omega]
    simp [hb]

theorem digitsOf_text {base v : Nat} {w : Bytes} {n : Nat} (h : Digits base v w n) (k : Nat) :
    digitsOf base v k w = (n, k + w.length, []) := by
  induction h generalizing k with
  | nil => simp [digitsOf]
  | cons h1 h2 h ih =>
    rw [digitsOf.eq_2, digitOf_isHex h1 h2]
    simp only [ih, List.length_cons]
    congr 2; omega

theorem Spec.Digits.hex {base v : Nat} {w : Bytes} {n : Nat} (h : Digits base v w n) :
    ∀ c ∈ w, ∃ d, IsHex c d ∧ d < base := by
  induction h with
  | nil => simp
  | @cons v c d w n h1 h2 h ih =>
    intro x hx
    simp only [List.mem_cons] at hx
    rcases hx with rfl | hx
    · exact ⟨d, h1, h2⟩
    · exact ih x hx

/-- Letters and digits. -/
theorem alnum_ok {c : UInt8} (h : 48 ≤ c.toNat ∧ c.toNat ≤ 120 ∨ c.toNat = 46) :
    ¬ BlankC c ∧ c ≠ 10 ∧ c ≠ 35 ∧ c ≠ 0 ∧ c ≠ 34 ∧ c ≠ 43 ∧ c ≠ 45 ∧ isSpaceC c = false := by
  have hn : ∀ d : UInt8, c = d → c.toNat = d.toNat := fun d h => congrArg _ h
  refine ⟨?_, ?_, ?_, ?_, ?_, ?_, ?_, ?_⟩
  · rintro (h1 | h1 | h1) <;> have := hn _ h1 <;> simp at this <;> omega
  · intro h1; have := hn _ h1; simp at this; omega
  · intro h1; have := hn _ h1; simp at this; omega
  · intro h1; have := hn _ h1; simp at this; omega
  · intro h1; have := hn _ h1; simp at this; omega
  · intro h1; have := hn _ h1; simp at this; omega
  · intro h1; have := hn _ h1; simp at this; omega
  · unfold isSpaceC
    have h1 : (c == 32) = false := by
      simp only [beq_eq_false_iff_ne, ne_eq]
      intro h1; have := hn _ h1; simp at this; omega
    have h2 : (decide (9 ≤ c) && decide (c ≤ 13)) = false := by
      simp only [Bool.and_eq_false_imp, decide_eq_true_eq, decide_eq_false_iff_not, UInt8.le_iff_toNat_le]
      intro _; simp; omega
    simp only [h1, h2, Bool.or_false]

theorem isHex_alnum {c : UInt8} {d : Nat} (h : IsHex c d) : 48 ≤ c.toNat ∧ c.toNat ≤ 120 ∨ c.toNat = 46 := by
  rcases isHex_range h with ⟨h1, h2⟩ | ⟨h1, h2, h3⟩ | ⟨h1, h2, h3⟩ <;> omega

theorem word_of_alnum {w : Bytes} (h0 : w ≠ []) (hl : w.length ≤ 255)
    (h : ∀ c ∈ w, 48 ≤ c.toNat ∧ c.toNat ≤ 120 ∨ c.toNat = 46) : Word w := by
  refine ⟨h0, hl, fun c hc => ?_, ?_⟩
  · have := alnum_ok (h c hc); exact ⟨this.1, this.2.1, this.2.2.1, this.2.2.2.1⟩
  · cases w with
    | nil => simp
    | cons c w =>
      have := alnum_ok (h c (by simp))
      simp only [List.head?_cons, ne_eq, Option.some.injEq]
      exact this.2.2.2.2.1

theorem Spec.NumText.alnum {w : Bytes} {n : Nat} (h : NumText w n) :
    ∀ c ∈ w, 48 ≤ c.toNat ∧ c.toNat ≤ 120 ∨ c.toNat = 46 := by
  cases h with
  | dec h _ _ _ => intro c hc; obtain ⟨d, hd, _⟩ := h.hex c hc; exact isHex_alnum hd
  | oct h _ =>
    intro c hc
    simp only [List.mem_cons] at hc
    rcases hc with rfl | hc
    · left; decide
    · obtain ⟨d, hd, _⟩ := h.hex c hc; exact isHex_alnum hd
  | hex hx h _ _ =>
    intro c hc
    simp only [List.mem_cons] at hc
    rcases hc with rfl | rfl | hc
    · left; decide
    · left; rcases hx with rfl | rfl <;> decide
    · obtain ⟨d, hd, _⟩ := h.hex c hc; exact isHex_alnum hd

theorem Spec.NumText.word {w : Bytes} {n : Nat} (h : NumText w n) : Word w := by
  refine word_of_alnum ?_ ?_ h.alnum
  · cases h <;> simp_all
  · cases h <;> simp_all <;> omega

theorem strtolMag_text {w : Bytes} {n : Nat} (h : NumText w n) : strtolMag w = (n, (strtolMag w).2.1, []) ∧
    (strtolMag w).2.1 ≠ 0 := by
  cases h with
  | dec h h0 hh hl =>
    have e : strtolMag w = digitsOf 10 0 0 w := by
      unfold strtolMag
      split <;> simp_all
    rw [e, digitsOf_text h]
    refine ⟨rfl, ?_⟩
    cases w <;> simp_all
  | @oct w n h hl =>
    have h8 : Digits 8 0 (48 :: w) n := .cons (d := 0) ⟨by decide, .inl (by decide)⟩ (by decide) (by simpa using h)
    have e : strtolMag (48 :: w) = digitsOf 8 0 0 (48 :: w) := by
      rcases w with _ | ⟨x, _ | ⟨d, w⟩⟩
      · rfl
      · rfl
      · have hx : ¬ (x = 120 ∨ x = 88) := by
          obtain ⟨k, hk, hk8⟩ := h.hex x (by simp)
          have := isHex_range hk
          rintro (rfl | rfl) <;> simp at this <;> omega
        have hx2 : (x == 120 || x == 88) = false := by
          simpa [not_or] using hx
        simp only [strtolMag, hx2, Bool.false_and, Bool.false_eq_true, if_false]
    rw [e, digitsOf_text h8]
    exact ⟨rfl, by simp⟩
  | @hex x w n hx h h0 hl =>
    rcases w with _ | ⟨d, w⟩
    · exact absurd rfl h0
    · have e : strtolMag (48 :: x :: d :: w) = digitsOf 16 0 0 (d :: w) := by
        obtain ⟨k, hk, hk8⟩ := h.hex d (by simp)
        have hx2 : (x == 120 || x == 88) = true := by simpa using hx
        simp only [strtolMag, hx2, digitOf_isHex hk hk8, Option.isSome_some, Bool.and_self, if_true]
      rw [e, digitsOf_text h]
      exact ⟨rfl, by simp⟩

theorem strtol_text {w : Bytes} {n : Nat} (h : NumText w n) (hn : n < 9223372036854775808) :
    strtol w = some (n : Int) := by
  obtain ⟨h1, h2⟩ := strtolMag_text h
  have ha := h.alnum
  have h0 := h.word.1
  unfold strtol
  rcases w with _ | ⟨c, w⟩
  · exact absurd rfl h0
  · have hc := alnum_ok (ha c (by simp))
    have e : (c :: w).dropWhile isSpaceC = c :: w := dropWhile_stop _ (by intro d hd; simp at hd; subst hd; exact hc.2.2.2.2.2.2.2)
    rw [e]
    have e2 : signOf (c :: w) = (false, c :: w) := by
      unfold signOf
      split
      · rename_i t he; injection he with he _; exact absurd he hc.2.2.2.2.2.1
      · rename_i t he; injection he with he _; exact absurd he hc.2.2.2.2.2.2.1
      · rfl
    rw [e2]
    simp only
    rw [h1]
    simp only
    rw [if_neg h2]
    simp only [List.isEmpty_nil, if_true, Bool.false_eq_true, if_false, Option.some.injEq]
    omega

theorem longToInt_of {n : Nat} (h : n < 2147483648) : longToInt n = n := by
  unfold longToInt toInt32
  have : ((n : Int) % 4294967296).toNat = n := by omega
  rw [this, if_pos h]

theorem getint_text {g w r : Bytes} {n : Nat} (hg : ∀ c ∈ g, BlankC c) (hw : NumText w n)
    (hn : n < 2147483648) (hr : Stop r) : getint (g ++ (w ++ r)) = .ok ((n : Int), r) := by
  unfold getint
  rw [getword_text g w r hg hw.word hr]
  show (match strtol w with
    | some i => Except.ok (longToInt i, r)
    | none => Except.error Fail.bad) = _
  rw [strtol_text hw (by omega)]
  simp only [longToInt_of hn]

theorem Spec.ThouText.word {w : Bytes} {n : Nat} (h : ThouText w n) : Word w := by
  have hd : ∀ c : UInt8, Digit c → 48 ≤ c.toNat ∧ c.toNat ≤ 120 ∨ c.toNat = 46 := by
    intro c h; unfold Digit at h; omega
  cases h with
  | int h0 h hl => exact word_of_alnum h0 hl fun c hc => hd c (h c hc)
  | frac h1 h2 hl hm =>
    refine word_of_alnum (by simp) (by simp; omega) fun c hc => ?_
    simp only [List.mem_append, List.mem_cons] at hc
    rcases hc with hc | rfl | hc
    · exact hd c (h1 c hc)
    · right; decide
    · exact hd c (h2 c hc)

theorem getthousands_text {g w r : Bytes} {n : Nat} (hg : ∀ c ∈ g, BlankC c) (hw : ThouText w n)
    (hn : n ≤ 2147482000) (hr : Stop r) : getthousands (g ++ (w ++ r)) = .ok (n, r) := by
  unfold getthousands
  rw [getword_text g w r hg hw.word hr]
  have e : parseThousands w = n := by
    cases hw with
    | @int ds h0 h hl =>
      have := C06_thousands_integer_partial [] w [] (by simp) h h0 (by simp) (by omega)
      simpa using this
    | @frac ds fs h1 h2 hl hm =>
      have h3 : 1000 * decValue ds ≤ 1000 * decValue ds + 1000 * decValue fs / 10 ^ fs.length := Nat.le_add_right _ _
      have := C06_thousands_fixed_partial [] ds fs [] (by simp) h1 h2 (by simp) hl (by omega)
      rw [show ds ++ 46 :: fs = [] ++ (ds ++ 46 :: (fs ++ [])) by simp, this]
      generalize 1000 * decValue fs / 10 ^ fs.length = z
      omega
  show (if parseThousands w < 0 then Except.error Fail.bad else Except.ok ((parseThousands w).toNat, r)) = _
  rw [e, if_neg (by omega)]
  rfl

/-! ### Keywords -/

theorem word_ascii_bool {w : Bytes} {v : Nat} (h : BoolText w v) : Word w := by
  cases h <;> (unfold Word BlankC; decide)

theorem word_ascii_type {w : Bytes} {v : Nat} (h : TypeText w v) : Word w := by
  cases h <;> (unfold Word BlankC; decide)

theorem getbool_text {g w r : Bytes} {v : Nat} (hg : ∀ c ∈ g, BlankC c) (hw : BoolText w v) (hr : Stop r) :
    getbool (g ++ (w ++ r)) = .ok (v, r) := by
  unfold getbool
  rw [getword_text g w r hg (word_ascii_bool hw) hr]
  cases hw <;> rfl

theorem getIfType_text {g w r : Bytes} {v : Nat} (hg : ∀ c ∈ g, BlankC c) (hw : TypeText w v) (hr : Stop r) :
    getIfType (g ++ (w ++ r)) = .ok (v, r) := by
  unfold getIfType
  rw [getword_text g w r hg (word_ascii_type hw) hr]
  cases hw <;> rfl

/-! ### Addresses -/

theorem v4tov6_eq (a : Bytes) (h : a.length = 4) : v4tov6 a = mapped a := by
  unfold v4tov6 mapped v4prefix
  rw [List.take_of_length_le (by omega : a.length ≤ 4)]
  rfl

theorem Spec.AddrText.length {L : Libc} (hL : LibcOk L) {w a : Bytes} {af : Af} (h : AddrText L w a af) :
    a.length = 16 := by
  cases h with
  | @v4 a h => have := hL.1 _ _ h; simp [mapped, this]
  | v6 _ h => exact hL.2.1 _ _ h

theorem parseAddress_text {L : Libc} (hL : LibcOk L) {w a : Bytes} {af : Af} (h : AddrText L w a af) :
    parseAddress L w = some (a, af) := by
  unfold parseAddress
  cases h with
  | v4 h => rw [h]; simp only [v4tov6_eq _ (hL.1 _ _ h)]
  | v6 h h2 => rw [h, h2]

theorem masked_unique {a p : Bytes} {n : Nat} (ha : a.length = 16) (h : Masked a n p) :
    normalizePrefix a n = p := by
  obtain ⟨h1, h2, h3⟩ := h
  obtain ⟨h4, h5⟩ := C04_normalize_bits a n ha
  apply bits_ext h4 h1
  intro i hi
  rw [h5 i hi]
  by_cases hin : i < n
  · simp [hin, h2 i hin]
  · simp [hin, h3 i (by omega) hi]

theorem Spec.NetText.length {L : Libc} (hL : LibcOk L) {w p : Bytes} {n : Nat} {af : Af} (h : NetText L w p n af) :
    p.length = 16 ∧ n ≤ 128 := by
  cases h with
  | any => simp
  | host h1 h2 h => exact ⟨h.length hL, by omega⟩
  | net4 h1 h2 h3 h4 h5 h6 => exact ⟨h6.1, by omega⟩
  | net6 h1 h2 h3 h4 h5 h6 => exact ⟨h6.1, by omega⟩

theorem slash_split {b t : Bytes} (h : 47 ∉ b) :
    (b ++ 47 :: t).takeWhile (· != 47) = b ∧ ((b ++ 47 :: t).dropWhile (· != 47)).drop 1 = t ∧
    (b ++ 47 :: t).contains 47 = true ∧ b ++ 47 :: t ≠ ascii "default" := by
  have hb : ∀ c ∈ b, (c != 47) = true := by
    intro c hc; simp only [bne_iff_ne, ne_eq]; rintro rfl; exact h hc
  refine ⟨takeWhile_append_stop b _ hb (by simp), ?_, by simp, ?_⟩
  · rw [dropWhile_append_of b _ hb]; simp
  · intro e
    have : (47 : UInt8) ∈ ascii "default" := by rw [← e]; simp
    revert this; decide

theorem parseNet_text {L : Libc} (hL : LibcOk L) {w p : Bytes} {n : Nat} {af : Af} (h : NetText L w p n af) :
    parseNet L w = some (p, n, af) := by
  unfold parseNet
  cases h with
  | any => rfl
  | host h1 h2 h =>
    rw [if_neg h1, if_pos (by simpa using h2), parseAddress_text hL h]
    have := h.length hL
    simp only [normalizePrefix]
    rw [if_pos (by omega), List.take_of_length_le (by omega)]
  | @net4 b a t n p h1 h2 h3 h4 h5 h6 =>
    obtain ⟨e1, e2, e3, e4⟩ := slash_split (t := t) h1
    have hl := h3.length hL
    rw [if_neg e4, if_neg (by rw [e3]; simp), e1, e2]
    dsimp only
    rw [if_neg (by omega)]
    cases h3 with
    | @v4 a' h3 =>
      rw [h3, strtol_text h4 (by omega)]
      simp only
      rw [if_neg (by omega), v4tov6_eq _ (hL.1 _ _ h3), Int.toNat_natCast, masked_unique hl h6]
  | @net6 b a t n p h1 h2 h3 h4 h5 h6 =>
    obtain ⟨e1, e2, e3, e4⟩ := slash_split (t := t) h1
    have hl := h3.length hL
    rw [if_neg e4, if_neg (by rw [e3]; simp), e1, e2]
    dsimp only
    rw [if_neg (by omega)]
    cases h3 with
    | v6 h3 h7 =>
      rw [h3, h7, strtol_text h4 (by omega)]
      simp only
      rw [if_neg (by omega), Int.toNat_natCast, masked_unique hl h6]

theorem getip_text {L : Libc} (hL : LibcOk L) {g w r a : Bytes} {af : Af} (hg : ∀ c ∈ g, BlankC c) (hw : Word w)
    (h : AddrText L w a af) (hr : Stop r) : getip L (g ++ (w ++ r)) = .ok ((a, af), r) := by
  unfold getip
  rw [getword_text g w r hg hw hr]
  show (match parseAddress L w with
    | some x => Except.ok (x, r)
    | none => Except.error Fail.bad) = _
  rw [parseAddress_text hL h]

theorem getnet_text {L : Libc} (hL : LibcOk L) {g w r p : Bytes} {n : Nat} {af : Af} (hg : ∀ c ∈ g, BlankC c)
    (hw : Word w) (h : NetText L w p n af) (hr : Stop r) : getnet L (g ++ (w ++ r)) = .ok ((p, n, af), r) := by
  unfold getnet
  rw [getword_text g w r hg hw hr]
  show (match parseNet L w with
    | some x => Except.ok (x, r)
    | none => Except.error Fail.bad) = _
  rw [parseNet_text hL h]

theorem getid_text {L : Libc} {g w r a : Bytes} (hg : ∀ c ∈ g, BlankC c) (hw : Word w)
    (h : L.eui64 w = some a) (hr : Stop r) : getid L (g ++ (w ++ r)) = .ok (a, r) := by
  unfold getid
  rw [getword_text g w r hg hw hr]
  show (match L.eui64 w with
    | some x => Except.ok (x, r)
    | none => Except.error Fail.bad) = _
  rw [h]

theorem gethex_text {g w r v : Bytes} (hg : ∀ c ∈ g, BlankC c) (hw : Word w)
    (h : Spells w v) (hr : Stop r) : gethex (g ++ (w ++ r)) = .ok (v, r) := by
  unfold gethex
  rw [getword_text g w r hg hw hr]
  show (match fromhex w with
    | some x => Except.ok (x, r)
    | none => Except.error Fail.bad) = _
  rw [(C06_fromhex_iff w v).2 h]

end Babel
