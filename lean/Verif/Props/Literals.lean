import Verif.Lemmas.Util
/-
C06: textual numbers.
-/
set_option linter.unusedSimpArgs false

namespace Babel
open Spec

theorem isDigit_iff (c : UInt8) : isDigit c = true ↔ Digit c := by
  unfold isDigit Digit
  simp [UInt8.le_iff_toNat_le]

theorem isBlank_iff (c : UInt8) : isBlank c = true ↔ Blank c := by
  unfold isBlank Blank; simp

/-- The 32-bit digit loop reads the longest run of digits, modulo 2^32. -/
theorem digitLoop_run (ds rest : Bytes) (acc n : Nat) (hd : ∀ c ∈ ds, Digit c)
    (hr : ∀ c, rest.head? = some c → ¬ Digit c) (hacc : acc < 4294967296) :
    digitLoop acc n (ds ++ rest) =
      (u32 (ds.foldl (fun v c => v * 10 + (c.toNat - 48)) acc), n + ds.length, rest) := by
  induction ds generalizing acc n with
  | nil =>
    cases rest with
    | nil => simp [digitLoop, u32, Nat.mod_eq_of_lt hacc]
    | cons c cs =>
      have : ¬ Digit c := hr c rfl
      have : isDigit c = false := by
        cases h : isDigit c
        · rfl
        · exact absurd ((isDigit_iff c).mp h) this
      simp [digitLoop, this, u32, Nat.mod_eq_of_lt hacc]
  | cons d ds ih =>
    have hd' : isDigit d = true := (isDigit_iff d).mpr (hd d (by simp))
    simp only [List.cons_append, digitLoop, hd', if_true, List.foldl_cons, List.length_cons]
    rw [ih _ _ (fun c hc => hd c (by simp [hc])) (by unfold u32; omega)]
    congr 1
    · -- foldl congruent modulo 2^32
      have aux : ∀ (l : Bytes) (x y : Nat), x % 4294967296 = y % 4294967296 →
          u32 (l.foldl (fun v c => v * 10 + (c.toNat - 48)) x) =
          u32 (l.foldl (fun v c => v * 10 + (c.toNat - 48)) y) := by
        intro l
        induction l with
        | nil => intro x y h; simpa [u32] using h
        | cons c l ih => intro x y h; simp only [List.foldl_cons]; apply ih; omega
      apply aux; unfold u32; omega
    · congr 1; omega

theorem scaleDown_eq (fl k : Nat) : scaleDown fl k = fl / 10 ^ k := by
  induction k generalizing fl with
  | zero => simp [scaleDown]
  | succ k ih => simp [scaleDown, ih, Nat.div_div_eq_div_mul, Nat.pow_succ, Nat.mul_comm]

theorem dropWhile_blank (bs rest : Bytes) (hb : ∀ c ∈ bs, Blank c)
    (hr : ∀ c, rest.head? = some c → ¬ Blank c) :
    (bs ++ rest).dropWhile isBlank = rest := by
  induction bs with
  | nil =>
    cases rest with
    | nil => rfl
    | cons c cs =>
      have : isBlank c = false := by
        cases h : isBlank c
        · rfl
        · exact absurd ((isBlank_iff c).mp h) (hr c rfl)
      simp [List.dropWhile_cons, this]
  | cons b bs ih =>
    have : isBlank b = true := (isBlank_iff b).mpr (hb b (by simp))
    simp [List.dropWhile_cons, this, ih (fun c hc => hb c (by simp [hc]))]

theorem decValue_lt (ds : Bytes) (hd : ∀ c ∈ ds, Digit c) : decValue ds < 10 ^ ds.length := by
  have aux : ∀ (l : Bytes) (acc : Nat), (∀ c ∈ l, Digit c) →
      l.foldl (fun v c => v * 10 + (c.toNat - 48)) acc < (acc + 1) * 10 ^ l.length := by
    intro l
    induction l with
    | nil => intro acc _; simp
    | cons c l ih =>
      intro acc h
      have hc := h c (by simp)
      unfold Digit at hc
      have := ih (acc * 10 + (c.toNat - 48)) (fun c hc => h c (by simp [hc]))
      simp only [List.foldl_cons, List.length_cons]
      refine Nat.lt_of_lt_of_le this ?_
      rw [Nat.pow_succ, Nat.mul_comm (10 ^ l.length), ← Nat.mul_assoc]
      apply Nat.mul_le_mul_right
      omega
  have := aux ds 0 hd
  simpa [decValue] using this

theorem not_digit_blank {c : UInt8} (h : Blank c) : ¬ Digit c := by
  intro hd; unfold Digit at hd
  rcases h with rfl | rfl <;> simp at hd

theorem not_blank_digit {c : UInt8} (h : Digit c) : ¬ Blank c := fun hb => not_digit_blank hb h

theorem head_blank_not_digit {b₂ : Bytes} (h₂ : ∀ c ∈ b₂, Blank c) :
    ∀ c, b₂.head? = some c → ¬ Digit c := by
  intro c hc
  cases b₂ with
  | nil => simp at hc
  | cons x xs => simp at hc; subst hc; exact not_digit_blank (h₂ _ (by simp))

theorem dropWhile_all_blank {b₂ : Bytes} (h₂ : ∀ c ∈ b₂, Blank c) :
    b₂.dropWhile isBlank = [] := by
  have := dropWhile_blank b₂ [] h₂ (by simp)
  simpa using this

theorem dot_not_blank : ¬ Blank 46 := by unfold Blank; simp
theorem dot_not_digit : ¬ Digit 46 := by unfold Digit; simp

theorem head_not_blank {ds rest : Bytes} (hd : ∀ c ∈ ds, Digit c)
    (hr : ∀ c, rest.head? = some c → ¬ Blank c) :
    ∀ c, (ds ++ rest).head? = some c → ¬ Blank c := by
  cases ds with
  | nil => simpa using hr
  | cons d ds => intro c hc; simp at hc; subst hc; exact not_blank_digit (hd _ (by simp))

/-! ### C06 -/

/-- C06: an integer literal (at least one digit, or blanks only on its right) surrounded by
blanks is read as 1000 times its value, if that fits an `int`. -/
theorem C06_thousands_integer_partial (b₁ ds b₂ : Bytes) (h₁ : ∀ c ∈ b₁, Blank c)
    (hd : ∀ c ∈ ds, Digit c) (hne : ds ≠ []) (h₂ : ∀ c ∈ b₂, Blank c)
    (hv : 1000 * decValue ds ≤ 2147483647) :
    parseThousands (b₁ ++ (ds ++ b₂)) = 1000 * decValue ds := by
  unfold parseThousands
  have hh : ∀ c, (ds ++ b₂).head? = some c → ¬ Blank c := by
    cases ds with
    | nil => exact absurd rfl hne
    | cons d ds => intro c hc; simp at hc; subst hc; exact not_blank_digit (hd _ (by simp))
  simp only [dropWhile_blank b₁ (ds ++ b₂) h₁ hh,
    digitLoop_run ds b₂ 0 0 hd (head_blank_not_digit h₂) (by omega)]
  have e : fracPart b₂ = (0, b₂) := by
    unfold fracPart
    split
    · exact absurd (h₂ 46 (by simp)) dot_not_blank
    · rfl
  rw [e]
  simp only [dropWhile_all_blank h₂, if_true]
  change toInt32 (u32 (u32 (u32 (decValue ds) * 1000) + 0)) = _
  unfold toInt32 u32
  split <;> omega

example : parseThousands [32, 52, 50, 9] = 42000 := by decide

/-- C06: a fixed-point literal with at most 9 fractional digits is read as its value in
thousandths, rounded down.  (Partial: at most 9 fractional digits and a value that fits an
`int`; see the counterexample below.) -/
theorem C06_thousands_fixed_partial (b₁ ds fs b₂ : Bytes) (h₁ : ∀ c ∈ b₁, Blank c)
    (hd : ∀ c ∈ ds, Digit c) (hf : ∀ c ∈ fs, Digit c) (h₂ : ∀ c ∈ b₂, Blank c)
    (hfl : fs.length ≤ 9) (hv : 1000 * decValue ds + 1000 ≤ 2147483647) :
    parseThousands (b₁ ++ (ds ++ (46 :: (fs ++ b₂)))) =
      1000 * decValue ds + (1000 * decValue fs / 10 ^ fs.length : Nat) := by
  unfold parseThousands
  have hh := head_not_blank (ds := ds) (rest := 46 :: (fs ++ b₂)) hd
    (by intro c hc; simp at hc; subst hc; exact dot_not_blank)
  have hh2 : ∀ c, (46 :: (fs ++ b₂)).head? = some c → ¬ Digit c := by
    intro c hc; simp at hc; subst hc; exact dot_not_digit
  simp only [dropWhile_blank b₁ _ h₁ hh, digitLoop_run ds _ 0 0 hd hh2 (by omega), fracPart,
    digitLoop_run fs b₂ 0 0 hf (head_blank_not_digit h₂) (by omega),
    dropWhile_all_blank h₂, if_true, scaleDown_eq]
  change toInt32 (u32 (u32 (u32 (decValue ds) * 1000) +
    scaleUp (u32 (decValue fs) / 10 ^ (0 + fs.length - 3)) (3 - (0 + fs.length)))) = _
  have hlt := decValue_lt fs hf
  have hlt9 : decValue fs < 1000000000 :=
    Nat.lt_of_lt_of_le hlt (Nat.pow_le_pow_right (n := 10) (by omega) hfl)
  have e1 : u32 (decValue fs) = decValue fs := by unfold u32; omega
  rw [e1, Nat.zero_add]
  have key : scaleUp (decValue fs / 10 ^ (fs.length - 3)) (3 - fs.length) =
      1000 * decValue fs / 10 ^ fs.length ∧ 1000 * decValue fs / 10 ^ fs.length < 1000 := by
    constructor
    · rcases Nat.lt_or_ge fs.length 3 with h | h
      · have : fs.length = 0 ∨ fs.length = 1 ∨ fs.length = 2 := by omega
        rcases this with h | h | h <;> rw [h] at hlt ⊢ <;> simp [scaleUp, u32] at hlt ⊢ <;> omega
      · have : 3 - fs.length = 0 := by omega
        rw [this]
        simp only [scaleUp]
        have : (10 : Nat) ^ fs.length = 1000 * 10 ^ (fs.length - 3) := by
          have : fs.length = (fs.length - 3) + 3 := by omega
          conv => lhs; rw [this, Nat.pow_add]
          omega
        rw [this, Nat.mul_div_mul_left _ _ (by omega)]
    · rw [Nat.div_lt_iff_lt_mul (Nat.pow_pos (by omega))]
      omega
  rw [key.1]
  have := key.2
  generalize 1000 * decValue fs / 10 ^ fs.length = q at *
  unfold toInt32 u32
  split <;> omega

/-- "42.1337" is read as 42133 and ".5" as 500. -/
example : parseThousands [52, 50, 46, 49, 51, 51, 55] = 42133 ∧ parseThousands [46, 53] = 500 := by
  decide

/-- C06 is false of the code for long fractions: "0.5000000000" (ten fractional digits) is read
as 0.070, because the fraction is accumulated in 32 bits. -/
theorem C06_thousands_long_fraction_false :
    ∃ fs : Bytes, (∀ c ∈ fs, Digit c) ∧ 1000 * decValue fs / 10 ^ fs.length = 500 ∧
      parseThousands ([48, 46] ++ fs) = 70 := by
  refine ⟨[53, 48, 48, 48, 48, 48, 48, 48, 48, 48], ?_, by decide, by decide⟩
  unfold Digit; decide

theorem digitLoop_split (s : Bytes) (acc n : Nat) :
    ∃ ds, s = ds ++ (digitLoop acc n s).2.2 ∧ ∀ c ∈ ds, Digit c := by
  induction s generalizing acc n with
  | nil => exact ⟨[], by simp [digitLoop]⟩
  | cons c cs ih =>
    unfold digitLoop
    split
    · rename_i h
      obtain ⟨ds, h1, h2⟩ := ih (u32 (acc * 10 + (c.toNat - 48))) (n + 1)
      refine ⟨c :: ds, ?_, ?_⟩
      · rw [List.cons_append, ← h1]
      · intro x hx
        rcases List.mem_cons.mp hx with rfl | hx
        · exact (isDigit_iff _).mp h
        · exact h2 x hx
    · exact ⟨[], by simp⟩

theorem dropWhile_split (s : Bytes) : ∃ bs, s = bs ++ s.dropWhile isBlank ∧ ∀ c ∈ bs, Blank c := by
  induction s with
  | nil => exact ⟨[], by simp⟩
  | cons c cs ih =>
    rw [List.dropWhile_cons]
    split
    · rename_i h
      obtain ⟨bs, h1, h2⟩ := ih
      refine ⟨c :: bs, ?_, ?_⟩
      · rw [List.cons_append, ← h1]
      · intro x hx
        rcases List.mem_cons.mp hx with rfl | hx
        · exact (isBlank_iff _).mp h
        · exact h2 x hx
    · exact ⟨[], by simp⟩

/-- C06: anything that is not blanks, digits, optional fraction, blanks is refused. -/
theorem C06_thousands_reject (s : Bytes) (h : parseThousands s ≠ -1) :
    ∃ b₁ ds tail b₂, s = b₁ ++ (ds ++ (tail ++ b₂)) ∧ (∀ c ∈ b₁, Blank c) ∧ (∀ c ∈ ds, Digit c) ∧
      (∀ c ∈ b₂, Blank c) ∧ (tail = [] ∨ ∃ fs, tail = 46 :: fs ∧ ∀ c ∈ fs, Digit c) := by
  unfold parseThousands at h
  obtain ⟨b₁, e1, hb1⟩ := dropWhile_split s
  obtain ⟨ds, e2, hds⟩ := digitLoop_split (s.dropWhile isBlank) 0 0
  simp only at h
  generalize s.dropWhile isBlank = s1 at *
  generalize (digitLoop 0 0 s1).2.2 = s2 at *
  have hfrac : ∃ tail, s2 = tail ++ (fracPart s2).2 ∧
      (tail = [] ∨ ∃ fs, tail = 46 :: fs ∧ ∀ c ∈ fs, Digit c) := by
    unfold fracPart
    split
    · rename_i s'
      obtain ⟨fs, e3, hfs⟩ := digitLoop_split s' 0 0
      refine ⟨46 :: fs, ?_, Or.inr ⟨fs, rfl, hfs⟩⟩
      simp only [List.cons_append, ← e3]
    · exact ⟨[], by simp⟩
  obtain ⟨tail, e3, ht⟩ := hfrac
  generalize (fracPart s2).2 = s3 at *
  obtain ⟨b₂, e4, hb2⟩ := dropWhile_split s3
  split at h
  · rename_i h0
    rw [h0, List.append_nil] at e4
    exact ⟨b₁, ds, tail, b₂, by rw [e1, e2, e3, e4], hb1, hds, hb2, ht⟩
  · exact absurd rfl h

example : parseThousands [49, 46, 50, 46] = -1 ∧ parseThousands [120] = -1 := by decide

theorem h2i_iff (c : UInt8) (n : Nat) : h2i c = some n ↔ IsHex c n := by
  have key : ∀ k < 256, ∀ n < 16, h2i (UInt8.ofNat k) = some n ↔
      (UInt8.ofNat k = hexDigit n ∨ UInt8.ofNat k = hexDigitU n) := by decide +kernel
  have bound : ∀ k < 256, ∀ n, h2i (UInt8.ofNat k) = some n → n < 16 := by
    have : ∀ k < 256, (h2i (UInt8.ofNat k)).all (· < 16) := by decide +kernel
    intro k hk n hn
    have := this k hk
    rw [hn] at this
    simpa using this
  have hc : UInt8.ofNat c.toNat = c := by simp
  have hl := c.toNat_lt
  unfold IsHex
  constructor
  · intro h
    have b := bound c.toNat (by omega) n (by rw [hc]; exact h)
    refine ⟨b, ?_⟩
    have := (key c.toNat (by omega) n b).mp (by rw [hc]; exact h)
    rwa [hc] at this
  · intro ⟨b, h⟩
    have := (key c.toNat (by omega) n b).mpr (by rw [hc]; exact h)
    rwa [hc] at this

/-- C06: `fromhex` succeeds exactly on strings that spell bytes, and returns these bytes. -/
theorem C06_fromhex_iff (s bs : Bytes) : fromhex s = some bs ↔ Spells s bs := by
  constructor
  · intro h
    induction s using fromhex.induct generalizing bs with
    | case1 => simp [fromhex] at h; subst h; exact .nil
    | case2 c => simp [fromhex] at h
    | case3 a b rest ha => simp [fromhex, ha] at h
    | case4 a b rest x hx hb => simp [fromhex, hx, hb] at h
    | case5 a b rest x hx y hy hr ih => simp [fromhex, hx, hy, hr] at h
    | case6 a b rest x hx y hy r hr ih =>
      simp [fromhex, hx, hy, hr] at h
      subst h
      have : UInt8.ofNat x * 16 + UInt8.ofNat y = UInt8.ofNat (16 * x + y) := by
        rw [UInt8.ofNat_add, UInt8.ofNat_mul, UInt8.mul_comm]; rfl
      rw [this]
      exact .cons ((h2i_iff _ _).mp hx) ((h2i_iff _ _).mp hy) (ih _ hr)
  · intro h
    induction h with
    | nil => rfl
    | cons hc hd _ ih =>
      simp [fromhex, (h2i_iff _ _).mpr hc, (h2i_iff _ _).mpr hd, ih, Nat.mul_comm]

example : fromhex [48, 102, 65, 48] = some [15, 160] ∧ fromhex [48, 103] = none ∧
    fromhex [48] = none := by decide

end Babel
