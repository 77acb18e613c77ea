import Verif.Spec.Report
import Verif.Lemmas.Main2
import Verif.Lemmas.Range
import Verif.Lemmas.Restart
import Verif.Lemmas.Wire3
import Verif.Props.Literals
/-
Lemmas for C79.
-/
set_option linter.unusedSimpArgs false
set_option linter.unusedVariables false
namespace Babel
open Babel.Spec

/-! ### Words -/

/-- No space, no newline. -/
def PlainWord (w : Bytes) : Prop := ∀ c ∈ w, c ≠ 32 ∧ c ≠ 10

theorem splitOn_ne_nil (x : UInt8) (w : Bytes) : splitOn x w ≠ [] := by
  cases w with
  | nil => simp [splitOn]
  | cons c t =>
    unfold splitOn
    split
    · simp
    · split <;> simp

theorem splitOn_word {x : UInt8} {w : Bytes} (h : ∀ c ∈ w, c ≠ x) : splitOn x w = [w] := by
  induction w with
  | nil => rfl
  | cons c t ih =>
    unfold splitOn
    rw [if_neg (h c (by simp)), ih (fun d hd => h d (by simp [hd]))]

theorem splitOn_append {x : UInt8} {w : Bytes} (t : Bytes) (h : ∀ c ∈ w, c ≠ x) :
    splitOn x (w ++ x :: t) = w :: splitOn x t := by
  induction w with
  | nil => simp [splitOn]
  | cons c u ih =>
    rw [List.cons_append, splitOn.eq_2, if_neg (h c (by simp)), ih (fun d hd => h d (by simp [hd]))]

/-- The words of a line with spaces between them. -/
def joinSp : List Bytes → Bytes
  | [] => []
  | [w] => w
  | w :: ws => w ++ 32 :: joinSp ws

theorem splitOn_joinSp {ws : List Bytes} (hne : ws ≠ []) (h : ∀ w ∈ ws, PlainWord w) : splitOn 32 (joinSp ws) = ws := by
  induction ws with
  | nil => exact absurd rfl hne
  | cons w ws ih =>
    have hw : ∀ c ∈ w, c ≠ 32 := fun c hc => (h w (by simp) c hc).1
    cases ws with
    | nil => exact splitOn_word hw
    | cons v vs =>
      rw [joinSp, splitOn_append _ hw, ih (by simp) (fun u hu => h u (by simp at hu ⊢; exact Or.inr hu))]
      simp

theorem joinSp_noNl {ws : List Bytes} (h : ∀ w ∈ ws, PlainWord w) : (10 : UInt8) ∉ joinSp ws := by
  induction ws with
  | nil => simp [joinSp]
  | cons w ws ih =>
    have hw : (10 : UInt8) ∉ w := fun hc => (h w (by simp) 10 hc).2 rfl
    cases ws with
    | nil => simpa [joinSp] using hw
    | cons v vs =>
      rw [joinSp]
      · have := ih (fun u hu => h u (by simp at hu ⊢; exact Or.inr hu))
        simp only [List.mem_append, List.mem_cons, not_or]
        exact ⟨hw, by decide, this⟩
      · simp

theorem readReport_join {a b c : Bytes} {ws : List Bytes} {fs : List (Bytes × Bytes)} (h : ∀ w ∈ a :: b :: c :: ws, PlainWord w)
    (hp : pairs ws = some fs) : readReport (joinSp (a :: b :: c :: ws) ++ [10]) = some ⟨a, b, c, fs⟩ := by
  unfold readReport
  rw [if_pos ⟨by simp, by simpa using joinSp_noNl h⟩, List.dropLast_concat, splitOn_joinSp (by simp) h]
  simp [hp]

/-! ### Numbers -/

theorem decChar_isHex {d : Nat} (h : d < 10) : IsHex (UInt8.ofNat (48 + d)) d :=
  ⟨by omega, Or.inl (by simp [hexDigit, h])⟩

theorem hexChar_isHex {d : Nat} (h : d < 16) : IsHex (hexChar d) d := by
  refine ⟨h, Or.inl ?_⟩
  unfold hexChar hexDigit
  split
  · rfl
  · congr 1; omega

theorem digits_snoc {base v n : Nat} {w : Bytes} (h : Digits base v w n) {c : UInt8} {d : Nat} (hc : IsHex c d)
    (hd : d < base) : Digits base v (w ++ [c]) (n * base + d) := by
  induction h with
  | nil => exact .cons hc hd .nil
  | cons h1 h2 _ ih => exact .cons h1 h2 ih

theorem decDigits_digits (fuel : Nat) : ∀ m, m < 10 ^ fuel → Digits 10 0 (decDigits fuel m) m := by
  induction fuel with
  | zero =>
    intro m h
    have : m = 0 := by simpa using h
    subst this; exact .nil
  | succ fuel ih =>
    intro m h
    unfold decDigits
    split
    · next h10 =>
      have := Digits.cons (base := 10) (v := 0) (decChar_isHex h10) h10 (.nil (v := 0 * 10 + m))
      simpa using this
    · rw [Nat.pow_succ] at h
      have := digits_snoc (ih (m / 10) (by omega)) (decChar_isHex (d := m % 10) (by omega)) (by omega)
      rwa [show m / 10 * 10 + m % 10 = m by omega] at this

theorem hexDigits_digits (fuel : Nat) : ∀ m, m < 16 ^ fuel → Digits 16 0 (hexDigits fuel m) m := by
  induction fuel with
  | zero =>
    intro m h
    have : m = 0 := by simpa using h
    subst this; exact .nil
  | succ fuel ih =>
    intro m h
    unfold hexDigits
    split
    · next h10 =>
      have := Digits.cons (base := 16) (v := 0) (hexChar_isHex h10) h10 (.nil (v := 0 * 16 + m))
      simpa using this
    · rw [Nat.pow_succ] at h
      have := digits_snoc (ih (m / 16) (by omega)) (hexChar_isHex (d := m % 16) (by omega)) (by omega)
      rwa [show m / 16 * 16 + m % 16 = m by omega] at this

theorem hexDigits_length (fuel : Nat) : ∀ m, (hexDigits fuel m).length ≤ fuel := by
  induction fuel with
  | zero => intro m; simp [hexDigits]
  | succ fuel ih =>
    intro m
    unfold hexDigits
    split
    · simp
    · have := ih (m / 16); simp; omega

theorem decDigits_len (fuel : Nat) : ∀ m, (decDigits fuel m).length ≤ fuel := by
  induction fuel with
  | zero => intro m; simp [decDigits]
  | succ fuel ih =>
    intro m
    unfold decDigits
    split
    · simp
    · have := ih (m / 10); simp; omega

theorem decDigits_ne (fuel m : Nat) (h : 0 < fuel) : decDigits fuel m ≠ [] := by
  cases fuel with
  | zero => omega
  | succ f => unfold decDigits; split <;> simp

theorem decDigits_head (fuel : Nat) : ∀ m, 0 < m → m < 10 ^ fuel → (decDigits fuel m).head? ≠ some 48 := by
  induction fuel with
  | zero => intro m h h2; simp at h2; omega
  | succ fuel ih =>
    intro m h h2
    unfold decDigits
    split
    · next h10 =>
      simp only [List.head?_cons, ne_eq, Option.some.injEq]
      intro hc
      have := congrArg UInt8.toNat hc
      simp at this; omega
    · rw [Nat.pow_succ] at h2
      have h3 := ih (m / 10) (by omega) (by omega)
      cases h4 : decDigits fuel (m / 10) with
      | nil =>
        cases fuel with
        | zero => simp at h2; omega
        | succ f => exact absurd h4 (decDigits_ne _ _ (by omega))
      | cons c t => rw [h4] at h3; simpa using h3

theorem decDigits_num (fuel m : Nat) (hf : 0 < fuel) (hl : fuel ≤ 255) (h : m < 10 ^ fuel) : NumText (decDigits fuel m) m := by
  by_cases h0 : m = 0
  · subst h0
    have : decDigits fuel 0 = [48] := by
      cases fuel with
      | zero => omega
      | succ f => rfl
    rw [this]
    exact .oct .nil (by simp)
  · exact .dec (decDigits_digits fuel m h) (decDigits_ne _ _ hf) (decDigits_head fuel m (by omega) h)
      (Nat.le_trans (decDigits_len fuel m) hl)

theorem strtol_dec (fuel m : Nat) (hf : 0 < fuel) (hl : fuel ≤ 18) (h : m < 10 ^ fuel) :
    strtol (decDigits fuel m) = some (m : Int) := by
  have : 10 ^ fuel ≤ 10 ^ 18 := Nat.pow_le_pow_right (by omega) hl
  exact strtol_text (decDigits_num fuel m hf (by omega) h) (by omega)

theorem digit_char {c : UInt8} (h : 48 ≤ c.toNat ∧ c.toNat ≤ 57) : c ≠ 32 ∧ c ≠ 10 ∧ c ≠ 47 ∧ c ≠ 58 ∧ c ≠ 45 := by
  refine ⟨?_, ?_, ?_, ?_, ?_⟩ <;> (rintro rfl; revert h; decide)

theorem hex_char {c : UInt8} {d : Nat} (h : IsHex c d) : c ≠ 32 ∧ c ≠ 10 ∧ c ≠ 47 ∧ c ≠ 58 ∧ c ≠ 45 := by
  have := isHex_range h
  refine ⟨?_, ?_, ?_, ?_, ?_⟩ <;> (rintro rfl; simp at this; omega)

theorem dec_plain (fuel m : Nat) : PlainWord (decDigits fuel m) := fun c hc =>
  have h := digit_char (decDigits_mem fuel m c hc); ⟨h.1, h.2.1⟩

theorem digits_plain {base v n : Nat} {w : Bytes} (h : Digits base v w n) : PlainWord w := fun c hc => by
  obtain ⟨d, hd, _⟩ := h.hex c hc
  exact ⟨(hex_char hd).1, (hex_char hd).2.1⟩

theorem digits_zeros {base n : Nat} (hb : 0 < base) {w : Bytes} (h : Digits base 0 w n) (k : Nat) :
    Digits base 0 (List.replicate k 48 ++ w) n := by
  induction k with
  | zero => exact h
  | succ k ih =>
    rw [List.replicate_succ, List.cons_append]
    refine .cons (d := 0) ⟨by omega, Or.inl rfl⟩ hb ?_
    simpa using ih

theorem hex4_digits {m : Nat} (h : m < 65536) : Digits 16 0 (hex4 m) m :=
  digits_zeros (by omega) (hexDigits_digits 4 m (by omega)) _

theorem hex4_length (m : Nat) : (hex4 m).length = 4 := by
  have := hexDigits_length 4 m
  simp [hex4]; omega

/-! ### Addresses -/

theorem v4tov6_drop {a : Bytes} (hl : a.length = 16) (h : v4mapped a = true) : v4tov6 (a.drop 12) = a := by
  unfold v4mapped at h
  unfold v4tov6
  rw [← eq_of_beq h, List.take_of_length_le (l := a.drop 12) (by simp [hl]), List.take_append_drop]

theorem normalize_self {p : Bytes} {n : Nat} (h : NetOk (p, n)) : normalizePrefix p n = p := by
  obtain ⟨h1, h2, h3⟩ := h
  simp only at h1 h2 h3
  obtain ⟨h4, h5⟩ := C04_normalize_bits p n h1
  have h6 := (C04_normalize_eq_iff (normalizePrefix p n) p 128 h4 h1 (Nat.le_refl _)).2 (by
    intro i hi
    rw [h5 i hi]
    by_cases h : i < n
    · simp [h]
    · simp [h, h3 i (by omega) hi])
  rwa [normalize_full _ h4, normalize_full _ h1] at h6

section
variable {L : Libc} {T : Ntop} (hT : NtopOk L T)
include hT

theorem v4_chars {a : Bytes} (h : a.length = 4) : ∀ c ∈ T.v4 a, c ≠ 32 ∧ c ≠ 10 ∧ c ≠ 47 ∧ c ≠ 45 := fun c hc => by
  rcases hT.chars4 a h c hc with h1 | rfl
  · have := digit_char h1; exact ⟨this.1, this.2.1, this.2.2.1, this.2.2.2.2⟩
  · decide

theorem v6_chars {a : Bytes} (h : a.length = 16) : ∀ c ∈ T.v6 a, c ≠ 32 ∧ c ≠ 10 ∧ c ≠ 47 ∧ c ≠ 45 := fun c hc => by
  rcases hT.chars6 a h c hc with ⟨d, hd⟩ | rfl | rfl
  · have := hex_char hd; exact ⟨this.1, this.2.1, this.2.2.1, this.2.2.2.2⟩
  · decide
  · decide

theorem address_chars {a : Bytes} (h : a.length = 16) : PlainWord (formatAddress T a) := by
  unfold formatAddress
  split
  · intro c hc; have := v4_chars hT (by simp [h]) c hc; exact ⟨this.1, this.2.1⟩
  · intro c hc; have := v6_chars hT h c hc; exact ⟨this.1, this.2.1⟩

theorem address_length {a : Bytes} (h : a.length = 16) : (formatAddress T a).length ≤ 45 := by
  unfold formatAddress
  split
  · have := (hT.len4 (a.drop 12) (by simp [h])).2; omega
  · exact hT.len6 a h

theorem prefix_chars {p : Bytes} {n : Nat} (h : p.length = 16) : ∀ c ∈ formatPrefix T p n, c ≠ 32 ∧ c ≠ 10 ∧ c ≠ 45 := by
  intro c hc
  unfold formatPrefix at hc
  split at hc
  · simp only [List.mem_append, List.mem_cons] at hc
    rcases hc with hc | rfl | hc
    · have := v4_chars hT (by simp [h]) c hc; exact ⟨this.1, this.2.1, this.2.2.2⟩
    · decide
    · have := digit_char (decDigits_mem _ _ c hc); exact ⟨this.1, this.2.1, this.2.2.2.2⟩
  · simp only [List.mem_append, List.mem_cons] at hc
    rcases hc with hc | rfl | hc
    · have := v6_chars hT h c hc; exact ⟨this.1, this.2.1, this.2.2.2⟩
    · decide
    · have := digit_char (decDigits_mem _ _ c hc); exact ⟨this.1, this.2.1, this.2.2.2.2⟩

theorem prefix_plain {p : Bytes} {n : Nat} (h : p.length = 16) : PlainWord (formatPrefix T p n) :=
  fun c hc => have := prefix_chars hT h c hc; ⟨this.1, this.2.1⟩

theorem prefix_length {p : Bytes} {n : Nat} (h : p.length = 16) : (formatPrefix T p n).length ≤ 49 := by
  unfold formatPrefix
  split
  · have := (hT.len4 (p.drop 12) (by simp [h])).2
    have := decDigits_len 3 (n - 96)
    simp; omega
  · have := hT.len6 p h
    have := decDigits_len 3 n
    simp; omega

end

theorem takeWhile_slash {t n : Bytes} (h : ∀ c ∈ t, c ≠ 47) : (t ++ 47 :: n).takeWhile (· != 47) = t := by
  induction t with
  | nil => simp
  | cons c t ih =>
    rw [List.cons_append, List.takeWhile_cons, if_pos (by simpa using h c (by simp)), ih (fun d hd => h d (by simp [hd]))]

theorem dropWhile_slash {t n : Bytes} (h : ∀ c ∈ t, c ≠ 47) : (t ++ 47 :: n).dropWhile (· != 47) = 47 :: n := by
  induction t with
  | nil => simp
  | cons c t ih =>
    rw [List.cons_append, List.dropWhile_cons, if_pos (by simpa using h c (by simp)), ih (fun d hd => h d (by simp [hd]))]

theorem parseNet_slash {L : Libc} {t n : Bytes} (h : ∀ c ∈ t, c ≠ 47) (hl : t.length ≤ 45) :
    parseNet L (t ++ 47 :: n) =
      match L.pton4 t with
      | some a =>
        match strtol n with
        | some plen =>
          if plen < 0 ∨ plen > 32 then none
          else some (normalizePrefix (v4tov6 a) (plen.toNat + 96), plen.toNat + 96, .v4)
        | none => none
      | none =>
        match L.pton6 t with
        | some a =>
          match strtol n with
          | some plen =>
            if plen < 0 ∨ plen > 128 then none
            else some (normalizePrefix a plen.toNat, plen.toNat, .v6)
          | none => none
        | none => none := by
  unfold parseNet
  have h1 : t ++ 47 :: n ≠ ascii "default" := fun he => by
    have h2 : (47 : UInt8) ∈ ascii "default" := by rw [← he]; simp
    revert h2; decide +kernel
  rw [if_neg h1, if_neg (by simp), takeWhile_slash h, dropWhile_slash h]
  simp only [List.drop_succ_cons, List.drop_zero]
  rw [if_neg (by omega)]
  cases L.pton4 t <;> cases L.pton6 t <;> cases strtol n <;> rfl

/-! ### Router-ids -/

theorem hex2_spells (b : UInt8) : Spells (hex2 b) [b] := by
  have h : b.toNat < 256 := b.toNat_lt
  have := Spells.cons (hexChar_isHex (d := b.toNat / 16) (by omega)) (hexChar_isHex (d := b.toNat % 16) (by omega)) .nil
  rwa [show 16 * (b.toNat / 16) + b.toNat % 16 = b.toNat by omega, UInt8.ofNat_toNat] at this

theorem hex2_chars (b : UInt8) : ∀ c ∈ hex2 b, c ≠ 32 ∧ c ≠ 10 ∧ c ≠ 58 := by
  intro c hc
  have h : b.toNat < 256 := b.toNat_lt
  have h2 : ∃ d, IsHex c d := by
    simp only [hex2, List.mem_cons, List.not_mem_nil, or_false] at hc
    rcases hc with rfl | rfl
    · exact ⟨_, hexChar_isHex (by omega)⟩
    · exact ⟨_, hexChar_isHex (by omega)⟩
  obtain ⟨d, hd⟩ := h2
  have := hex_char hd
  exact ⟨this.1, this.2.1, this.2.2.2.1⟩

theorem eui64_split (bs : Bytes) (h : bs ≠ []) : splitOn 58 (formatEui64 bs) = bs.map hex2 := by
  induction bs with
  | nil => exact absurd rfl h
  | cons b bs ih =>
    have hb : ∀ c ∈ hex2 b, c ≠ 58 := fun c hc => (hex2_chars b c hc).2.2
    cases bs with
    | nil => exact splitOn_word hb
    | cons d ds =>
      rw [formatEui64, splitOn_append _ hb, ih (by simp)]
      · rfl
      · simp

theorem eui64_plain (bs : Bytes) : PlainWord (formatEui64 bs) := by
  induction bs with
  | nil => intro c hc; simp [formatEui64] at hc
  | cons b bs ih =>
    intro c hc
    have hb := hex2_chars b
    cases bs with
    | nil => exact ⟨(hb c hc).1, (hb c hc).2.1⟩
    | cons d ds =>
      rw [formatEui64] at hc
      · simp only [List.mem_append, List.mem_cons] at hc
        rcases hc with hc | rfl | hc
        · exact ⟨(hb c hc).1, (hb c hc).2.1⟩
        · decide
        · exact ih c hc
      · simp

theorem eui64_length (bs : Bytes) (h : bs ≠ []) : (formatEui64 bs).length = 3 * bs.length - 1 := by
  induction bs with
  | nil => exact absurd rfl h
  | cons b bs ih =>
    cases bs with
    | nil => rfl
    | cons d ds =>
      rw [formatEui64]
      · have := ih (by simp)
        simp only [List.length_append, List.length_cons, hex2, this, List.length_nil]
        omega
      · simp

/-! ### Thousands -/

theorem thousands_chars (v : Nat) : PlainWord (formatThousands v) := by
  intro c hc
  simp only [formatThousands, List.mem_append, List.mem_cons, List.mem_replicate] at hc
  rcases hc with hc | rfl | ⟨_, rfl⟩ | hc
  · exact dec_plain _ _ c hc
  · decide
  · decide
  · exact dec_plain _ _ c hc

theorem thousands_length (v : Nat) : (formatThousands v).length ≤ 11 := by
  have h1 := decDigits_len 7 (v / 1000)
  have h2 := decDigits_len 3 (v % 1000)
  simp [formatThousands]; omega

theorem decValue_zeros (k : Nat) (w : Bytes) : decValue (List.replicate k 48 ++ w) = decValue w := by
  induction k with
  | zero => rfl
  | succ k ih => rw [List.replicate_succ, List.cons_append, ← ih]; rfl

/-! ### Writing -/

theorem tryWrite_pos {a : WTry} {len : Nat} (hl : 0 < len) : 0 < tryWrite a len ↔ Progress a := by
  unfold tryWrite Progress
  cases h : a.first with
  | sent n => cases n <;> simp; omega
  | fail => simp
  | again =>
    cases h2 : a.ready with
    | false => simp
    | true =>
      cases h3 : a.second with
      | sent n => cases n <;> simp; omega
      | fail => simp
      | again => simp

theorem tryWrite_le (a : WTry) (len : Nat) : tryWrite a len ≤ len := by
  unfold tryWrite
  split
  · omega
  · omega
  · split
    · split <;> omega
    · omega

theorem writeTimeout_spec : ∀ (fuel : Nat) (env : Nat → WTry) (b : Bytes), b.length ≤ fuel →
    (writeTimeout fuel env b).1 <+: b ∧ ((writeTimeout fuel env b).2 = true ↔ (writeTimeout fuel env b).1 = b) := by
  intro fuel
  induction fuel with
  | zero =>
    intro env b h
    have : b = [] := List.length_eq_zero_iff.1 (by omega)
    subst this; simp [writeTimeout]
  | succ fuel ih =>
    intro env b h
    unfold writeTimeout
    by_cases hb : b = []
    · subst hb; simp
    · have hl : 0 < b.length := List.length_pos_iff.2 hb
      rw [if_neg hb]
      simp only
      by_cases hn : tryWrite (env 0) b.length = 0
      · rw [if_pos hn]; simp; exact fun hh => absurd hh.symm (by simpa using hb)
      · rw [if_neg hn]
        obtain ⟨h1, h2⟩ := ih (fun i => env (i + 1)) (b.drop (tryWrite (env 0) b.length)) (by simp; omega)
        constructor
        · have := (List.prefix_append_right_inj (b.take (tryWrite (env 0) b.length))).2 h1
          rwa [List.take_append_drop] at this
        · rw [h2]
          constructor
          · intro h3; rw [h3, List.take_append_drop]
          · intro h3
            have h4 := List.take_append_drop (tryWrite (env 0) b.length) b
            exact List.append_cancel_left (h3.trans h4.symm)

theorem writeTimeout_progress : ∀ (fuel : Nat) (env : Nat → WTry) (b : Bytes), b.length ≤ fuel → (∀ i, Progress (env i)) →
    writeTimeout fuel env b = (b, true) := by
  intro fuel
  induction fuel with
  | zero =>
    intro env b h _
    have : b = [] := List.length_eq_zero_iff.1 (by omega)
    subst this; simp [writeTimeout]
  | succ fuel ih =>
    intro env b h hp
    unfold writeTimeout
    by_cases hb : b = []
    · subst hb; simp
    · have hl : 0 < b.length := List.length_pos_iff.2 hb
      have := (tryWrite_pos hl).2 (hp 0)
      rw [if_neg hb]
      simp only
      rw [if_neg (by omega), ih _ _ (by simp; omega) (fun i => hp (i + 1))]
      simp

end Babel
