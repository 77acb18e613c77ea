import Verif.Lemmas.Main
/-
The numbers of the command line.
-/
set_option linter.unusedSimpArgs false
set_option linter.unusedVariables false
namespace Babel
open Spec

theorem isBlank_or {c : UInt8} : isBlank c = true ↔ c = 32 ∨ c = 9 := by
  unfold isBlank; simp

theorem isSpaceC_iff {c : UInt8} : isSpaceC c = true ↔ c = 32 ∨ 9 ≤ c ∧ c ≤ 13 := by
  unfold isSpaceC; simp

theorem blank_all {t : Bytes} : (t.dropWhile isBlank).isEmpty = true ↔ ∀ c ∈ t, c = 32 ∨ c = 9 := by
  induction t with
  | nil => simp
  | cons c t ih =>
    rw [List.dropWhile_cons]
    by_cases h : isBlank c = true
    · rw [if_pos h, ih]
      simp only [List.mem_cons, forall_eq_or_imp]
      exact ⟨fun e => ⟨isBlank_or.1 h, e⟩, fun e => e.2⟩
    · rw [if_neg h]
      refine ⟨nofun, fun e => absurd (isBlank_or.2 (e c (List.mem_cons_self ..))) h⟩

theorem digitOf_blank {base : Nat} {c : UInt8} (h : c = 32 ∨ c = 9) : digitOf base c = none := by
  rcases h with rfl | rfl <;> rfl

theorem digitsOf_stop {base v : Nat} {w t : Bytes} {n : Nat} (h : Digits base v w n) (ht : ∀ c ∈ t, c = 32 ∨ c = 9) :
    ∀ k, digitsOf base v k (w ++ t) = (n, k + w.length, t) := by
  induction h with
  | nil =>
    intro k
    cases t with
    | nil => rfl
    | cons c t =>
      rw [List.nil_append, digitsOf.eq_2, digitOf_blank (ht c (List.mem_cons_self ..))]
      rfl
  | cons h1 h2 h ih =>
    intro k
    rw [List.cons_append, digitsOf.eq_2, digitOf_isHex h1 h2]
    simp only [ih, List.length_cons]
    congr 2; omega

theorem mag_numeral {w t : Bytes} {n : Nat} (h : Numeral w n) (ht : ∀ c ∈ t, c = 32 ∨ c = 9) :
    ∃ k, strtolMag (w ++ t) = (n, k + 1, t) := by
  cases h with
  | dec h h0 hh =>
    cases w with
    | nil => exact absurd rfl h0
    | cons c w =>
      have e : strtolMag (c :: w ++ t) = digitsOf 10 0 0 (c :: w ++ t) := by
        unfold strtolMag
        split
        · next x d rest e => simp at e; exact absurd (by rw [e.1]; rfl) hh
        · next x e => simp at e; exact absurd (by rw [e.1]; rfl) hh
        · rfl
      rw [e, digitsOf_stop h ht]
      exact ⟨w.length, by simp⟩
  | @oct w n h =>
    have h8 : Digits 8 0 (48 :: w) n := .cons (d := 0) ⟨by decide, .inl (by decide)⟩ (by decide) (by simpa using h)
    have e : strtolMag (48 :: w ++ t) = digitsOf 8 0 0 (48 :: w ++ t) := by
      rw [List.cons_append]
      have hx : ∀ x, (w ++ t).head? = some x → (x == 120 || x == 88) = false := by
        intro x hx
        have : ¬ (x = 120 ∨ x = 88) := by
          cases w with
          | nil =>
            have hm : x ∈ t := List.mem_of_mem_head? hx
            rcases ht x hm with rfl | rfl <;> decide
          | cons y w =>
            have : y = x := by simpa using hx
            subst this
            obtain ⟨k, hk, hk8⟩ := h.hex y (by simp)
            have := isHex_range hk
            rintro (rfl | rfl) <;> simp at this <;> omega
        simpa [not_or] using this
      generalize w ++ t = u at *
      rcases u with _ | ⟨x, _ | ⟨d, u⟩⟩
      · rfl
      · rfl
      · simp only [strtolMag, hx x rfl, Bool.false_and, Bool.false_eq_true, if_false]
    rw [e, digitsOf_stop h8 ht]
    exact ⟨w.length, by simp⟩
  | @hex x w n hx h h0 =>
    rcases w with _ | ⟨d, w⟩
    · exact absurd rfl h0
    · have e : strtolMag (48 :: x :: d :: w ++ t) = digitsOf 16 0 0 (d :: w ++ t) := by
        obtain ⟨k, hk, hk8⟩ := h.hex d (by simp)
        have hx2 : (x == 120 || x == 88) = true := by simpa using hx
        simp only [List.cons_append, strtolMag, hx2, digitOf_isHex hk hk8, Option.isSome_some, Bool.and_self, if_true]
      rw [e, digitsOf_stop h ht]
      exact ⟨w.length, by simp⟩

theorem mag_inv {w : Bytes} (h1 : (strtolMag w).2.1 ≠ 0) : ∃ u, w = u ++ (strtolMag w).2.2 ∧ Numeral u (strtolMag w).1 := by
  have oct : ∀ t, ∃ u, 48 :: t = u ++ (digitsOf 8 0 0 (48 :: t)).2.2 ∧ Numeral u (digitsOf 8 0 0 (48 :: t)).1 := by
    intro t
    have e : digitsOf 8 0 0 (48 :: t) = digitsOf 8 0 1 t := rfl
    rw [e]
    obtain ⟨ds, e1, e2, e3⟩ := digitsOf_inv (by decide : 8 ≤ 16) t 0 1
    exact ⟨48 :: ds, by rw [List.cons_append, ← e1], .oct e2⟩
  rcases w with _ | ⟨c, w⟩
  · exact absurd rfl h1
  · by_cases hc : c = 48
    · subst hc
      rcases w with _ | ⟨x, _ | ⟨d, w⟩⟩
      · exact oct []
      · exact oct [x]
      · by_cases hx : ((x == 120 || x == 88) && (digitOf 16 d).isSome) = true
        · have e : strtolMag (48 :: x :: d :: w) = digitsOf 16 0 0 (d :: w) := by simp only [strtolMag, hx, if_true]
          rw [e]
          obtain ⟨ds, e1, e2, e3⟩ := digitsOf_inv (by decide : 16 ≤ 16) (d :: w) 0 0
          simp only [Bool.and_eq_true, Bool.or_eq_true, beq_iff_eq] at hx
          refine ⟨48 :: x :: ds, by rw [List.cons_append, List.cons_append, ← e1], .hex hx.1 e2 ?_⟩
          rintro rfl
          cases hd : digitOf 16 d with
          | none => rw [hd] at hx; exact absurd hx.2 (by decide)
          | some k =>
            rw [digitsOf.eq_2, hd] at e3
            simp only [List.length_nil] at e3
            obtain ⟨ds', _, _, e4⟩ := digitsOf_inv (by decide : 16 ≤ 16) w (0 * 16 + k) (0 + 1)
            omega
        · have e : strtolMag (48 :: x :: d :: w) = digitsOf 8 0 0 (48 :: x :: d :: w) := by
            simp only [strtolMag, hx, Bool.false_eq_true, if_false]
          rw [e]
          exact oct _
    · have e : strtolMag (c :: w) = digitsOf 10 0 0 (c :: w) := by
        unfold strtolMag
        split
        · next e => injection e with e _; exact absurd e hc
        · next e => injection e with e _; exact absurd e hc
        · rfl
      rw [e] at h1 ⊢
      obtain ⟨ds, e1, e2, e3⟩ := digitsOf_inv (by decide : 10 ≤ 16) (c :: w) 0 0
      refine ⟨ds, e1, .dec e2 ?_ ?_⟩
      · rintro rfl; exact h1 e3
      · cases ds with
        | nil => nofun
        | cons y ds =>
          have : c = y := by rw [List.cons_append] at e1; injection e1
          subst this
          simpa using hc

theorem Spec.Numeral.first {w : Bytes} {n : Nat} (h : Numeral w n) : ∃ c r, w = c :: r ∧ isSpaceC c = false ∧ c ≠ 43 ∧ c ≠ 45 := by
  have key : ∀ c : UInt8, (48 ≤ c.toNat ∧ c.toNat ≤ 120 ∨ c.toNat = 46) → isSpaceC c = false ∧ c ≠ 43 ∧ c ≠ 45 := fun c hc =>
    have := alnum_ok hc
    ⟨this.2.2.2.2.2.2.2, this.2.2.2.2.2.1, this.2.2.2.2.2.2.1⟩
  cases h with
  | dec h h0 hh =>
    cases w with
    | nil => exact absurd rfl h0
    | cons c w =>
      obtain ⟨d, hd, _⟩ := h.hex c (List.mem_cons_self ..)
      exact ⟨c, w, rfl, key c (isHex_alnum hd)⟩
  | oct h => exact ⟨48, _, rfl, by decide⟩
  | hex hx h h0 => exact ⟨48, _, rfl, by decide⟩

theorem signOf_other {c : UInt8} {r : Bytes} (h1 : c ≠ 43) (h2 : c ≠ 45) : signOf (c :: r) = (false, c :: r) := by
  unfold signOf
  split
  · next e => injection e with e _; exact absurd e h1
  · next e => injection e with e _; exact absurd e h2
  · rfl

theorem signOf_inv (w : Bytes) : ∃ sg, w = sg ++ (signOf w).2 ∧ (sg = [] ∧ (signOf w).1 = false ∨ sg = [43] ∧ (signOf w).1 = false ∨ sg = [45] ∧ (signOf w).1 = true) := by
  unfold signOf
  split
  · exact ⟨[43], rfl, .inr (.inl ⟨rfl, rfl⟩)⟩
  · exact ⟨[45], rfl, .inr (.inr ⟨rfl, rfl⟩)⟩
  · exact ⟨[], rfl, .inl ⟨rfl, rfl⟩⟩

theorem parseNat_range (a : Bytes) : -1 ≤ parseNat a ∧ parseNat a ≤ 2147483647 := by
  unfold parseNat
  simp only
  generalize (if (strtolMag (signOf (List.dropWhile isSpaceC a)).2).2.1 = 0 then a else _) = r
  split
  · split <;> omega
  · omega

theorem parseNat_iff (a : Bytes) (n : Nat) : parseNat a = n ↔ NatText a n ∧ n ≤ 2147483647 := by
  constructor
  · intro h
    unfold parseNat at h
    simp only at h
    obtain ⟨sp, e1, hsp⟩ := dropWhile_split' (p := isSpaceC) a
    generalize a.dropWhile isSpaceC = b at *
    obtain ⟨sg, e2, hsg⟩ := signOf_inv b
    generalize signOf b = s at *
    by_cases hk : (strtolMag s.2).2.1 = 0
    · rw [if_pos hk] at h
      split at h
      · next hb =>
        rw [if_neg (by omega)] at h
        have : n = 0 := by omega
        subst this
        exact ⟨.blank (blank_all.1 hb), by omega⟩
      · omega
    · obtain ⟨u, e3, hu⟩ := mag_inv hk
      rw [if_neg hk] at h
      split at h
      · next hb =>
        have hb := blank_all.1 hb
        have hv : (strtolMag s.2).1 = n ∧ n ≤ 2147483647 ∧ (s.1 = true → n = 0) := by
          by_cases hs : s.1 = true
          · rw [if_pos hs] at h
            split at h <;> omega
          · rw [if_neg hs] at h
            refine ⟨?_, ?_, fun e => absurd e hs⟩ <;> split at h <;> omega
        refine ⟨?_, hv.2.1⟩
        rw [e1, e2, e3]
        refine .num (fun c hc => isSpaceC_iff.1 (hsp c hc)) ?_ (hv.1 ▸ hu) hb
        rcases hsg with ⟨g1, g2⟩ | ⟨g1, g2⟩ | ⟨g1, g2⟩
        · exact .inl g1
        · exact .inr (.inl g1)
        · exact .inr (.inr ⟨g1, hv.2.2 g2⟩)
      · omega
  · rintro ⟨h, hn⟩
    cases h with
    | blank hb =>
      have e : strtolMag (signOf (a.dropWhile isSpaceC)).2 = (0, 0, []) := by
        have : a.dropWhile isSpaceC = [] := by
          have := dropWhile_append_of (p := isSpaceC) a [] (fun c hc => isSpaceC_iff.2 ((hb c hc).imp id (by rintro rfl; decide)))
          simpa using this
        rw [this]; rfl
      unfold parseNat
      simp only [e]
      rw [if_pos trivial, if_pos trivial, if_pos (blank_all.2 hb), if_neg (by omega)]
      rfl
    | @num sp sg w t n hsp hsg hw ht =>
      obtain ⟨c, r, rfl, hc1, hc2, hc3⟩ := hw.first
      obtain ⟨k, hk⟩ := mag_numeral hw ht
      have hd : (sp ++ (sg ++ (c :: r ++ t))).dropWhile isSpaceC = sg ++ (c :: r ++ t) := by
        rw [dropWhile_append_of sp _ (fun c hc => isSpaceC_iff.2 (hsp c hc))]
        apply dropWhile_stop
        intro d hd
        rcases hsg with rfl | rfl | ⟨rfl, _⟩
        · have : c = d := by simpa using hd
          subst this; exact hc1
        · have : 43 = d := by simpa using hd
          subst this; decide
        · have : 45 = d := by simpa using hd
          subst this; decide
      have hs : signOf (sg ++ (c :: r ++ t)) = (decide (sg = [45]), c :: r ++ t) := by
        rcases hsg with rfl | rfl | ⟨rfl, _⟩
        · exact signOf_other hc2 hc3
        · rfl
        · rfl
      unfold parseNat
      simp only [hd, hs, hk]
      rw [if_neg (show ¬ k + 1 = 0 by omega), if_pos (blank_all.2 ht), if_neg (show ¬ k + 1 = 0 by omega)]
      rcases hsg with rfl | rfl | ⟨rfl, h0⟩
      · have e : decide (([] : Bytes) = [45]) = false := by decide
        rw [e, if_neg (by decide : ¬ false = true), if_neg (by omega)]; omega
      · have e : decide (([43] : Bytes) = [45]) = false := by decide
        rw [e, if_neg (by decide : ¬ false = true), if_neg (by omega)]; omega
      · have e : decide (([45] : Bytes) = [45]) = true := by decide
        rw [e, if_pos rfl, if_neg (by omega)]; omega

/-! ### Files -/

theorem readFiles_iff (e : FileEnv) (s' : Conf) (fs : List Bytes) : ∀ s : Conf,
    readFiles e s fs = .ok s' ↔ ∃ ts, fs.map e.read = ts.map some ∧ parseFiles e.libc s ts = (s', .ok ()) := by
  induction fs with
  | nil =>
    intro s
    rw [readFiles.eq_1, ok_iff]
    constructor
    · rintro rfl; exact ⟨[], rfl, rfl⟩
    · rintro ⟨ts, h1, h2⟩
      have : ts = [] := by
        cases ts with
        | nil => rfl
        | cons t ts => cases h1
      subst this
      rw [parseFiles.eq_1] at h2
      exact (Prod.mk.injEq .. ▸ h2).1.symm
  | cons f fs ih =>
    intro s
    rw [readFiles.eq_2]
    cases hr : e.read f with
    | none =>
      refine ⟨nofun, ?_⟩
      rintro ⟨ts, h1, _⟩
      cases ts with
      | nil => cases h1
      | cons t ts => rw [List.map_cons, List.map_cons, hr] at h1; injection h1 with h1 _; cases h1
    | some t =>
      simp only
      have key : ∀ ts, (f :: fs).map e.read = ts.map some ↔ ∃ ts', ts = t :: ts' ∧ fs.map e.read = ts'.map some := by
        intro ts
        cases ts with
        | nil =>
          constructor
          · intro h; cases h
          · rintro ⟨_, h, _⟩; cases h
        | cons u ts =>
          rw [List.map_cons, List.map_cons, hr]
          constructor
          · intro h
            injection h with h1 h2
            injection h1 with h1
            exact ⟨ts, by rw [h1], h2⟩
          · rintro ⟨ts', h1, h2⟩
            injection h1 with h3 h4
            subst h3 h4
            rw [h2]
      constructor
      · intro h
        cases hp : parseFile e.libc s t with
        | mk s1 r =>
          rw [hp] at h
          cases r with
          | error x => cases h
          | ok u =>
            obtain ⟨ts, g1, g2⟩ := (ih s1).1 h
            refine ⟨t :: ts, (key _).2 ⟨ts, rfl, g1⟩, ?_⟩
            rw [parseFiles.eq_2, hp]
            exact g2
      · rintro ⟨ts, h1, h2⟩
        obtain ⟨ts', rfl, h3⟩ := (key _).1 h1
        rw [parseFiles.eq_2] at h2
        cases hp : parseFile e.libc s t with
        | mk s1 r =>
          rw [hp] at h2
          cases r with
          | error x => cases h2
          | ok u => exact (ih s1).2 ⟨ts', h3, h2⟩

/-- The configuration files of a command line. -/
def filesOf (e : FileEnv) (fs : List Bytes) : List Bytes :=
  if fs.isEmpty then (if e.access (ascii "/etc/babeld.conf") then [ascii "/etc/babeld.conf"] else []) else fs

theorem startUp_iff (e : FileEnv) (args : List Bytes) (st : Start) : startUp e args = .ok st ↔
    ∃ m s, runOpts e.libc {} (lexArgs none args).1 = .ok m ∧ readFiles e m.conf (filesOf e m.files) = .ok s ∧
      st = ⟨if s.opts.daemonise ∧ s.opts.logFile = none then { s with opts := { s.opts with logFile := some (ascii "/var/log/babeld.log") } } else s, (lexArgs none args).2,
        helloDefault m.wireless, helloDefault m.wired, resendDelayOf (helloDefault m.wireless) (helloDefault m.wired), m.split, m.allWireless⟩ := by
  unfold startUp
  simp only
  rw [exceptBind_ok]
  constructor
  · rintro ⟨m, h1, h2⟩
    obtain ⟨s, h3, h4⟩ := exceptBind_ok.1 h2
    exact ⟨m, s, h1, h3, ok_iff.1 h4⟩
  · rintro ⟨m, s, h1, h2, h3⟩
    exact ⟨m, h1, exceptBind_ok.2 ⟨s, h2, ok_iff.2 h3⟩⟩

theorem decValue_snoc (t : Bytes) (c : UInt8) : decValue (t ++ [c]) = decValue t * 10 + (c.toNat - 48) := by
  unfold decValue
  rw [List.foldl_append]
  rfl

theorem decValue_decDigits (fuel : Nat) : ∀ m, m < 10 ^ fuel → decValue (decDigits fuel m) = m := by
  induction fuel with
  | zero =>
    intro m h
    have : m = 0 := by simpa using h
    subst this; rfl
  | succ fuel ih =>
    intro m h
    unfold decDigits
    split
    · next h10 =>
      have : (UInt8.ofNat (48 + m)).toNat = 48 + m := by simp; omega
      show 0 * 10 + ((UInt8.ofNat (48 + m)).toNat - 48) = m
      omega
    · have : (UInt8.ofNat (48 + m % 10)).toNat = 48 + m % 10 := by simp; omega
      rw [Nat.pow_succ] at h
      rw [decValue_snoc, ih (m / 10) (by omega), this]
      omega

end Babel
