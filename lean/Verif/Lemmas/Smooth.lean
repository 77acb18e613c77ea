import Verif.Model.Kernel
/-
The smoothed metric.
-/
set_option linter.unusedSimpArgs false
set_option linter.unusedVariables false
namespace Babel

theorem roughly_nonneg (r : Nat) (v : Int) (h : 0 ≤ v) :
    v * 3 / 4 ≤ roughly r v ∧ 4 * roughly r v ≤ 5 * v ∧ 0 ≤ roughly r v := by
  unfold roughly
  rw [if_neg (by omega)]
  split
  · omega
  · have h1 := Int.emod_nonneg (r : Int) (show v / 2 ≠ 0 by omega)
    have h2 := Int.emod_lt_of_pos (r : Int) (show 0 < v / 2 by omega)
    omega

theorem roughly_pos_val (r : Nat) (v : Int) (h : 0 ≤ v) :
    roughly r v = if v ≤ 1 then v else v * 3 / 4 + (r : Int) % (v / 2) := by
  unfold roughly
  rw [if_neg (by omega)]

theorem roughly_neg_val (r : Nat) (v : Int) (h : 0 < v) : roughly r (-v) = - roughly r v := by
  rw [roughly_pos_val r v (by omega)]
  unfold roughly
  rw [if_pos (by omega)]
  simp only [Int.neg_neg]
  split <;> rfl

theorem roughly_negate (r : Nat) (v : Int) : roughly r (-v) = - roughly r v := by
  by_cases h : 0 < v
  · exact roughly_neg_val r v h
  · by_cases h0 : v = 0
    · subst h0; rfl
    · have := roughly_neg_val r (-v) (by omega)
      rw [Int.neg_neg] at this
      omega

/-- Factor of the second loop. -/
theorem hl_factor (hl : Nat) (h : 2 ≤ hl) :
    0 ≤ twoToTheOneOverHl hl - 65536 ∧ twoToTheOneOverHl hl - 65536 ≤ 27146 := by
  unfold twoToTheOneOverHl
  split
  · omega
  · omega
  · omega
  · omega
  · omega
  · next n h0 h1 h2 h3 h4 =>
    have : (5 : Int) ≤ (hl : Int) := by
      have : hl ≠ 0 := fun e => h0 e
      have : hl ≠ 1 := fun e => h1 e
      have : hl ≠ 2 := fun e => h2 e
      have : hl ≠ 3 := fun e => h3 e
      have : hl ≠ 4 := fun e => h4 e
      omega
    have h5 : 0 ≤ 45426 / (hl : Int) := Int.ediv_nonneg (by omega) (by omega)
    have h6 : 45426 / (hl : Int) ≤ 45426 / 5 := by
      apply Int.le_of_sub_nonneg
      have h8 : (45426 : Int) / hl ≤ 9085 := by
        apply Int.le_of_lt_add_one
        apply Int.ediv_lt_of_lt_mul (by omega)
        omega
      omega
    omega

/-- The increment moves towards the metric without passing it. -/
theorem smoothInc_pos (hl r m sm : Nat) (whole : Bool) (hw : whole = true ∨ 2 ≤ hl) (h : sm ≤ m) :
    0 ≤ smoothInc hl r m sm whole ∧ smoothInc hl r m sm whole ≤ (m : Int) - sm := by
  unfold smoothInc
  simp only
  obtain ⟨h1, h2, h3⟩ := roughly_nonneg r ((m : Int) - sm) (by omega)
  generalize roughly r ((m : Int) - sm) = x at h1 h2 h3
  split
  · rw [Int.tdiv_eq_ediv_of_nonneg h3]; omega
  · next hf =>
    obtain ⟨f1, f2⟩ := hl_factor hl (by rcases hw with h | h; exact absurd h hf; exact h)
    generalize twoToTheOneOverHl hl - 65536 = F at f1 f2
    have hx : x * F ≤ x * 27146 := Int.mul_le_mul_of_nonneg_left f2 h3
    have hx0 : 0 ≤ x * F := Int.mul_nonneg h3 f1
    rw [Int.tdiv_eq_ediv_of_nonneg hx0]
    omega

theorem smoothInc_neg_eq (hl r m sm : Nat) (whole : Bool) :
    smoothInc hl r m sm whole = - smoothInc hl r sm m whole := by
  unfold smoothInc
  simp only
  have : (m : Int) - sm = -((sm : Int) - m) := by omega
  rw [this, roughly_negate]
  split
  · rw [Int.neg_tdiv]
  · rw [Int.neg_mul, Int.neg_tdiv]

theorem smoothInc_neg (hl r m sm : Nat) (whole : Bool) (hw : whole = true ∨ 2 ≤ hl) (h : m ≤ sm) :
    (m : Int) - sm ≤ smoothInc hl r m sm whole ∧ smoothInc hl r m sm whole ≤ 0 := by
  rw [smoothInc_neg_eq]
  have := smoothInc_pos hl r sm m whole hw h
  omega

/-- A whole half-life removes at least 3/8 of the difference (rounded down). -/
def shrink (d : Nat) : Nat := d - (d * 3 / 4) / 2

theorem shrink_mono {a b : Nat} (h : a ≤ b) : shrink a ≤ shrink b := by unfold shrink; omega

def dist (a b : Nat) : Nat := (a - b) + (b - a)

theorem smoothInc_whole (hl r m sm : Nat) (h : sm ≤ m) :
    (m : Int) - sm - smoothInc hl r m sm true ≤ shrink (m - sm) := by
  unfold smoothInc
  simp only [if_true]
  obtain ⟨h1, h2, h3⟩ := roughly_nonneg r ((m : Int) - sm) (by omega)
  rw [Int.tdiv_eq_ediv_of_nonneg h3]
  unfold shrink
  omega

/-- One iteration. -/
def smoothStep (hl r m sm : Nat) (whole : Bool) : Nat :=
  (((sm : Int) + smoothInc hl r m sm whole) % 65536).toNat

theorem smoothStep_bounds (hl r m sm : Nat) (whole : Bool) (hw : whole = true ∨ 2 ≤ hl)
    (hm : m < 65536) (hs : sm < 65536) :
    min sm m ≤ smoothStep hl r m sm whole ∧ smoothStep hl r m sm whole ≤ max sm m ∧
    (whole = true → dist m (smoothStep hl r m sm whole) ≤ shrink (dist m sm)) := by
  unfold smoothStep
  by_cases h : sm ≤ m
  · have h1 := smoothInc_pos hl r m sm whole hw h
    rw [Int.emod_eq_of_lt (by omega) (by omega)]
    refine ⟨by omega, by omega, fun hw => ?_⟩
    subst hw
    have h2 := smoothInc_whole hl r m sm h
    have : dist m sm = m - sm := by unfold dist; omega
    rw [this]
    unfold dist
    omega
  · have h1 := smoothInc_neg hl r m sm whole hw (by omega)
    rw [Int.emod_eq_of_lt (by omega) (by omega)]
    refine ⟨by omega, by omega, fun hw => ?_⟩
    subst hw
    have h2 := smoothInc_whole hl r sm m (by omega)
    have h3 := smoothInc_neg_eq hl r m sm true
    have : dist m sm = sm - m := by unfold dist; omega
    rw [this]
    unfold dist
    omega

theorem smoothLoop_between (hl m : Nat) (now : Int) (fuel : Nat) (rnd : Nat → Nat) (sm : Nat) (t : Int)
    (hl0 : 1 ≤ hl) (hm : m < 65536) (hs : sm < 65536) :
    min sm m ≤ (smoothLoop hl m now fuel rnd sm t).1 ∧ (smoothLoop hl m now fuel rnd sm t).1 ≤ max sm m := by
  induction fuel generalizing rnd sm t with
  | zero => simp only [smoothLoop]; omega
  | succ f ih =>
    simp only [smoothLoop]
    split
    · have hb := smoothStep_bounds hl (rnd 0) m sm true (.inl rfl) hm hs
      have := ih (fun i => rnd (i + 1)) (smoothStep hl (rnd 0) m sm true) (t + hl) (by omega)
      unfold smoothStep at this hb
      omega
    · next h1 =>
      split
      · have hb := smoothStep_bounds hl (rnd 0) m sm false (.inr (by omega)) hm hs
        have := ih (fun i => rnd (i + 1)) (smoothStep hl (rnd 0) m sm false) (t + 1) (by omega)
        unfold smoothStep at this hb
        omega
      · simp only; omega

theorem smoothLoop_shrinks (hl m : Nat) (now : Int) (fuel : Nat) (rnd : Nat → Nat) (sm : Nat) (t : Int)
    (hl0 : 1 ≤ hl) (hm : m < 65536) (hs : sm < 65536) (j B : Nat) (hB : dist m sm ≤ B)
    (ht : t + j * hl ≤ now) (hj : j ≤ fuel) :
    dist m (smoothLoop hl m now fuel rnd sm t).1 ≤ Nat.repeat shrink j B := by
  induction j generalizing fuel rnd sm t B with
  | zero =>
    have := smoothLoop_between hl m now fuel rnd sm t hl0 hm hs
    simp only [Nat.repeat]
    unfold dist at hB ⊢
    omega
  | succ j ih =>
    obtain ⟨f, rfl⟩ : ∃ f, fuel = f + 1 := ⟨fuel - 1, by omega⟩
    have hmul : ((j + 1 : Nat) : Int) * hl = (j : Int) * hl + hl := by
      rw [Int.natCast_add, Int.add_mul]; simp
    have hpos : (0 : Int) ≤ (j : Int) * hl := Int.mul_nonneg (by omega) (by omega)
    simp only [smoothLoop]
    rw [if_pos (by omega)]
    have hb := smoothStep_bounds hl (rnd 0) m sm true (.inl rfl) hm hs
    have h1 : dist m (smoothStep hl (rnd 0) m sm true) ≤ shrink B :=
      Nat.le_trans (hb.2.2 rfl) (shrink_mono hB)
    have := ih f (fun i => rnd (i + 1)) (smoothStep hl (rnd 0) m sm true) (t + hl)
      (by omega) (shrink B) h1 (by omega) (by omega)
    have e : Nat.repeat shrink (j + 1) B = Nat.repeat shrink j (shrink B) := by
      clear hb h1 this ih ht hj hB hmul hpos
      induction j with
      | zero => rfl
      | succ j ih => show shrink (Nat.repeat shrink (j + 1) B) = shrink (Nat.repeat shrink j (shrink B)); rw [ih]
    rw [e]
    exact this

end Babel
