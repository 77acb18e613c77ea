import Verif.Spec.Table
set_option linter.unusedSimpArgs false
set_option linter.unusedVariables false
set_option linter.unusedSectionVars false
/- Helper lemmas: total orders, binary search, insertion and removal. -/
namespace Babel
open Spec

theorem memcmp_eq_iff (a b : Bytes) : memcmp a b = .eq ↔ a = b := by
  induction a generalizing b with
  | nil => cases b <;> simp [memcmp]
  | cons x xs ih =>
    cases b with
    | nil => simp [memcmp]
    | cons y ys =>
      simp only [memcmp]
      by_cases h1 : x < y
      · simp only [h1, if_true]
        constructor
        · intro h; cases h
        · intro h; cases h; simp at h1
      · by_cases h2 : y < x
        · simp only [h1, h2, if_true, if_false]
          constructor
          · intro h; cases h
          · intro h; cases h; simp at h2
        · have : x = y := by
            apply UInt8.toNat_inj.mp
            rw [UInt8.lt_iff_toNat_lt] at h1 h2; omega
          subst this
          simp [ih]

theorem memcmp_swap (a b : Bytes) : memcmp b a = (memcmp a b).swap := by
  induction a generalizing b with
  | nil => cases b <;> simp [memcmp]
  | cons x xs ih =>
    cases b with
    | nil => simp [memcmp]
    | cons y ys =>
      simp only [memcmp]
      by_cases h1 : x < y
      · have h2 : ¬ y < x := by rw [UInt8.lt_iff_toNat_lt] at *; omega
        simp [h1, h2]
      · by_cases h2 : y < x
        · simp [h1, h2]
        · simp [h1, h2, ih]

theorem memcmp_trans (a b c : Bytes) : memcmp a b = .lt → memcmp b c = .lt → memcmp a c = .lt := by
  induction a generalizing b c with
  | nil =>
    cases b <;> cases c <;> simp [memcmp]
  | cons x xs ih =>
    cases b with
    | nil => simp [memcmp]
    | cons y ys =>
      cases c with
      | nil => simp [memcmp]
      | cons z zs =>
        simp only [memcmp, UInt8.lt_iff_toNat_lt]
        by_cases h1 : x.toNat < y.toNat
        · by_cases h2 : y.toNat < z.toNat
          · have : x.toNat < z.toNat := by omega
            simp [h1, h2, this]
          · by_cases h3 : z.toNat < y.toNat
            · simp [h2, h3]
            · have : x.toNat < z.toNat := by omega
              simp [this]
        · by_cases h1' : y.toNat < x.toNat
          · simp [h1, h1']
          · by_cases h2 : y.toNat < z.toNat
            · have : x.toNat < z.toNat := by omega
              simp [this]
            · by_cases h3 : z.toNat < y.toNat
              · simp [h2, h3]
              · have e1 : ¬ x.toNat < z.toNat := by omega
                have e2 : ¬ z.toNat < x.toNat := by omega
                simp only [h1, h1', h2, h3, e1, e2, if_false]
                exact ih ys zs

theorem memcmp_order : TotalOrder memcmp := ⟨memcmp_eq_iff, memcmp_swap, memcmp_trans⟩

theorem cmpNat_order : TotalOrder cmpNat := by
  refine ⟨?_, ?_, ?_⟩ <;> intro a b <;> unfold cmpNat
  · by_cases h : a < b
    · simp [h]; omega
    · by_cases h' : a > b
      · simp [h, h']; omega
      · simp [h, h']; omega
  · by_cases h : a < b
    · have : ¬ b < a := by omega
      simp [h, this]
    · by_cases h' : b < a <;> simp [h, h']
  · intro c
    split <;> split <;> split <;> simp_all <;> omega

theorem Spec.TotalOrder.rfl' {cmp : κ → κ → Ordering} (h : TotalOrder cmp) (a : κ) : cmp a a = .eq :=
  (h.eq_iff a a).2 rfl

theorem Spec.TotalOrder.gt_iff {cmp : κ → κ → Ordering} (h : TotalOrder cmp) (a b : κ) :
    cmp a b = .gt ↔ cmp b a = .lt := by
  rw [h.swap a b]; cases cmp a b <;> simp

/-- Lexicographic combination of two orders. -/
theorem Spec.TotalOrder.lex {c1 : κ → κ → Ordering} {c2 : μ → μ → Ordering} {cmp : τ → τ → Ordering}
    (h1 : TotalOrder c1) (h2 : TotalOrder c2) (f : τ → κ) (g : τ → μ)
    (inj : ∀ a b, f a = f b → g a = g b → a = b)
    (hc : ∀ a b, cmp a b = (c1 (f a) (f b)).then (c2 (g a) (g b))) : TotalOrder cmp := by
  refine ⟨?_, ?_, ?_⟩
  · intro a b
    rw [hc, Ordering.then_eq_eq, h1.eq_iff, h2.eq_iff]
    constructor
    · rintro ⟨h, h'⟩; exact inj a b h h'
    · rintro rfl; exact ⟨rfl, rfl⟩
  · intro a b
    rw [hc, hc, h1.swap (f a) (f b), h2.swap (g a) (g b), Ordering.swap_then]
  · intro a b c
    rw [hc, hc, hc]
    simp only [Ordering.then_eq_lt]
    rintro (h | ⟨h, h'⟩) (k | ⟨k, k'⟩)
    · exact Or.inl (h1.trans _ _ _ h k)
    · rw [h1.eq_iff] at k; rw [← k]; exact Or.inl h
    · rw [h1.eq_iff] at h; rw [h]; exact Or.inl k
    · rw [h1.eq_iff] at h k
      refine Or.inr ⟨?_, h2.trans _ _ _ h' k'⟩
      rw [h, k]; exact h1.rfl' _

theorem pairOrder {c1 : κ → κ → Ordering} {c2 : μ → μ → Ordering}
    (h1 : TotalOrder c1) (h2 : TotalOrder c2) :
    TotalOrder (fun (a b : κ × μ) => (c1 a.1 b.1).then (c2 a.2 b.2)) :=
  TotalOrder.lex h1 h2 (·.1) (·.2) (fun a b h h' => Prod.ext h h') (fun _ _ => rfl)

theorem Spec.TotalOrder.comap {c1 : κ → κ → Ordering} (h : TotalOrder c1) (f : τ → κ)
    (inj : ∀ a b, f a = f b → a = b) : TotalOrder (fun a b => c1 (f a) (f b)) :=
  ⟨fun a b => by rw [h.eq_iff]; exact ⟨inj a b, fun e => by rw [e]⟩,
   fun a b => h.swap _ _, fun a b c => h.trans _ _ _⟩

theorem xrouteCompare_order : TotalOrder xrouteCompare :=
  (pairOrder cmpNat_order (pairOrder memcmp_order (pairOrder cmpNat_order memcmp_order))).comap
    (fun k : PKey => (k.plen, k.prefix_, k.srcPlen, k.srcPrefix))
    (fun a b h => by cases a; cases b; simp_all)

theorem sourceCompare_order : TotalOrder sourceCompare :=
  (pairOrder memcmp_order (pairOrder cmpNat_order (pairOrder memcmp_order
    (pairOrder cmpNat_order memcmp_order)))).comap
    (fun k : SKey => (k.id, k.key.plen, k.key.prefix_, k.key.srcPlen, k.key.srcPrefix))
    (fun a b h => by cases a with | mk i k => cases b with | mk j l => cases k; cases l; simp_all)

/-- The part of a key `route_compare` looks at. -/
def slotKey (k : PKey) : PKey :=
  if k.isSS then k else ⟨k.prefix_, k.plen, [], 0⟩

theorem routeCompare_refl (a : PKey) : routeCompare a a = .eq := by
  unfold routeCompare
  cases h : a.isSS <;> simp [memcmp_order.rfl', cmpNat_order.rfl']

theorem routeCompare_eq_iff (a b : PKey) : routeCompare a b = .eq ↔
    a.isSS = b.isSS ∧ a.prefix_ = b.prefix_ ∧ a.plen = b.plen ∧
      (a.isSS = true → a.srcPrefix = b.srcPrefix ∧ a.srcPlen = b.srcPlen) := by
  unfold routeCompare
  cases ha : a.isSS <;> cases hb : b.isSS <;>
    simp [Ordering.then_eq_eq, memcmp_eq_iff, cmpNat_order.eq_iff]

theorem routeCompare_swap (a b : PKey) : routeCompare b a = (routeCompare a b).swap := by
  unfold routeCompare
  cases ha : a.isSS <;> cases hb : b.isSS <;>
    simp [Ordering.swap_then, memcmp_swap a.prefix_ b.prefix_,
      memcmp_swap a.srcPrefix b.srcPrefix, cmpNat_order.swap a.plen b.plen,
      cmpNat_order.swap a.srcPlen b.srcPlen]

theorem routeCompare_trans (a b c : PKey) :
    routeCompare a b = .lt → routeCompare b c = .lt → routeCompare a c = .lt := by
  unfold routeCompare
  cases ha : a.isSS <;> cases hb : b.isSS <;> cases hc : c.isSS <;> simp <;> intro h1 h2
  · have := (pairOrder memcmp_order cmpNat_order).trans (a.prefix_, a.plen) (b.prefix_, b.plen)
      (c.prefix_, c.plen)
    simp [Ordering.then_eq_lt] at this h1 h2 ⊢
    exact this h1 h2
  · have := (pairOrder memcmp_order (pairOrder cmpNat_order
      (pairOrder memcmp_order cmpNat_order))).trans
      (a.prefix_, a.plen, a.srcPrefix, a.srcPlen) (b.prefix_, b.plen, b.srcPrefix, b.srcPlen)
      (c.prefix_, c.plen, c.srcPrefix, c.srcPlen)
    simp [Ordering.then_eq_lt] at this h1 h2 ⊢
    exact this h1 h2

/-- On canonical keys `route_compare` distinguishes exactly different keys. -/
theorem routeCompare_canonical {a b : PKey} (ha : Canonical a) (hb : Canonical b) :
    routeCompare a b = .eq ↔ a = b := by
  constructor
  · intro h
    obtain ⟨h1, h2, h3, h4⟩ := (routeCompare_eq_iff a b).1 h
    cases hs : a.isSS with
    | true =>
      obtain ⟨h5, h6⟩ := h4 hs
      cases a; cases b; simp_all
    | false =>
      have da : isDefault a.srcPrefix a.srcPlen = true := by simpa [PKey.isSS] using hs
      have db : isDefault b.srcPrefix b.srcPlen = true := by
        rw [hs] at h1; simpa [PKey.isSS] using h1.symm
      have qa := ha da
      have qb := hb db
      cases a with
      | mk p1 n1 sp1 sn1 =>
        cases b with
        | mk p2 n2 sp2 sn2 =>
          simp only at h2 h3 qa qb
          subst h2; subst h3
          by_cases hv : v4mapped p1 = true
          · rw [if_pos hv] at qa qb
            rw [qa.1, qa.2, qb.1, qb.2]
          · rw [if_neg hv] at qa qb
            rw [qa.1, qa.2, qb.1, qb.2]
  · rintro rfl; exact routeCompare_refl a

/-! ### Binary search -/

/-- `c` is the comparison of a key with a sorted table of `n` entries. -/
structure Mono (n : Nat) (c : Nat → Ordering) : Prop where
  below : ∀ i j, i < j → j < n → c j ≠ .lt → c i = .gt
  above : ∀ i j, i < j → j < n → c i ≠ .gt → c j = .lt

theorem bsLoop_found (c : Nat → Ordering) (p g : Int) (i : Nat) (hp : 0 ≤ p)
    (h : bsLoop c p g = .found i) : c i = .eq ∧ (i : Int) ≤ g ∧ p ≤ i := by
  induction p, g using bsLoop.induct c with
  | case1 p g hle m hc =>
    rw [bsLoop, dif_pos hle] at h
    simp only [m] at hc
    simp only [hc, Slot.found.injEq] at h
    subst h
    refine ⟨hc, ?_, ?_⟩ <;> omega
  | case2 p g hle m hc ih =>
    rw [bsLoop, dif_pos hle] at h
    simp only [m] at hc ih
    simp only [hc] at h
    obtain ⟨h1, h2, h3⟩ := ih hp h
    exact ⟨h1, by omega, by omega⟩
  | case3 p g hle m hc ih =>
    rw [bsLoop, dif_pos hle] at h
    simp only [m] at hc ih
    simp only [hc] at h
    obtain ⟨h1, h2, h3⟩ := ih (by omega) h
    exact ⟨h1, by omega, by omega⟩
  | case4 p g hle =>
    rw [bsLoop, dif_neg hle] at h
    cases h

theorem bsLoop_missing (n : Nat) (c : Nat → Ordering) (p g : Int) (k : Nat) (hp : 0 ≤ p)
    (hpg : p ≤ g + 1) (hg : g < n)
    (mono : Mono n c)
    (lo : ∀ i : Nat, (i : Int) < p → c i = .gt)
    (hi : ∀ i : Nat, g < (i : Int) → i < n → c i = .lt)
    (h : bsLoop c p g = .missing k) :
    k ≤ n ∧ (∀ i, i < k → c i = .gt) ∧ (∀ i, k ≤ i → i < n → c i = .lt) := by
  induction p, g using bsLoop.induct c with
  | case1 p g hle m hc =>
    rw [bsLoop, dif_pos hle] at h
    simp only [m] at hc
    simp only [hc] at h
    cases h
  | case2 p g hle m hc ih =>
    rw [bsLoop, dif_pos hle] at h
    simp only [m] at hc ih
    simp only [hc] at h
    refine ih hp (by omega) (by omega) lo ?_ h
    intro i hi' hin
    by_cases e : i = ((p + g) / 2).toNat
    · rw [e]; exact hc
    · exact mono.above ((p + g) / 2).toNat i (by omega) hin (by rw [hc]; decide)
  | case3 p g hle m hc ih =>
    rw [bsLoop, dif_pos hle] at h
    simp only [m] at hc ih
    simp only [hc] at h
    refine ih (by omega) (by omega) hg ?_ hi h
    intro i hi'
    by_cases e : i = ((p + g) / 2).toNat
    · rw [e]; exact hc
    · exact mono.below i ((p + g) / 2).toNat (by omega) (by omega) (by rw [hc]; decide)
  | case4 p g hle =>
    rw [bsLoop, dif_neg hle] at h
    cases h
    refine ⟨by omega, fun i hi' => lo i (by omega), fun i hi' hin => hi i (by omega) hin⟩

theorem findSlotIdx_found {n : Nat} {c : Nat → Ordering} {i : Nat}
    (h : findSlotIdx n c = .found i) : i < n ∧ c i = .eq := by
  unfold findSlotIdx at h
  split at h
  · cases h
  · have := bsLoop_found c 0 _ i (by omega) h
    exact ⟨by omega, this.1⟩

theorem findSlotIdx_missing {n : Nat} {c : Nat → Ordering} {k : Nat} (mono : Mono n c)
    (h : findSlotIdx n c = .missing k) :
    k ≤ n ∧ (∀ i, i < k → c i = .gt) ∧ (∀ i, k ≤ i → i < n → c i = .lt) := by
  unfold findSlotIdx at h
  split at h
  · cases h; exact ⟨by omega, fun i hi => by omega, fun i _ hi => by omega⟩
  · refine bsLoop_missing n c 0 ((n : Int) - 1) k (by omega) (by omega) (by omega) mono ?_ ?_ h
    · intro i hi; omega
    · intro i hi hi'; omega

section
variable {α κ : Type} [Inhabited α] {cmp : κ → κ → Ordering} {key : α → κ}

/-- Like `TotalOrder`, for comparisons which are only a preorder up to `.eq` (`route_compare`). -/
structure PreOrder (cmp : κ → κ → Ordering) : Prop where
  refl : ∀ a, cmp a a = .eq
  swap : ∀ a b, cmp b a = (cmp a b).swap
  trans : ∀ a b c, cmp a b = .lt → cmp b c = .lt → cmp a c = .lt
  eq_lt : ∀ a b c, cmp a b = .eq → cmp b c = .lt → cmp a c = .lt

theorem Spec.TotalOrder.pre {cmp : κ → κ → Ordering} (h : TotalOrder cmp) : PreOrder cmp :=
  ⟨h.rfl', h.swap, h.trans, fun a b c h1 h2 => by rw [h.eq_iff] at h1; rw [h1]; exact h2⟩

theorem PreOrder.gt_iff {cmp : κ → κ → Ordering} (h : PreOrder cmp) (a b : κ) :
    cmp a b = .gt ↔ cmp b a = .lt := by
  rw [h.swap a b]; cases cmp a b <;> simp

theorem PreOrder.lt_eq {cmp : κ → κ → Ordering} (h : PreOrder cmp) (a b c : κ)
    (h1 : cmp a b = .lt) (h2 : cmp b c = .eq) : cmp a c = .lt := by
  cases hc : cmp a c with
  | lt => rfl
  | eq =>
    have e1 : cmp c b = .eq := by rw [h.swap b c, h2]; rfl
    have e2 : cmp c a = .eq := by rw [h.swap a c, hc]; rfl
    have := h.eq_lt c a b e2 h1
    rw [e1] at this; cases this
  | gt =>
    have e2 : cmp c a = .lt := (h.gt_iff a c).1 hc
    have := h.trans c a b e2 h1
    rw [h.swap b c, h2] at this; cases this

theorem routeCompare_pre : PreOrder routeCompare := by
  refine ⟨routeCompare_refl, routeCompare_swap, routeCompare_trans, ?_⟩
  intro a b c h1 h2
  obtain ⟨e1, e2, e3, e4⟩ := (routeCompare_eq_iff a b).1 h1
  unfold routeCompare at h2 ⊢
  cases hs : a.isSS with
  | true =>
    obtain ⟨e5, e6⟩ := e4 hs
    rw [hs] at e1
    rw [e2, e3, e5, e6]
    simpa [← e1] using h2
  | false =>
    rw [hs] at e1
    rw [e2, e3]
    simpa [← e1] using h2

theorem getElem!_of_lt (t : List α) (i : Nat) (h : i < t.length) : t[i]! = t[i] := by
  simp [h]

theorem mono_of_sorted (ho : PreOrder cmp) {t : List α} (hs : Sorted cmp key t) (k : κ) :
    Mono t.length (fun m => cmp k (key t[m]!)) := by
  have hp := List.pairwise_iff_getElem.1 hs
  constructor
  · intro i j hij hj h
    have hlt := hp i j (by omega) hj hij
    rw [getElem!_of_lt t i (by omega)]
    rw [getElem!_of_lt t j hj] at h
    rw [ho.gt_iff]
    cases hc : cmp k (key t[j]) with
    | lt => exact absurd hc h
    | eq => exact ho.lt_eq _ _ _ hlt (by rw [ho.swap k, hc]; rfl)
    | gt => exact ho.trans _ _ _ hlt ((ho.gt_iff _ _).1 hc)
  · intro i j hij hj h
    have hlt := hp i j (by omega) hj hij
    rw [getElem!_of_lt t j hj]
    rw [getElem!_of_lt t i (by omega)] at h
    cases hc : cmp k (key t[i]) with
    | lt => exact ho.trans _ _ _ hc hlt
    | eq => exact ho.eq_lt _ _ _ hc hlt
    | gt => exact absurd hc h

theorem findSlot_found {t : List α} {k : κ} {i : Nat} (h : findSlot cmp key t k = .found i) :
    ∃ hi : i < t.length, cmp k (key t[i]) = .eq := by
  obtain ⟨h1, h2⟩ := findSlotIdx_found h
  refine ⟨h1, ?_⟩
  rw [getElem!_of_lt t i h1] at h2
  exact h2

theorem findSlot_missing (ho : PreOrder cmp) {t : List α} {k : κ} {n : Nat}
    (hs : Sorted cmp key t) (h : findSlot cmp key t k = .missing n) :
    n ≤ t.length ∧ (∀ i (hi : i < t.length), i < n → cmp k (key t[i]) = .gt) ∧
      (∀ i (hi : i < t.length), n ≤ i → cmp k (key t[i]) = .lt) := by
  obtain ⟨h1, h2, h3⟩ := findSlotIdx_missing (mono_of_sorted ho hs k) h
  refine ⟨h1, ?_, ?_⟩
  · intro i hi hin
    have := h2 i hin
    rwa [getElem!_of_lt t i hi] at this
  · intro i hi hin
    have := h3 i hin hi
    rwa [getElem!_of_lt t i hi] at this

theorem insertAt_sorted (ho : PreOrder cmp) {t : List α} {n : Nat} {e : α}
    (hs : Sorted cmp key t)
    (h2 : ∀ i (hi : i < t.length), i < n → cmp (key e) (key t[i]) = .gt)
    (h3 : ∀ i (hi : i < t.length), n ≤ i → cmp (key e) (key t[i]) = .lt) :
    Sorted cmp key (insertAt t n e) := by
  unfold Sorted insertAt at *
  rw [List.pairwise_append]
  refine ⟨hs.sublist (List.take_sublist _ _), ?_, ?_⟩
  · rw [List.pairwise_cons]
    refine ⟨?_, hs.sublist (List.drop_sublist _ _)⟩
    intro b hb
    rw [List.mem_iff_getElem] at hb
    obtain ⟨i, hi, rfl⟩ := hb
    rw [List.length_drop] at hi
    rw [List.getElem_drop]
    exact h3 (n + i) (by omega) (by omega)
  · intro a ha b hb
    rw [List.mem_iff_getElem] at ha
    obtain ⟨i, hi, rfl⟩ := ha
    rw [List.length_take] at hi
    rw [List.getElem_take]
    have hlt := (ho.gt_iff _ _).1 (h2 i (by omega) (by omega))
    rcases List.mem_cons.1 hb with rfl | hb
    · exact hlt
    · rw [List.mem_iff_getElem] at hb
      obtain ⟨j, hj, rfl⟩ := hb
      rw [List.length_drop] at hj
      rw [List.getElem_drop]
      exact (List.pairwise_iff_getElem.1 hs) i (n + j) (by omega) (by omega) (by omega)

theorem removeAt_sublist (t : List α) (n : Nat) : List.Sublist (removeAt t n) t := by
  unfold removeAt
  have h1 : t = t.take n ++ t.drop n := (List.take_append_drop n t).symm
  have h2 : List.Sublist (t.drop (n + 1)) (t.drop n) := by
    rw [← List.drop_drop]
    exact List.drop_sublist _ _
  exact (List.Sublist.append (List.Sublist.refl (t.take n)) h2).trans (by rw [← h1]; exact List.Sublist.refl t)

theorem mem_insertAt {t : List α} {n : Nat} {e x : α} :
    x ∈ insertAt t n e ↔ x = e ∨ x ∈ t := by
  unfold insertAt
  rw [List.mem_append, List.mem_cons]
  have : x ∈ t ↔ x ∈ t.take n ∨ x ∈ t.drop n := by
    rw [← List.mem_append, List.take_append_drop]
  rw [this]
  constructor
  · rintro (h | h | h) <;> simp [h]
  · rintro (h | h | h) <;> simp [h]

/-- In a sorted table entries are determined by their key. -/
theorem sorted_key_inj (ho : PreOrder cmp) {t : List α} (hs : Sorted cmp key t) {a b : α}
    (ha : a ∈ t) (hb : b ∈ t) (h : cmp (key a) (key b) = .eq) : a = b := by
  rw [List.mem_iff_getElem] at ha hb
  obtain ⟨i, hi, rfl⟩ := ha
  obtain ⟨j, hj, rfl⟩ := hb
  have hp := List.pairwise_iff_getElem.1 hs
  rcases Nat.lt_trichotomy i j with hl | he | hg
  · have := hp i j hi hj hl; rw [this] at h; cases h
  · subst he; rfl
  · have := hp j i hj hi hg
    rw [ho.swap (key t[j]) (key t[i]), this] at h
    cases h

theorem mem_removeAt (ho : PreOrder cmp) {t : List α} (hs : Sorted cmp key t) {n : Nat}
    (hn : n < t.length) {x : α} : x ∈ removeAt t n ↔ x ∈ t ∧ x ≠ t[n] := by
  have hp := List.pairwise_iff_getElem.1 hs
  have inj : ∀ i j (hi : i < t.length) (hj : j < t.length), t[i] = t[j] → i = j := by
    intro i j hi hj e
    rcases Nat.lt_trichotomy i j with hl | he | hg
    · have := hp i j hi hj hl; rw [e, ho.refl] at this; cases this
    · exact he
    · have := hp j i hj hi hg; rw [e, ho.refl] at this; cases this
  unfold removeAt
  rw [List.mem_append]
  constructor
  · rintro (h | h)
    · rw [List.mem_iff_getElem] at h
      obtain ⟨i, hi, rfl⟩ := h
      rw [List.length_take] at hi
      rw [List.getElem_take]
      refine ⟨List.getElem_mem _, fun e => ?_⟩
      have := inj _ _ _ _ e
      omega
    · rw [List.mem_iff_getElem] at h
      obtain ⟨i, hi, rfl⟩ := h
      rw [List.length_drop] at hi
      rw [List.getElem_drop]
      refine ⟨List.getElem_mem _, fun e => ?_⟩
      have := inj _ _ _ _ e
      omega
  · rintro ⟨hx, hne⟩
    rw [List.mem_iff_getElem] at hx
    obtain ⟨i, hi, rfl⟩ := hx
    have : i ≠ n := by rintro rfl; exact hne rfl
    by_cases hlt : i < n
    · left
      rw [List.mem_iff_getElem]
      exact ⟨i, by rw [List.length_take]; omega, by rw [List.getElem_take]⟩
    · right
      rw [List.mem_iff_getElem]
      refine ⟨i - (n + 1), by rw [List.length_drop]; omega, ?_⟩
      rw [List.getElem_drop]
      congr 1; omega

theorem tAdd_sorted (ho : PreOrder cmp) {t : List α} {e : α} (hs : Sorted cmp key t) :
    Sorted cmp key (tAdd cmp key t e) := by
  unfold tAdd
  cases h : findSlot cmp key t (key e) with
  | found i => exact hs
  | missing n =>
    obtain ⟨_, h2, h3⟩ := findSlot_missing ho hs h
    exact insertAt_sorted ho hs h2 h3

theorem tDel_sorted {t : List α} {k : κ} (hs : Sorted cmp key t) :
    Sorted cmp key (tDel cmp key t k) := by
  unfold tDel
  cases h : findSlot cmp key t k with
  | found i => exact hs.sublist (removeAt_sublist t i)
  | missing n => exact hs

theorem tFind_some {t : List α} {k : κ} {e : α} (h : tFind cmp key t k = some e) :
    e ∈ t ∧ cmp k (key e) = .eq := by
  unfold tFind at h
  cases hf : findSlot cmp key t k with
  | found i =>
    obtain ⟨hi, hc⟩ := findSlot_found hf
    simp only [hf] at h
    rw [List.getElem?_eq_getElem hi] at h
    cases h
    exact ⟨List.getElem_mem _, hc⟩
  | missing n => simp only [hf] at h; cases h

theorem tFind_none (ho : PreOrder cmp) {t : List α} (hs : Sorted cmp key t) {k : κ}
    (h : tFind cmp key t k = none) : ∀ e ∈ t, cmp k (key e) ≠ .eq := by
  unfold tFind at h
  cases hf : findSlot cmp key t k with
  | found i =>
    obtain ⟨hi, hc⟩ := findSlot_found hf
    simp only [hf] at h
    rw [List.getElem?_eq_getElem hi] at h
    cases h
  | missing n =>
    obtain ⟨_, h2, h3⟩ := findSlot_missing ho hs hf
    intro e he
    rw [List.mem_iff_getElem] at he
    obtain ⟨i, hi, rfl⟩ := he
    by_cases hin : i < n
    · rw [h2 i hi hin]; decide
    · rw [h3 i hi (by omega)]; decide

/-- Lookup characterised by membership. -/
theorem tFind_iff (ho : PreOrder cmp) {t : List α} (hs : Sorted cmp key t) {k : κ} {e : α} :
    tFind cmp key t k = some e ↔ e ∈ t ∧ cmp k (key e) = .eq := by
  constructor
  · exact tFind_some
  · rintro ⟨he, hc⟩
    cases hf : tFind cmp key t k with
    | none => exact absurd hc (tFind_none ho hs hf e he)
    | some e' =>
      obtain ⟨he', hc'⟩ := tFind_some hf
      have : cmp (key e') (key e) = .eq := by
        cases hx : cmp (key e') (key e) with
        | eq => rfl
        | lt => have := ho.eq_lt _ _ _ hc' hx; rw [hc] at this; cases this
        | gt =>
          have := ho.eq_lt _ _ _ hc ((ho.gt_iff _ _).1 hx)
          rw [hc'] at this; cases this
      rw [sorted_key_inj ho hs he' he this]

theorem mem_tAdd (ho : PreOrder cmp) {t : List α} {e x : α} :
    x ∈ tAdd cmp key t e ↔ x ∈ t ∨ (x = e ∧ tFind cmp key t (key e) = none) := by
  unfold tAdd tFind
  cases h : findSlot cmp key t (key e) with
  | found i =>
    obtain ⟨hi, hc⟩ := findSlot_found h
    simp [hi]
  | missing n => simp only [mem_insertAt, and_true, true_and]; exact or_comm

theorem mem_tDel (ho : PreOrder cmp) {t : List α} (hs : Sorted cmp key t) {k : κ} {x : α} :
    x ∈ tDel cmp key t k ↔ x ∈ t ∧ cmp k (key x) ≠ .eq := by
  unfold tDel
  cases h : findSlot cmp key t k with
  | found i =>
    obtain ⟨hi, hc⟩ := findSlot_found h
    simp only
    rw [mem_removeAt ho hs hi]
    constructor
    · rintro ⟨hx, hne⟩
      refine ⟨hx, fun e => hne ?_⟩
      have h1 : tFind cmp key t k = some x := (tFind_iff ho hs).2 ⟨hx, e⟩
      have h2 : tFind cmp key t k = some t[i] := (tFind_iff ho hs).2 ⟨List.getElem_mem _, hc⟩
      rw [h1] at h2; exact Option.some.inj h2
    · rintro ⟨hx, hne⟩
      refine ⟨hx, ?_⟩
      rintro rfl
      exact hne hc
  | missing n =>
    have hf : tFind cmp key t k = none := by unfold tFind; rw [h]
    have := tFind_none ho hs hf
    constructor
    · intro hx; exact ⟨hx, this x hx⟩
    · exact fun hx => hx.1

end
section
variable {α κ : Type} [Inhabited α] [DecidableEq κ] {cmp : κ → κ → Ordering} {key : α → κ}

theorem tRun_snoc (ops : List (TOp α κ)) (o : TOp α κ) :
    tRun cmp key (ops ++ [o]) = tStep cmp key (tRun cmp key ops) o := by
  simp [tRun, List.foldl_append]

theorem mapRun_snoc (ops : List (TOp α κ)) (o : TOp α κ) :
    Map.run key (ops ++ [o]) = Map.step key (Map.run key ops) o := by
  simp [Map.run, List.foldl_append]

theorem snoc_induction {P : List β → Prop} (nil : P []) (snoc : ∀ l a, P l → P (l ++ [a])) :
    ∀ l, P l := by
  intro l
  rw [← List.reverse_reverse l]
  induction l.reverse with
  | nil => exact nil
  | cons a as ih => rw [List.reverse_cons]; exact snoc _ _ ih

end
end Babel
