import Verif.Lemmas.Netlink
/-
Netlink messages: decoding.
-/
set_option linter.unusedSimpArgs false
set_option linter.unusedVariables false
namespace Babel
open Spec

theorem leVal_lt : ∀ (b : Bytes), leVal b < 256 ^ b.length
  | [] => by simp [leVal]
  | x :: l => by
    have := leVal_lt l
    have hx : x.toNat < 256 := x.toNat_lt
    simp only [leVal, List.length_cons, Nat.pow_succ]
    omega

theorem leBytes_leVal (b : Bytes) : leBytes b.length (leVal b) = b := by
  induction b with
  | nil => rfl
  | cons x l ih =>
    simp only [List.length_cons, leBytes, leVal]
    have hx : x.toNat < 256 := x.toNat_lt
    have e1 : (x.toNat + 256 * leVal l) / 256 = leVal l := by omega
    have e2 : UInt8.ofNat (x.toNat + 256 * leVal l) = x := by apply UInt8.toNat.inj; simp
    rw [e1, e2, ih]

theorem hrd32_bytes {b p d q : Bytes} {i : Nat} (hd : 4 ≤ d.length) (hb : b = p ++ d ++ q) (hi : i = p.length) :
    hrd32 b i = some (leVal (d.take 4)) := by
  have h4 : (d.take 4).length = 4 := by simp; omega
  have hlt := leVal_lt (d.take 4)
  rw [h4] at hlt
  refine hrd32_append' (p := p) (q := d.drop 4 ++ q) (by omega) ?_ hi
  have := leBytes_leVal (d.take 4)
  rw [h4] at this
  rw [this, hb]
  simp only [List.append_assoc]
  rw [← List.append_assoc (d.take 4), List.take_append_drop]

theorem rdBytes_append {b p d q : Bytes} {i n : Nat} (hn : n ≤ d.length) (hb : b = p ++ d ++ q) (hi : i = p.length) :
    rdBytes b i n = some (d.take n) := by
  subst hb hi
  unfold rdBytes
  rw [if_pos (by simp; omega), List.append_assoc, List.drop_left' rfl, List.take_append_of_le_length hn]

/-- Processing a list of attributes. -/
def foldRes {σ : Type} (f : NlAttr → σ → NlRes σ) : List NlAttr → σ → NlRes σ
  | [], s => .ok s
  | a :: l, s => match f a s with
    | .ok s' => foldRes f l s'
    | .reject => .reject
    | .undef => .undef

theorem rtaLoop_attrs {σ : Type} {m : Bytes} {one : Nat → Nat → Nat → σ → NlRes σ} {f : NlAttr → σ → NlRes σ}
    {l : List NlAttr} {A : Bytes} (hA : NlAttrs l A)
    (hf : ∀ p' a q s, m = p' ++ a.bytes ++ q → a ∈ l → one (p'.length + 4) a.type a.data.length s = f a s)
    (p : Bytes) (hm : m = p ++ A) (fuel : Nat) (hfu : A.length < fuel) (off : Nat) (ho : off = p.length) (len : Int)
    (hlen : len = A.length) (s : σ) :
    rtaLoop m one fuel off len s = foldRes f l s := by
  induction hA generalizing p fuel s off len with
  | nil =>
    cases fuel with
    | zero => omega
    | succ n => unfold rtaLoop; rw [if_pos (by simp at hlen; omega)]; rfl
  | @last a ha =>
    cases fuel with
    | zero => omega
    | succ n =>
      have hbl := a.bytes_length
      unfold rtaLoop
      rw [if_neg (by omega)]
      rw [hrd16_append' (b := m) (p := p) (v := 4 + a.data.length) (q := leBytes 2 a.type ++ a.data) ha.2
        (by rw [hm]; simp [NlAttr.bytes]) ho,
        hrd16_append' (b := m) (p := p ++ leBytes 2 (4 + a.data.length)) (v := a.type) (q := a.data) ha.1
        (by rw [hm]; simp [NlAttr.bytes]) (by simp [leBytes_length, ho])]
      simp only
      rw [if_neg (by simp; omega)]
      rw [ho, show 4 + a.data.length - 4 = a.data.length by omega, hf p a [] s (by simp [hm]) (by simp)]
      have := align4_le (4 + a.data.length)
      show _ = match f a s with | .ok s' => foldRes f [] s' | .reject => .reject | .undef => .undef
      cases f a s with
      | ok s' =>
        simp only
        cases n with
        | zero => omega
        | succ n => unfold rtaLoop; rw [if_pos (by omega)]; rfl
      | reject => rfl
      | undef => rfl
  | @cons a l b pad ha h1 h2 _ ih =>
    cases fuel with
    | zero => omega
    | succ n =>
      have hbl := a.bytes_length
      have hal : align4 (4 + a.data.length) = 4 + a.data.length + pad.length := by unfold align4; omega
      simp only [List.length_append] at hlen hfu
      unfold rtaLoop
      rw [if_neg (by omega)]
      rw [hrd16_append' (b := m) (p := p) (v := 4 + a.data.length) (q := leBytes 2 a.type ++ a.data ++ pad ++ b) ha.2
        (by rw [hm]; simp [NlAttr.bytes]) ho,
        hrd16_append' (b := m) (p := p ++ leBytes 2 (4 + a.data.length)) (v := a.type) (q := a.data ++ pad ++ b) ha.1
        (by rw [hm]; simp [NlAttr.bytes]) (by simp [leBytes_length, ho])]
      simp only
      rw [if_neg (by simp; omega)]
      rw [ho, show 4 + a.data.length - 4 = a.data.length by omega,
        hf p a (pad ++ b) s (by simp [hm]) (by simp)]
      show _ = match f a s with | .ok s' => foldRes f l s' | .reject => .reject | .undef => .undef
      cases f a s with
      | ok s' =>
        simp only
        rw [hal]
        exact ih (fun p' a' q s hm' ha' => hf p' a' q s hm' (by simp [ha'])) (p ++ a.bytes ++ pad) (by rw [hm]; simp) n
          (by omega) _ (by simp; omega) _ (by omega) _
      | reject => rfl
      | undef => rfl

theorem attrOf_nil (t : Nat) : attrOf [] t = none := rfl

theorem attrOf_cons (a : NlAttr) (l : List NlAttr) (t : Nat) :
    attrOf (a :: l) t = match attrOf l t with
      | some d => some d
      | none => if a.type = t then some a.data else none := by
  unfold attrOf
  rw [List.filter_cons]
  by_cases h : a.type = t
  · rw [if_pos (by simpa using h), if_pos h]
    cases e : l.filter (·.type == t) with
    | nil => rfl
    | cons x r =>
      rw [List.getLast?_cons_cons]
      cases e2 : (x :: r).getLast? with
      | none => simp at e2
      | some y => rfl
  · rw [if_neg (by simpa using h), if_neg h]
    cases e2 : (l.filter (·.type == t)).getLast? with
    | none => rfl
    | some y => rfl

/-- The effect of an attribute of a route. -/
def attrEffect (fam dl sl : UInt8) (a : NlAttr) (s : RtaSt) : NlRes RtaSt :=
  if a.type = 1 ∨ a.type = 2 ∨ a.type = 5 then
    if a.data.length < (if fam = 2 then 4 else 16) then .reject
    else if a.type = 1 then .ok { s with plen := (if fam = 2 then dl.toNat + 96 else dl.toNat), pfx := addrBytes fam a.data }
    else if a.type = 2 then .ok { s with srcPlen := (if fam = 2 then sl.toNat + 96 else sl.toNat), srcPfx := addrBytes fam a.data }
    else .ok { s with gw := addrBytes fam a.data }
  else if a.type = 4 then .ok { s with ifindex := leVal (a.data.take 4) }
  else if a.type = 6 then .ok { s with metric := min (leVal (a.data.take 4)) 65535 }
  else if a.type = 15 then .ok { s with table := toInt (leVal (a.data.take 4)) }
  else .ok s

theorem fam_beq (fam : UInt8) : (fam.toNat == AF_INET) = decide (fam = 2) := by
  rw [Bool.eq_iff_iff]
  simp only [beq_iff_eq, decide_eq_true_eq]
  constructor
  · intro h; apply UInt8.toNat.inj; rw [h]; rfl
  · intro h; subst h; rfl

theorem copyAddr_eq {m p q : Bytes} {a : NlAttr} (hm : m = p ++ a.bytes ++ q) (fam : UInt8) :
    copyAddr m (p.length + 4) a.data.length (fam.toNat == AF_INET) =
      if a.data.length < (if fam = 2 then 4 else 16) then .reject else .ok (addrBytes fam a.data) := by
  unfold copyAddr
  rw [fam_beq]
  have hb : m = (p ++ leBytes 2 (4 + a.data.length) ++ leBytes 2 a.type) ++ a.data ++ q := by
    rw [hm]; simp [NlAttr.bytes]
  by_cases hf : fam = 2
  · simp only [hf, decide_true, if_true]
    split
    · rfl
    · rw [rdBytes_append (n := 4) (by omega) hb (by simp [leBytes_length])]
      unfold addrBytes
      rw [if_pos rfl]
      unfold v4tov6
      simp [v4prefix, List.take_take]
  · simp only [hf, decide_false, Bool.false_eq_true, if_false]
    split
    · rfl
    · rw [rdBytes_append (n := 16) (by omega) hb (by simp [leBytes_length])]
      unfold addrBytes
      rw [if_neg hf]

theorem rtaOne_eq {m p q : Bytes} {a : NlAttr} (hm : m = p ++ a.bytes ++ q) (fam dl sl : UInt8)
    (hi : a.type = 4 ∨ a.type = 6 ∨ a.type = 15 → 4 ≤ a.data.length) (s : RtaSt) :
    rtaOne m (fam.toNat == AF_INET) dl.toNat sl.toNat (p.length + 4) a.type a.data.length s = attrEffect fam dl sl a s := by
  have hb : m = (p ++ leBytes 2 (4 + a.data.length) ++ leBytes 2 a.type) ++ a.data ++ q := by
    rw [hm]; simp [NlAttr.bytes]
  have hl : p.length + 4 = (p ++ leBytes 2 (4 + a.data.length) ++ leBytes 2 a.type).length := by simp [leBytes_length]
  have hrd : 4 ≤ a.data.length → hrd32 m (p.length + 4) = some (leVal (a.data.take 4)) := fun h => hrd32_bytes h hb hl
  unfold rtaOne attrEffect
  rw [copyAddr_eq hm fam, fam_beq]
  simp only [RTA_DST, RTA_SRC, RTA_GATEWAY, RTA_OIF, RTA_PRIORITY, RTA_TABLE, decide_eq_true_eq]
  generalize (if fam = 2 then 4 else 16) = N
  by_cases h1 : a.type = 1
  · rw [if_pos h1, if_pos (Or.inl h1)]
    by_cases hL : a.data.length < N <;> simp [h1, hL]
  · by_cases h2 : a.type = 2
    · rw [if_neg h1, if_pos h2, if_pos (Or.inr (.inl h2))]
      by_cases hL : a.data.length < N <;> simp [h2, hL]
    · by_cases h5 : a.type = 5
      · simp only [h5]
        by_cases hL : a.data.length < N <;> simp [hL]
      · by_cases h4 : a.type = 4
        · simp only [h4, hrd (hi (.inl h4))]
          simp
        · by_cases h6 : a.type = 6
          · simp only [h6, hrd (hi (.inr (.inl h6)))]
            simp only [Nat.reduceEqDiff, if_false, if_true, or_self]
            have h4 : (a.data.take 4).length ≤ 4 := by simp; omega
            have hlt := leVal_lt (a.data.take 4)
            have hlt : leVal (a.data.take 4) < 4294967296 :=
              Nat.lt_of_lt_of_le hlt (Nat.pow_le_pow_right (by omega) h4)
            generalize leVal (a.data.take 4) = v at *
            congr 2
            unfold toInt KERNEL_INFINITY
            simp only [Bool.or_eq_true, decide_eq_true_eq]
            split <;> split <;> omega
          · by_cases h15 : a.type = 15
            · simp only [h15, hrd (hi (.inr (.inr h15)))]
              simp
            · simp only [h1, h2, h4, h5, h6, h15, or_self, if_false]

/-- All attributes together. -/
theorem foldRes_effect (fam dl sl : UInt8) (l : List NlAttr) (s : RtaSt) :
    foldRes (attrEffect fam dl sl) l s =
      if ∀ a ∈ l, a.type = 1 ∨ a.type = 2 ∨ a.type = 5 → (if fam = 2 then 4 else 16) ≤ a.data.length then
        .ok ⟨((attrOf l 1).map (addrBytes fam)).getD s.pfx,
          ((attrOf l 1).map (fun _ => if fam = 2 then dl.toNat + 96 else dl.toNat)).getD s.plen,
          ((attrOf l 2).map (addrBytes fam)).getD s.srcPfx,
          ((attrOf l 2).map (fun _ => if fam = 2 then sl.toNat + 96 else sl.toNat)).getD s.srcPlen,
          ((attrOf l 6).map (fun d => min (leVal (d.take 4)) 65535)).getD s.metric,
          ((attrOf l 4).map (fun d => leVal (d.take 4))).getD s.ifindex,
          ((attrOf l 5).map (addrBytes fam)).getD s.gw,
          ((attrOf l 15).map (fun d => toInt (leVal (d.take 4)))).getD s.table⟩
      else .reject := by
  induction l generalizing s with
  | nil => rw [if_pos (by simp)]; rfl
  | cons a l ih =>
    rw [foldRes]
    generalize hN : (if fam = 2 then 4 else 16) = N at ih ⊢
    have hcond : (∀ x ∈ a :: l, x.type = 1 ∨ x.type = 2 ∨ x.type = 5 → N ≤ x.data.length) ↔
        ((a.type = 1 ∨ a.type = 2 ∨ a.type = 5 → N ≤ a.data.length) ∧
         ∀ x ∈ l, x.type = 1 ∨ x.type = 2 ∨ x.type = 5 → N ≤ x.data.length) := by simp
    generalize foldRes (attrEffect fam dl sl) l = F at ih ⊢
    unfold attrEffect
    rw [hN]
    simp only [attrOf_cons]
    by_cases hC : ∀ x ∈ l, x.type = 1 ∨ x.type = 2 ∨ x.type = 5 → N ≤ x.data.length
    · by_cases hT : a.type = 1 ∨ a.type = 2 ∨ a.type = 5
      · rw [if_pos hT]
        by_cases hL : a.data.length < N
        · rw [if_pos hL, if_neg (show ¬ (∀ x ∈ a :: l, x.type = 1 ∨ x.type = 2 ∨ x.type = 5 → N ≤ x.data.length) by rw [hcond]; intro h; have := h.1 hT; omega)]
        · rw [if_neg hL, if_pos (show (∀ x ∈ a :: l, x.type = 1 ∨ x.type = 2 ∨ x.type = 5 → N ≤ x.data.length) by rw [hcond]; exact ⟨fun _ => by omega, hC⟩)]
          rcases hT with hT | hT | hT
          · simp only [hT, if_true]
            rw [ih, if_pos hC]
            cases attrOf l 1 <;> cases attrOf l 2 <;> cases attrOf l 4 <;> cases attrOf l 5 <;> cases attrOf l 6 <;> cases attrOf l 15 <;> rfl
          · simp only [hT, if_true]
            rw [if_neg (by omega)]
            show F _ = _
            rw [ih, if_pos hC]
            cases attrOf l 1 <;> cases attrOf l 2 <;> cases attrOf l 4 <;> cases attrOf l 5 <;> cases attrOf l 6 <;> cases attrOf l 15 <;> rfl
          · simp only [hT, if_true]
            rw [if_neg (by omega), if_neg (by omega)]
            show F _ = _
            rw [ih, if_pos hC]
            cases attrOf l 1 <;> cases attrOf l 2 <;> cases attrOf l 4 <;> cases attrOf l 5 <;> cases attrOf l 6 <;> cases attrOf l 15 <;> rfl
      · rw [if_neg hT, if_pos (show (∀ x ∈ a :: l, x.type = 1 ∨ x.type = 2 ∨ x.type = 5 → N ≤ x.data.length) by rw [hcond]; exact ⟨fun h => absurd h hT, hC⟩)]
        have t1 : a.type ≠ 1 := by omega
        have t2 : a.type ≠ 2 := by omega
        have t5 : a.type ≠ 5 := by omega
        by_cases t4 : a.type = 4
        · simp only [t4, if_true]
          rw [ih, if_pos hC]
          cases attrOf l 1 <;> cases attrOf l 2 <;> cases attrOf l 4 <;> cases attrOf l 5 <;> cases attrOf l 6 <;> cases attrOf l 15 <;> rfl
        · by_cases t6 : a.type = 6
          · simp only [t6, if_true]
            rw [if_neg (by omega)]
            show F _ = _
            rw [ih, if_pos hC]
            cases attrOf l 1 <;> cases attrOf l 2 <;> cases attrOf l 4 <;> cases attrOf l 5 <;> cases attrOf l 6 <;> cases attrOf l 15 <;> rfl
          · by_cases t15 : a.type = 15
            · simp only [t15, if_true]
              rw [if_neg (by omega), if_neg (by omega)]
              show F _ = _
              rw [ih, if_pos hC]
              cases attrOf l 1 <;> cases attrOf l 2 <;> cases attrOf l 4 <;> cases attrOf l 5 <;> cases attrOf l 6 <;> cases attrOf l 15 <;> rfl
            · rw [if_neg t4, if_neg t6, if_neg t15]
              simp only
              rw [ih, if_pos hC]
              simp only [t1, t2, t4, t5, t6, t15, if_false]
              cases attrOf l 1 <;> cases attrOf l 2 <;> cases attrOf l 4 <;> cases attrOf l 5 <;> cases attrOf l 6 <;> cases attrOf l 15 <;> rfl
    · rw [if_neg (show ¬ (∀ x ∈ a :: l, x.type = 1 ∨ x.type = 2 ∨ x.type = 5 → N ≤ x.data.length) by rw [hcond]; exact fun h => hC h.2)]
      have hr : ∀ s', F s' = .reject := fun s' => by rw [ih, if_neg hC]
      split
      · next s' _ => exact hr s'
      · rfl
      · next h =>
        exfalso
        split at h
        · split at h
          · simp at h
          · split at h
            · simp at h
            · split at h <;> simp at h
        · split at h
          · simp at h
          · split at h
            · simp at h
            · split at h <;> simp at h

end Babel
