import Verif.Model.Wire
/-
Reads of the decoder: they stay inside the TLV, and only depend on the bytes read.
-/
set_option linter.unusedSimpArgs false
set_option linter.unusedVariables false
namespace Babel

theorem rd_some {p : Bytes} {i : Nat} (h : i < p.length) : rd p i = some p[i].toNat := by
  simp [rd, List.getElem?_eq_getElem h]

theorem rd_isSome {p : Bytes} {i : Nat} (h : i < p.length) : (rd p i).isSome := by
  rw [rd_some h]; rfl

theorem rd_lt {p : Bytes} {i v : Nat} (h : rd p i = some v) : v < 256 ∧ i < p.length := by
  unfold rd at h
  rcases hq : p[i]? with _ | b
  · simp [hq] at h
  · simp [hq] at h
    have := (List.getElem?_eq_some_iff.1 hq).1
    have := b.toNat_lt
    omega

theorem rd16_some {p : Bytes} {i : Nat} (h : i + 1 < p.length) :
    rd16 p i = some (256 * p[i].toNat + p[i+1].toNat) := by
  unfold rd16
  rw [rd_some (show i < p.length by omega), rd_some h]; rfl

theorem rd32_isSome {p : Bytes} {i : Nat} (h : i + 3 < p.length) : (rd32 p i).isSome := by
  unfold rd32
  rw [rd16_some (show i + 1 < p.length by omega), rd16_some (show i + 2 + 1 < p.length by omega)]; rfl

theorem rdN_some {p : Bytes} {n : Nat} (h : n ≤ p.length) : rdN p n = some (p.take n) := by
  simp [rdN, h]

theorem isSome_pure (a : α) : (pure a : Option α).isSome = true := rfl

/-- `bind` of results that are defined. -/
theorem isSome_bind {x : Option α} {f : α → Option β} (h : x.isSome)
    (hf : ∀ a, x = some a → (f a).isSome) : (x >>= f).isSome := by
  cases x with
  | none => simp at h
  | some a => exact hf a rfl

theorem networkPrefix_isSome {ae : Nat} {plen : Option Nat} {om : Nat} {p : Bytes}
    {dp : Option Bytes} {len : Nat} (h : len ≤ p.length) :
    (networkPrefix ae plen om p dp len).isSome := by
  unfold networkPrefix
  simp only []
  split
  · exact Option.isSome_some
  split
  · exact Option.isSome_some
  split
  · split
    · exact Option.isSome_some
    split
    · exact Option.isSome_some
    · refine isSome_bind (by rw [rdN_some (by omega)]; exact Option.isSome_some) fun a _ => ?_
      split <;> exact isSome_pure _
  split
  · split
    · exact Option.isSome_some
    split
    · exact Option.isSome_some
    · refine isSome_bind (by rw [rdN_some (by omega)]; exact Option.isSome_some) fun a _ => ?_
      split <;> exact isSome_pure _
  split
  · split
    · exact Option.isSome_some
    · refine isSome_bind (by rw [rdN_some (by omega)]; exact Option.isSome_some) fun a _ => ?_
      split <;> exact isSome_pure _
  · exact Option.isSome_some

theorem tail_eq {p : Bytes} {k n : Nat} {c : Prop} [Decidable c] {f : Bytes → Bytes} {rc : Nat} {r : Bytes}
    (h : (do
      let tail ← rdN p k
      if c then return none else return some (n, f tail)) = some (some (rc, r))) :
    ¬ c ∧ rc = n ∧ k ≤ p.length ∧ r = f (p.take k) := by
  unfold rdN at h
  split at h
  · simp only [Option.bind_eq_bind, Option.bind_some] at h
    split at h
    · simp at h
    · simp at h
      simp_all
  · simp at h

/-- The number of bytes used is at most the number available. -/
theorem networkPrefix_le {ae : Nat} {plen : Option Nat} {om : Nat} {p : Bytes}
    {dp : Option Bytes} {len rc : Nat} {r : Bytes}
    (h : networkPrefix ae plen om p dp len = some (some (rc, r))) : rc ≤ len := by
  unfold networkPrefix at h
  simp only [] at h
  split at h
  · simp at h
  split at h
  · simp at h; omega
  split at h
  · split at h
    · simp at h
    split at h
    · simp at h
    · have := tail_eq h; omega
  split at h
  · split at h
    · simp at h
    split at h
    · simp at h
    · have := tail_eq h; omega
  split at h
  · split at h
    · simp at h
    · have := tail_eq h; omega
  · simp at h

theorem subTlvs_isSome {f : σ → Nat → Bytes → Nat → Option (Option σ)}
    (hf : ∀ s ty p len, len ≤ p.length → (f s ty p len).isSome) :
    ∀ fuel a (alen : Int) s, alen.toNat < fuel → alen ≤ a.length → (subTlvs f fuel a alen s).isSome := by
  intro fuel
  induction fuel with
  | zero => intro a alen s h; omega
  | succ n ih =>
    intro a alen s hfu hl
    unfold subTlvs
    split
    · exact isSome_pure _
    · rename_i hpos
      apply isSome_bind (rd_isSome (by omega))
      intro ty hty
      split
      · apply ih
        · omega
        · simp only [List.length_drop]; omega
      split
      · exact isSome_pure _
      · apply isSome_bind (rd_isSome (by omega))
        intro len hlen
        split
        · exact isSome_pure _
        · apply isSome_bind
          · apply hf; simp only [List.length_drop]; omega
          · intro r hr
            split
            · exact isSome_pure _
            · apply ih
              · omega
              · simp only [List.length_drop]; omega

theorem unknownSub_isSome (s : σ) (ty : Nat) : (unknownSub s ty).isSome := by
  unfold unknownSub; split <;> exact isSome_pure _

theorem srcSub_isSome (ae : Nat) : ∀ s ty p len, len ≤ p.length → (srcSub ae s ty p len).isSome := by
  intro s ty p len h
  unfold srcSub
  split
  · exact isSome_pure _
  split
  · split
    · exact isSome_pure _
    · apply isSome_bind (rd_isSome (by omega))
      intro l hl
      split
      · exact isSome_pure _
      split
      · exact isSome_pure _
      · apply isSome_bind
        · apply networkPrefix_isSome; simp only [List.length_drop]; omega
        · intro r hr; split <;> exact isSome_pure _
  · exact unknownSub_isSome _ _

theorem seqSub_isSome (ae : Nat) : ∀ s ty p len, len ≤ p.length → (seqSub ae s ty p len).isSome := by
  intro s ty p len h
  unfold seqSub
  split
  · exact isSome_pure _
  split
  · split
    · exact isSome_pure _
    · apply isSome_bind (rd_isSome (by omega))
      intro l hl
      apply isSome_bind
      · apply networkPrefix_isSome; simp only [List.length_drop]; omega
      · intro r hr; split <;> exact isSome_pure _
  · exact unknownSub_isSome _ _

theorem helloSub_isSome : ∀ s ty p len, len ≤ p.length → (helloSub s ty p len).isSome := by
  intro s ty p len h
  unfold helloSub
  split
  · exact isSome_pure _
  split
  · split
    · apply isSome_bind (rd32_isSome (by omega)); intro a ha; exact isSome_pure _
    · exact isSome_pure _
  · exact unknownSub_isSome _ _

theorem ihuSub_isSome : ∀ s ty p len, len ≤ p.length → (ihuSub s ty p len).isSome := by
  intro s ty p len h
  unfold ihuSub
  split
  · exact isSome_pure _
  split
  · split
    · apply isSome_bind (rd32_isSome (by omega)); intro a ha
      apply isSome_bind (rd32_isSome (by omega)); intro a ha; exact isSome_pure _
    · exact isSome_pure _
  · exact unknownSub_isSome _ _

theorem otherSub_isSome : ∀ s ty p len, len ≤ p.length → (otherSub s ty p len).isSome := by
  intro s ty p len h; exact unknownSub_isSome _ _

theorem parseOtherSub_isSome {a : Bytes} {alen : Int} (h : alen ≤ a.length) :
    (parseOtherSub a alen).isSome := subTlvs_isSome otherSub_isSome _ _ _ _ (by omega) h
theorem parseSrcSub_isSome {ae} {a : Bytes} {alen : Int} (h : alen ≤ a.length) :
    (parseSrcSub ae a alen).isSome := subTlvs_isSome (srcSub_isSome ae) _ _ _ _ (by omega) h
theorem parseSeqSub_isSome {ae} {a : Bytes} {alen : Int} (h : alen ≤ a.length) :
    (parseSeqSub ae a alen).isSome := subTlvs_isSome (seqSub_isSome ae) _ _ _ _ (by omega) h
theorem parseHelloSub_isSome {a : Bytes} {alen : Int} (h : alen ≤ a.length) :
    (parseHelloSub a alen).isSome := subTlvs_isSome helloSub_isSome _ _ _ _ (by omega) h
theorem parseIhuSub_isSome {a : Bytes} {alen : Int} (h : alen ≤ a.length) :
    (parseIhuSub a alen).isSome := subTlvs_isSome ihuSub_isSome _ _ _ _ (by omega) h

theorem rd16_isSome {p : Bytes} {i : Nat} (h : i + 1 < p.length) : (rd16 p i).isSome := by
  rw [rd16_some h]; rfl
theorem rdN_isSome {p : Bytes} {n : Nat} (h : n ≤ p.length) : (rdN p n).isSome := by
  rw [rdN_some h]; rfl

/-- Discharges the reads of one TLV. -/
macro "reads" : tactic => `(tactic|
  repeat' first
    | exact Option.isSome_some
    | exact isSome_pure _
    | (apply isSome_bind (rd_isSome (by omega)); intro _ _)
    | (apply isSome_bind (rd16_isSome (by omega)); intro _ _)
    | (apply isSome_bind (rdN_isSome (by simp only [List.length_drop]; omega)); intro _ _)
    | (apply isSome_bind (parseOtherSub_isSome (by simp only [List.length_drop]; omega)); intro _ _)
    | (apply isSome_bind (parseSrcSub_isSome (by simp only [List.length_drop]; omega)); intro _ _)
    | (apply isSome_bind (parseSeqSub_isSome (by simp only [List.length_drop]; omega)); intro _ _)
    | (apply isSome_bind (parseHelloSub_isSome (by simp only [List.length_drop]; omega)); intro _ _)
    | (apply isSome_bind (parseIhuSub_isSome (by simp only [List.length_drop]; omega)); intro _ _)
    | split)

theorem tlvAckReq_isSome {s m len} (h : len + 2 ≤ m.length) : (tlvAckReq s m len).isSome := by
  unfold tlvAckReq; reads
theorem tlvAck_isSome {s m len} (h : len + 2 ≤ m.length) : (tlvAck s m len).isSome := by
  unfold tlvAck; reads
theorem tlvHello_isSome {s m len} (h : len + 2 ≤ m.length) : (tlvHello s m len).isSome := by
  unfold tlvHello; reads
theorem tlvRouterId_isSome {s m len} (h : len + 2 ≤ m.length) : (tlvRouterId s m len).isSome := by
  unfold tlvRouterId; reads

theorem tlvIhu_isSome {e s m len} (h : len + 2 ≤ m.length) : (tlvIhu e s m len).isSome := by
  unfold tlvIhu
  split
  · exact isSome_pure _
  apply isSome_bind (rd_isSome (by omega)); intro ae _
  split
  · exact isSome_pure _
  apply isSome_bind (rd16_isSome (by omega)); intro _ _
  apply isSome_bind (rd16_isSome (by omega)); intro _ _
  apply isSome_bind
  · apply networkPrefix_isSome; simp only [List.length_drop]; omega
  · intro r hr
    split
    · exact isSome_pure _
    · rename_i rc addr
      have := networkPrefix_le hr
      split
      · apply isSome_bind
        · apply parseIhuSub_isSome; simp only [List.length_drop]; omega
        · intro r _; split <;> exact isSome_pure _
      · exact isSome_pure _

theorem tlvNh_isSome {s m len} (h : len + 2 ≤ m.length) : (tlvNh s m len).isSome := by
  unfold tlvNh
  split
  · exact isSome_pure _
  apply isSome_bind (rd_isSome (by omega)); intro ae _
  apply isSome_bind
  · apply networkPrefix_isSome; simp only [List.length_drop]; omega
  · intro r hr
    split
    · exact isSome_pure _
    split
    · exact isSome_pure _
    split
    · exact isSome_pure _
    · rename_i rc addr
      have := networkPrefix_le hr
      have hs : (parseOtherSub (m.drop (4 + rc)) ((len : Int) - 2 - rc)).isSome := by
        apply parseOtherSub_isSome; simp only [List.length_drop]; omega
      split
      · exact isSome_bind hs fun _ _ => isSome_pure _
      split
      · exact isSome_bind hs fun _ _ => isSome_pure _
      · exact isSome_pure _

theorem tlvRequest_isSome {s m len} (h : len + 2 ≤ m.length) : (tlvRequest s m len).isSome := by
  unfold tlvRequest
  split
  · exact isSome_pure _
  apply isSome_bind (rd_isSome (by omega)); intro ae _
  split
  · exact isSome_pure _
  apply isSome_bind (rd_isSome (by omega)); intro l _
  apply isSome_bind
  · apply networkPrefix_isSome; simp only [List.length_drop]; omega
  · intro r hr
    split
    · exact isSome_pure _
    · rename_i rc addr
      have := networkPrefix_le hr
      apply isSome_bind
      · apply parseSrcSub_isSome; simp only [List.length_drop]; omega
      · intro r _
        split
        · exact isSome_pure _
        · simp only []
          repeat' split
          all_goals exact isSome_pure _

theorem tlvSeqno_isSome {s m len} (h : len + 2 ≤ m.length) : (tlvSeqno s m len).isSome := by
  unfold tlvSeqno
  split
  · exact isSome_pure _
  apply isSome_bind (rd_isSome (by omega)); intro ae _
  split
  · exact isSome_pure _
  apply isSome_bind (rd_isSome (by omega)); intro l _
  apply isSome_bind (rd16_isSome (by omega)); intro _ _
  apply isSome_bind
  · apply networkPrefix_isSome; simp only [List.length_drop]; omega
  · intro r hr
    split
    · exact isSome_pure _
    · rename_i rc addr
      have := networkPrefix_le hr
      apply isSome_bind
      · apply parseSeqSub_isSome; simp only [List.length_drop]; omega
      · intro r _
        split
        · exact isSome_pure _
        · apply isSome_bind (rd_isSome (by omega)); intro _ _
          apply isSome_bind (rdN_isSome (by simp only [List.length_drop]; omega)); intro _ _
          exact isSome_pure _

theorem updatePrefix_isSome {s ae l om p len} (h : len ≤ p.length) : (updatePrefix s ae l om p len).isSome := by
  unfold updatePrefix
  split
  · exact networkPrefix_isSome h
  · exact Option.isSome_some

theorem updatePrefix_le {s ae l om p len rc r} (h : updatePrefix s ae l om p len = some (some (rc, r))) :
    rc ≤ len := by
  unfold updatePrefix at h
  split at h
  · exact networkPrefix_le h
  · simp at h

theorem updateItems_isSome {e s ae l pfx seqno metric interval} {a : Bytes} {alen : Int}
    (h : alen ≤ a.length) : (updateItems e s ae l pfx seqno metric interval a alen).isSome := by
  unfold updateItems
  split
  · exact isSome_pure _
  split
  · exact isSome_pure _
  · apply isSome_bind (parseSrcSub_isSome h)
    intro r _
    split
    · exact isSome_pure _
    · simp only []
      repeat' split
      all_goals exact isSome_pure _

theorem tlvUpdate_isSome {e s m len} (h : len + 2 ≤ m.length) : (tlvUpdate e s m len).isSome := by
  unfold tlvUpdate
  split
  · split
    · exact isSome_pure _
    · reads
  apply isSome_bind (rd_isSome (by omega)); intro ae _
  split
  · exact isSome_pure _
  split
  · exact isSome_pure _
  apply isSome_bind (rd_isSome (by omega)); intro _ _
  apply isSome_bind (rd_isSome (by omega)); intro _ _
  apply isSome_bind (rd_isSome (by omega)); intro _ _
  apply isSome_bind (rd16_isSome (by omega)); intro _ _
  apply isSome_bind (rd16_isSome (by omega)); intro _ _
  apply isSome_bind (rd16_isSome (by omega)); intro _ _
  apply isSome_bind
  · apply updatePrefix_isSome; simp only [List.length_drop]; omega
  · intro r hr
    split
    · exact isSome_pure _
    · rename_i rc pfx
      have hle : rc ≤ len - 10 := updatePrefix_le hr
      refine isSome_bind (updateItems_isSome ?_) fun _ _ => isSome_pure _
      simp only [List.length_drop]; omega

theorem parseTlv_isSome {e s ty m len} (h : len + 2 ≤ m.length) : (parseTlv e s ty m len).isSome := by
  unfold parseTlv
  repeat' split
  · exact tlvAckReq_isSome h
  · exact tlvAck_isSome h
  · exact tlvHello_isSome h
  · exact tlvIhu_isSome h
  · exact tlvRouterId_isSome h
  · exact tlvNh_isSome h
  · exact tlvUpdate_isSome h
  · exact tlvRequest_isSome h
  · exact tlvSeqno_isSome h
  · exact isSome_pure _

theorem parseBody_isSome {e : PEnv} :
    ∀ fuel m (left : Int) s, left.toNat < fuel → left ≤ m.length → (parseBody e fuel m left s).isSome := by
  intro fuel
  induction fuel with
  | zero => intro m left s h; omega
  | succ n ih =>
    intro m left s hfu hl
    unfold parseBody
    split
    · exact isSome_pure _
    · apply isSome_bind (rd_isSome (by omega))
      intro ty hty
      split
      · apply ih
        · omega
        · simp only [List.length_drop]; omega
      split
      · exact isSome_pure _
      · apply isSome_bind (rd_isSome (by omega))
        intro len hlen
        split
        · exact isSome_pure _
        · apply isSome_bind
          · apply parseTlv_isSome; omega
          · intro r hr
            apply isSome_bind
            · apply ih
              · omega
              · simp only [List.length_drop]; omega
            · intro r hr; exact isSome_pure _

/-! Results depend only on the bytes read. -/

/-- `x` is undefined or equal to `y`. -/
def Below (x y : Option α) : Prop := ∀ r, x = some r → y = some r

theorem Below.refl (x : Option α) : Below x x := fun _ h => h

theorem Below.bind {x y : Option α} {f g : α → Option β} (h : Below x y)
    (hf : ∀ a, x = some a → Below (f a) (g a)) : Below (x >>= f) (y >>= g) := by
  intro r hr
  cases x with
  | none => simp at hr
  | some a =>
    rw [h a rfl]
    exact hf a rfl r hr

theorem Below.eq {x y : Option α} (h : Below x y) (hs : x.isSome) : y = x := by
  obtain ⟨a, ha⟩ := Option.isSome_iff_exists.1 hs
  rw [ha, h a ha]

theorem prefix_drop {p q : Bytes} (h : p <+: q) (k : Nat) : p.drop k <+: q.drop k := by
  obtain ⟨t, rfl⟩ := h
  rw [List.drop_append]
  exact List.prefix_append _ _

theorem rd_below {p q : Bytes} (h : p <+: q) (i : Nat) : Below (rd p i) (rd q i) := by
  intro r hr
  obtain ⟨t, rfl⟩ := h
  have := (rd_lt hr).2
  unfold rd at *
  rw [List.getElem?_append_left this]; exact hr

theorem rd16_below {p q : Bytes} (h : p <+: q) (i : Nat) : Below (rd16 p i) (rd16 q i) :=
  (rd_below h _).bind fun _ _ => (rd_below h _).bind fun _ _ => Below.refl _

theorem rd32_below {p q : Bytes} (h : p <+: q) (i : Nat) : Below (rd32 p i) (rd32 q i) :=
  (rd16_below h _).bind fun _ _ => (rd16_below h _).bind fun _ _ => Below.refl _

theorem rdN_below {p q : Bytes} (h : p <+: q) (n : Nat) : Below (rdN p n) (rdN q n) := by
  intro r hr
  obtain ⟨t, rfl⟩ := h
  unfold rdN at *
  split at hr
  · rename_i hn
    rw [if_pos (by simp; omega), List.take_append_of_le_length hn]; exact hr
  · simp at hr

theorem Below.ite {c : Prop} [Decidable c] {x y x' y' : Option α} (h : Below x y) (h' : Below x' y') :
    Below (if c then x else x') (if c then y else y') := by
  split <;> assumption

theorem networkPrefix_below {ae plen om dp len} {p q : Bytes} (h : p <+: q) :
    Below (networkPrefix ae plen om p dp len) (networkPrefix ae plen om q dp len) := by
  unfold networkPrefix
  simp only []
  refine .ite (.refl _) (.ite (.refl _) (.ite (.ite (.refl _) ?_) (.ite (.ite (.refl _) ?_)
    (.ite (.ite (.refl _) ?_) (.refl _)))))
  · split
    · exact .refl _
    · exact .bind (rdN_below h _) fun _ _ => .refl _
  · split
    · exact .refl _
    · exact .bind (rdN_below h _) fun _ _ => .refl _
  · exact .bind (rdN_below h _) fun _ _ => .refl _

theorem updatePrefix_below {s ae l om len} {p q : Bytes} (h : p <+: q) :
    Below (updatePrefix s ae l om p len) (updatePrefix s ae l om q len) := by
  unfold updatePrefix
  exact .ite (networkPrefix_below h) (.refl _)

theorem subTlvs_below {f : σ → Nat → Bytes → Nat → Option (Option σ)}
    (hf : ∀ s ty len {p q : Bytes}, p <+: q → Below (f s ty p len) (f s ty q len)) :
    ∀ fuel (alen : Int) s {p q : Bytes}, p <+: q → Below (subTlvs f fuel p alen s) (subTlvs f fuel q alen s) := by
  intro fuel
  induction fuel with
  | zero => intro _ _ _ _ _ _ h; simp [subTlvs] at h
  | succ n ih =>
    intro alen s p q h
    unfold subTlvs
    refine .ite (.refl _) (.bind (rd_below h _) fun ty _ => .ite (ih _ _ (prefix_drop h _)) (.ite (.refl _)
      (.bind (rd_below h _) fun len _ => .ite (.refl _) (.bind (hf _ _ _ (prefix_drop h _)) fun r _ => ?_))))
    split
    · exact .refl _
    · exact ih _ _ (prefix_drop h _)

theorem srcSub_below (ae) : ∀ s ty len {p q : Bytes}, p <+: q → Below (srcSub ae s ty p len) (srcSub ae s ty q len) := by
  intro s ty len p q h
  unfold srcSub
  exact .ite (.refl _) (.ite (.ite (.refl _) (.bind (rd_below h _) fun _ _ => .ite (.refl _) (.ite (.refl _)
    (.bind (networkPrefix_below (prefix_drop h _)) fun _ _ => .refl _)))) (.refl _))

theorem seqSub_below (ae) : ∀ s ty len {p q : Bytes}, p <+: q → Below (seqSub ae s ty p len) (seqSub ae s ty q len) := by
  intro s ty len p q h
  unfold seqSub
  exact .ite (.refl _) (.ite (.ite (.refl _) (.bind (rd_below h _) fun _ _ =>
    (.bind (networkPrefix_below (prefix_drop h _)) fun _ _ => .refl _))) (.refl _))

theorem helloSub_below : ∀ s ty len {p q : Bytes}, p <+: q → Below (helloSub s ty p len) (helloSub s ty q len) := by
  intro s ty len p q h
  unfold helloSub
  exact .ite (.refl _) (.ite (.ite (.bind (rd32_below h _) fun _ _ => .refl _) (.refl _)) (.refl _))

theorem ihuSub_below : ∀ s ty len {p q : Bytes}, p <+: q → Below (ihuSub s ty p len) (ihuSub s ty q len) := by
  intro s ty len p q h
  unfold ihuSub
  exact .ite (.refl _) (.ite (.ite (.bind (rd32_below h _) fun _ _ => .bind (rd32_below h _) fun _ _ => .refl _)
    (.refl _)) (.refl _))

theorem otherSub_below : ∀ s ty len {p q : Bytes}, p <+: q → Below (otherSub s ty p len) (otherSub s ty q len) := by
  intro s ty len p q h
  exact .refl _

theorem updateItems_below {e s ae l pfx seqno metric interval} {alen : Int} {p q : Bytes} (h : p <+: q) :
    Below (updateItems e s ae l pfx seqno metric interval p alen)
      (updateItems e s ae l pfx seqno metric interval q alen) := by
  unfold updateItems
  refine .ite (.refl _) ?_
  split
  · exact .refl _
  · exact .bind (subTlvs_below (srcSub_below _) _ _ _ h) fun _ _ => .refl _

theorem parseTlv_below {e s ty len} {p q : Bytes} (h : p <+: q) :
    Below (parseTlv e s ty p len) (parseTlv e s ty q len) := by
  unfold parseTlv
  refine .ite ?_ (.ite ?_ (.ite ?_ (.ite ?_ (.ite ?_ (.ite ?_ (.ite ?_ (.ite ?_ (.ite ?_ (.refl _)))))))))
  · unfold tlvAckReq
    exact .ite (.refl _) (.bind (rd16_below h _) fun _ _ => .bind (rd16_below h _) fun _ _ =>
      .bind (subTlvs_below otherSub_below _ _ _ (prefix_drop h _)) fun _ _ => .refl _)
  · unfold tlvAck
    exact .bind (subTlvs_below otherSub_below _ _ _ (prefix_drop h _)) fun _ _ => .refl _
  · unfold tlvHello
    exact .ite (.refl _) (.bind (rd_below h _) fun _ _ => .bind (rd16_below h _) fun _ _ => .bind (rd16_below h _) fun _ _ =>
      .bind (subTlvs_below helloSub_below _ _ _ (prefix_drop h _)) fun _ _ => .refl _)
  · unfold tlvIhu
    refine .ite (.refl _) (.bind (rd_below h _) fun _ _ => .ite (.refl _)
      (.bind (rd16_below h _) fun _ _ => .bind (rd16_below h _) fun _ _ =>
      .bind (networkPrefix_below (prefix_drop h _)) fun r _ => ?_))
    split
    · exact .refl _
    · exact .ite (.bind (subTlvs_below ihuSub_below _ _ _ (prefix_drop h _)) fun _ _ => .refl _) (.refl _)
  · unfold tlvRouterId
    exact .ite (.refl _) (.bind (rdN_below (prefix_drop h _) _) fun _ _ =>
      .bind (subTlvs_below otherSub_below _ _ _ (prefix_drop h _)) fun _ _ => .refl _)
  · unfold tlvNh
    refine .ite (.refl _) (.bind (rd_below h _) fun _ _ =>
      .bind (networkPrefix_below (prefix_drop h _)) fun r _ => .ite (.refl _) (.ite (.refl _) ?_))
    split
    · exact .refl _
    · exact .ite (.bind (subTlvs_below otherSub_below _ _ _ (prefix_drop h _)) fun _ _ => .refl _)
        (.ite (.bind (subTlvs_below otherSub_below _ _ _ (prefix_drop h _)) fun _ _ => .refl _) (.refl _))
  · unfold tlvUpdate
    refine .ite (.ite (.refl _) (.bind (rd_below h _) fun _ _ => .refl _)) (.bind (rd_below h _) fun _ _ =>
      .ite (.refl _) (.ite (.refl _) (.bind (rd_below h _) fun _ _ => .bind (rd_below h _) fun _ _ =>
      .bind (rd_below h _) fun _ _ => .bind (rd16_below h _) fun _ _ => .bind (rd16_below h _) fun _ _ =>
      .bind (rd16_below h _) fun _ _ =>
      .bind (updatePrefix_below (prefix_drop h _)) fun r _ => ?_)))
    split
    · exact .refl _
    · exact .bind (updateItems_below (prefix_drop h _)) fun _ _ => .refl _
  · unfold tlvRequest
    refine .ite (.refl _) (.bind (rd_below h _) fun _ _ => .ite (.refl _) (.bind (rd_below h _) fun _ _ =>
      .bind (networkPrefix_below (prefix_drop h _)) fun r _ => ?_))
    split
    · exact .refl _
    · exact .bind (subTlvs_below (srcSub_below _) _ _ _ (prefix_drop h _)) fun _ _ => .refl _
  · unfold tlvSeqno
    refine .ite (.refl _) (.bind (rd_below h _) fun _ _ => .ite (.refl _) (.bind (rd_below h _) fun _ _ =>
      .bind (rd16_below h _) fun _ _ =>
      .bind (networkPrefix_below (prefix_drop h _)) fun r _ => ?_))
    split
    · exact .refl _
    · refine .bind (subTlvs_below (seqSub_below _) _ _ _ (prefix_drop h _)) fun _ _ => ?_
      split
      · exact .refl _
      · exact .bind (rd_below h _) fun _ _ => .bind (rdN_below (prefix_drop h _) _) fun _ _ => .refl _

end Babel
