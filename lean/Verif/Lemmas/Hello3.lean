import Verif.Lemmas.Hello2
/-
The numbers of hellos and the addressees of IHUs.
-/
set_option linter.unusedSimpArgs false
set_option linter.unusedVariables false
set_option linter.unusedSectionVars false
namespace Babel
open Spec

theorem u16_step (q : UInt16) (n : Nat) : q + 1 + UInt16.ofNat n = q + UInt16.ofNat (n + 1) := by
  rw [UInt16.ofNat_add, UInt16.add_assoc]
  congr 1
  rw [UInt16.add_comm]
  rfl

theorem numbered_append (u : Bool) (a b : List Nat) : ∀ q, numbered u q (a ++ b) = numbered u q a ++ numbered u (q + UInt16.ofNat a.length) b := by
  induction a with
  | nil => intro q; simp [numbered]
  | cons v a ih =>
    intro q
    rw [List.cons_append, numbered, numbered, ih, List.cons_append, List.length_cons, u16_step]

/-- The hellos sent on the interfaces in `S`. -/
def Greets (S : IfId → Prop) (V : IfId → List Nat → Prop) (t t' : Talk) : Prop :=
  ∀ i, S i → ∃ vs, V i vs ∧ t'.seq i = t.seq i + UInt16.ofNat vs.length ∧
    ∀ E : PEnv, linklocal E.sender = true → hellosOn E (t'.d.link i) 0 = hellosOn E (t.d.link i) 0 ++ numbered false (t.seq i) vs

theorem Greets.trans {S : IfId → Prop} {V V' W : IfId → List Nat → Prop} {a b c : Talk} (h : Greets S V a b) (g : Greets S V' b c)
    (hW : ∀ i x y, V i x → V' i y → W i (x ++ y)) : Greets S W a c := by
  intro i hi
  obtain ⟨v1, p1, s1, r1⟩ := h i hi
  obtain ⟨v2, p2, s2, r2⟩ := g i hi
  refine ⟨v1 ++ v2, hW i v1 v2 p1 p2, ?_, fun E hE => ?_⟩
  · rw [s2, s1, List.length_append, UInt16.ofNat_add, UInt16.add_assoc]
  · rw [r2 E hE, r1 E hE, numbered_append, s1, List.append_assoc]

theorem Greets.mono {S : IfId → Prop} {V W : IfId → List Nat → Prop} {a b : Talk} (h : Greets S V a b) (hW : ∀ i x, V i x → W i x) : Greets S W a b := by
  intro i hi
  obtain ⟨v1, p1, s1, r1⟩ := h i hi
  exact ⟨v1, hW i v1 p1, s1, r1⟩

theorem Greets.refl {S : IfId → Prop} {V : IfId → List Nat → Prop} {a b : Talk} (hV : ∀ i, V i []) (hs : b.seq = a.seq)
    (hr : ∀ i, S i → ∀ E : PEnv, linklocal E.sender = true → hellosOn E (b.d.link i) 0 = hellosOn E (a.d.link i) 0) : Greets S V a b := by
  intro i hi
  refine ⟨[], hV i, ?_, fun E hE => ?_⟩
  · rw [hs]
    simp
  · rw [hr i hi E hE]
    simp [numbered]

/-- The hellos sent to single neighbours. -/
def Unis (e : DCfg) (t : Talk) : Prop :=
  ∀ n j, (n, j) ∈ shape t.d → ∃ k, t.useq n = UInt16.ofNat k ∧ ∀ E : PEnv, linklocal E.sender = true →
    hellosOn E (t.d.link (e.node.ifOf n)) j = numbered true 0 (List.replicate k 0)

theorem hello_chat : ∀ it, isChat it = false → asHello it = none := by
  intro it h
  cases it <;> first | rfl | cases h

theorem ihu_chat : ∀ it, isChat it = false → asIhu it = none := by
  intro it h
  cases it <;> first | rfl | cases h

section
variable {e : DCfg} {X : PKey → Prop} {s0 : St} {S : IfId → Prop}

theorem Chats.hellos {a b : Daemon} {w : PEnv → IfId → Nat → List Item} (h : Chats e X s0 S a b w) {E : PEnv} (hE : linklocal E.sender = true)
    {i : IfId} {j : Nat} (hj : j ≠ 0 ∨ S i) : hellosOn E (b.link i) j = hellosOn E (a.link i) j ++ (w E i j).filterMap asHello :=
  h.adds _ asHello hello_chat E hE i j hj

theorem Chats.ihus {a b : Daemon} {w : PEnv → IfId → Nat → List Item} (h : Chats e X s0 S a b w) {E : PEnv} (hE : linklocal E.sender = true)
    {i : IfId} {j : Nat} (hj : j ≠ 0 ∨ S i) : ihusOn E (b.link i) j = ihusOn E (a.link i) j ++ (w E i j).filterMap asIhu :=
  h.adds _ asIhu ihu_chat E hE i j hj

theorem greeting_hello (b u : Bool) (i : IfId) (j : Nat) (q : UInt16) (v : Nat) (E : PEnv) (i0 : IfId) (j0 : Nat) :
    (greeting b u i j q v E i0 j0).filterMap asHello = if b = true ∧ (i, j) = (i0, j0) then [(u, q.toNat, v)] else [] := by
  unfold greeting
  split <;> rfl

theorem greeting_ihu (b u : Bool) (i : IfId) (j : Nat) (q : UInt16) (v : Nat) (E : PEnv) (i0 : IfId) (j0 : Nat) :
    (greeting b u i j q v E i0 j0).filterMap asIhu = [] := by
  unfold greeting
  split <;> rfl

theorem ihuRead_hello (d : Daemon) (n : NeighId) (x : DNbr) (j : Nat) (E : PEnv) (i0 : IfId) (j0 : Nat) :
    (ihuRead e d n x j E i0 j0).filterMap asHello = [] := by
  unfold ihuRead
  split <;> rfl

theorem ihuRead_ihu (d : Daemon) (n : NeighId) (x : DNbr) (j : Nat) (E : PEnv) (i0 : IfId) (j0 : Nat) :
    (ihuRead e d n x j E i0 j0).filterMap asIhu =
      if (e.node.ifOf n, j) = (i0, j0) ∧ E.isOurs (e.addr n) = true then [ihuFor e d n x] else [] := by
  unfold ihuRead
  split <;> rfl

theorem Chats.shape {a b : Daemon} {w : PEnv → IfId → Nat → List Item} (h : Chats e X s0 S a b w) : shape b = shape a := by
  unfold Babel.shape
  rw [h.nbrs]

/-- At most one multicast and at most one unicast hello. -/
theorem greets_of {t : Talk} {d' : Daemon} {bm bu : Bool} {im : IfId} {n : NeighId} {j v : Nat} {rest : PEnv → IfId → Nat → List Item}
    (h : TInv e X s0 S t.d)
    (c : Chats e X s0 S t.d d' (fun E i0 j0 => (greeting bm false im 0 (t.seq im + 1) v E i0 j0 ++
      greeting bu true (e.node.ifOf n) j (t.useq n + 1) 0 E i0 j0) ++ rest E i0 j0))
    (hr : ∀ E i0 j0, (rest E i0 j0).filterMap asHello = []) (hj : bu = true → (n, j) ∈ shape t.d) :
    Greets S (fun i vs => vs = if bm = true ∧ i = im then [v] else []) t ⟨d', bump t.seq bm im, bump t.useq bu n⟩ ∧
      (Unis e t → Unis e ⟨d', bump t.seq bm im, bump t.useq bu n⟩) := by
  constructor
  · intro i hi
    refine ⟨_, rfl, ?_, fun E hE => ?_⟩
    · show (if bm = true ∧ i = im then t.seq im + 1 else t.seq i) = _
      by_cases hc : bm = true ∧ i = im
      · rw [if_pos hc, if_pos hc, hc.2]
        rfl
      · rw [if_neg hc, if_neg hc]
        simp
    · show hellosOn E (d'.link i) 0 = _
      rw [c.hellos hE (.inr hi), List.filterMap_append, List.filterMap_append, hr, List.append_nil, greeting_hello, greeting_hello]
      have hu : ¬ (bu = true ∧ (e.node.ifOf n, j) = (i, 0)) := by
        rintro ⟨h1, h2⟩
        exact (HoldsAt.buf ⟨_, h.inv⟩ (hj h1)).2 (Prod.mk.inj h2).2
      rw [if_neg hu, List.append_nil]
      congr 1
      by_cases hc : bm = true ∧ i = im
      · obtain ⟨h1, h2⟩ := hc
        subst h2
        rw [if_pos ⟨h1, rfl⟩, if_pos ⟨h1, rfl⟩]
        rfl
      · rw [if_neg hc, if_neg fun h => hc ⟨h.1, (Prod.mk.inj h.2).1.symm⟩]
        rfl
  · intro hU m j' hm
    replace hm : (m, j') ∈ shape d' := hm
    rw [c.shape] at hm
    have hj0 : j' ≠ 0 := (HoldsAt.buf ⟨_, h.inv⟩ hm).2
    obtain ⟨k, u1, u2⟩ := hU m j' hm
    by_cases hc : bu = true ∧ m = n
    · obtain ⟨hb, rfl⟩ := hc
      have hjj : j = j' := by
        obtain ⟨x, hx, rfl⟩ := shape_mem h.housed.nodup hm
        obtain ⟨y, hy, rfl⟩ := shape_mem h.housed.nodup (hj hb)
        rw [hx] at hy
        rw [Option.some.inj hy]
      subst hjj
      refine ⟨k + 1, ?_, fun E hE => ?_⟩
      · show (if bu = true ∧ m = m then t.useq m + 1 else t.useq m) = _
        rw [if_pos ⟨hb, rfl⟩, u1, UInt16.ofNat_add]
        rfl
      · show hellosOn E (d'.link _) j = _
        rw [c.hellos hE (.inl hj0), List.filterMap_append, List.filterMap_append, hr, List.append_nil, greeting_hello, greeting_hello,
          if_neg (fun h => hj0 (Prod.mk.inj h.2).2.symm), List.nil_append, if_pos ⟨hb, rfl⟩, u2 E hE, List.replicate_succ', numbered_append, u1,
          List.length_replicate, UInt16.zero_add]
        rfl
    · refine ⟨k, ?_, fun E hE => ?_⟩
      · show (if bu = true ∧ m = n then t.useq n + 1 else t.useq m) = _
        rw [if_neg hc, u1]
      · show hellosOn E (d'.link _) j' = _
        rw [c.hellos hE (.inl hj0), List.filterMap_append, List.filterMap_append, hr, List.append_nil, greeting_hello, greeting_hello,
          if_neg (fun h => hj0 (Prod.mk.inj h.2).2.symm), List.nil_append, if_neg, List.append_nil, u2 E hE]
        rintro ⟨h1, h2⟩
        exact hc ⟨h1, h.housed.apart _ hm _ (hj h1) (Prod.mk.inj h2).1.symm (Prod.mk.inj h2).2.symm⟩

theorem ihuFor_same {a b : Daemon} {w : PEnv → IfId → Nat → List Item} (ha : TInv e X s0 S a) (h : Chats e X s0 S a b w) (n : NeighId) (x : DNbr) :
    ihuFor e b n x = ihuFor e a n x := by
  unfold ihuFor linkCfgOf
  rw [h.now, h.up, ha.ms h.inv]

theorem tells_one {d d' : Daemon} {n : NeighId} {x : DNbr} {j : Nat} {w : PEnv → IfId → Nat → List Item}
    (c : Chats e X s0 S d d' (fun E i0 j0 => w E i0 j0 ++ ihuRead e d n x j E i0 j0)) (hw : ∀ E i0 j0, (w E i0 j0).filterMap asIhu = []) :
    Tells e S d d' [(n, x, j)] := by
  intro E hE i0 j0 hj
  rw [c.ihus hE hj, List.filterMap_append, hw, List.nil_append, ihuRead_ihu]
  congr 1
  by_cases hc : (e.node.ifOf n, j) = (i0, j0) ∧ E.isOurs (e.addr n) = true
  · rw [if_pos hc, List.filter_cons_of_pos]
    · rfl
    · simp only [Bool.and_eq_true, beq_iff_eq]
      exact ⟨⟨(Prod.mk.inj hc.1).1, (Prod.mk.inj hc.1).2⟩, hc.2⟩
  · rw [if_neg hc, List.filter_cons_of_neg]
    · rfl
    · simp only [Bool.and_eq_true, beq_iff_eq]
      exact fun h => hc ⟨by rw [h.1.1, h.1.2], h.2⟩

theorem Spec.Tells.trans {a b c : Daemon} {l l' : List (NeighId × DNbr × Nat)} (h : Tells e S a b l) (g : Tells e S b c l')
    (hs : ∀ n x, ihuFor e b n x = ihuFor e a n x) : Tells e S a c (l ++ l') := by
  intro E hE i j hj
  rw [g E hE i j hj, h E hE i j hj, List.append_assoc, List.filter_append, List.map_append]
  simp only [hs]

theorem Spec.Tells.start {a b : Daemon} {w : PEnv → IfId → Nat → List Item} (c : Chats e X s0 S a b w) (hw : ∀ E i0 j0, (w E i0 j0).filterMap asIhu = []) :
    Tells e S a b [] := by
  intro E hE i j hj
  rw [c.ihus hE hj, hw]
  rfl

variable (he : DCfgOk e) (hX : ∀ a b, X a → X b → Proper ⟨a.prefix_, b.plen, b.srcPrefix, a.srcPlen⟩) (hA : ∀ n, (e.addr n).length = 16)

include he hX hA in
/-- IHUs to several neighbours on interface `i`. -/
theorem ihus_did {i : IfId} (ps : List (NeighId × DNbr)) : ∀ {t : Talk}, TInv e X s0 S t.d → ifUp t.d.st i = true →
    (∀ p ∈ ps, e.node.ifOf p.1 = i ∧ t.d.nbr p.1 = some p.2) →
    ∃ t', (ps.map (·.1)).foldlM (fun t n => t.sendIhu e n) t = some t' ∧ (∃ w, Chats e X s0 S t.d t'.d w) ∧
      Greets S (fun x vs => ∃ k, vs = List.replicate k 0 ∧ (x = i → ((e.ifs i).timestamps = true ∨ k = 0)) ∧ (x ≠ i → k = 0)) t t' ∧ (Unis e t → Unis e t') ∧
      (∀ x, x ≠ i → t'.seq x = t.seq x) ∧ ((e.ifs i).timestamps = false → t'.seq = t.seq) ∧
      ∃ js : List (NeighId × DNbr × Nat), js.map (fun p => (p.1, p.2.1)) = ps ∧ (∀ p ∈ js, p.2.2 = 0 ∨ p.2.2 = p.2.1.buf) ∧
        Tells e S t.d t'.d js := by
  induction ps with
  | nil =>
    intro t h hup hp
    refine ⟨t, rfl, ⟨_, .refl h⟩, .refl (fun i => ⟨0, rfl, fun _ => .inr rfl, fun _ => rfl⟩) rfl fun _ _ _ _ => rfl, id, fun _ _ => rfl, fun _ => rfl, [], rfl, nofun,
      .start (.refl h) fun _ _ _ => rfl⟩
  | cons p ps ih =>
    intro t h hup hp
    obtain ⟨hi, hx⟩ := hp p (List.mem_cons_self ..)
    obtain ⟨n, x⟩ := p
    have hi : e.node.ifOf n = i := hi
    subst hi
    have hx : t.d.nbr n = some x := hx
    obtain ⟨d1, b, one, e1, c1, ht⟩ := sendIhu_did he hX hA h hx hup
    obtain ⟨g1, u1⟩ := greets_of h c1 (fun E i0 j0 => ihuRead_hello ..) (fun _ => mem_shape hx)
    have tl := tells_one (w := fun E i0 j0 => greeting (b && !one) false (e.node.ifOf n) 0 (t.seq (e.node.ifOf n) + 1) 0 E i0 j0 ++
          greeting (b && one) true (e.node.ifOf n) x.buf (t.useq n + 1) 0 E i0 j0) c1
      (fun E i0 j0 => by rw [List.filterMap_append, greeting_ihu, greeting_ihu]; rfl)
    obtain ⟨t2, e2, ⟨w2, c2⟩, g2, u2, q2, z2, js, j1, j2, tl2⟩ := ih (t := ⟨d1, bump t.seq (b && !one) (e.node.ifOf n), bump t.useq (b && one) n⟩) c1.inv
      (by show ifUp d1.st _ = true; rw [c1.up]; exact hup)
      (fun p hq => ⟨(hp p (List.mem_cons_of_mem _ hq)).1, by
        show d1.nbr p.1 = some p.2
        rw [c1.nbr]
        exact (hp p (List.mem_cons_of_mem _ hq)).2⟩)
    refine ⟨t2, ?_, ⟨_, c1.trans c2⟩, g1.trans g2 ?_, fun hU => u2 (u1 hU), fun y hy => ?_, fun hT => ?_,
      (n, x, if one then x.buf else 0) :: js, ?_, ?_, tl.trans tl2 fun m y => ihuFor_same h c1 m y⟩
    · rw [List.map_cons, List.foldlM_cons, e1]
      exact e2
    · rintro y vs vs' rfl ⟨k, rfl, hk, hk'⟩
      by_cases hc : (b && !one) = true ∧ y = e.node.ifOf n
      · rw [if_pos hc]
        have hb : b = true := (Bool.and_eq_true _ _ ▸ hc.1).1
        exact ⟨k + 1, rfl, fun _ => .inl (ht hb), fun h => absurd hc.2 h⟩
      · rw [if_neg hc]
        exact ⟨k, rfl, hk, hk'⟩
    · rw [q2 y hy]
      show (if (b && !one) = true ∧ y = e.node.ifOf n then _ else _) = _
      rw [if_neg fun h => hy h.2]
    · rw [z2 hT]
      show bump t.seq (b && !one) _ = _
      have : b = false := by
        cases b with
        | false => rfl
        | true => rw [ht rfl] at hT; cases hT
      rw [this, Bool.false_and, bump_false]
    · rw [List.map_cons, j1]
    · intro p hp
      rcases List.mem_cons.1 hp with rfl | hp
      · cases one
        · exact .inl rfl
        · exact .inr rfl
      · exact j2 p hp

end

end Babel
