import Verif.Lemmas.Hello1
/-
What hellos and IHUs do to the buffers.
-/
set_option linter.unusedSimpArgs false
set_option linter.unusedVariables false
set_option linter.unusedSectionVars false
namespace Babel
open Spec

theorem drun_append {e : DCfg} {d d1 d2 : Daemon} {l1 l2 : List DEv} (h1 : drun e d l1 = some d1) (h2 : drun e d1 l2 = some d2) :
    drun e d (l1 ++ l2) = some d2 := by
  unfold drun at *
  rw [List.foldlM_append, h1]
  exact h2

/-- The items `w` are added to what is read. -/
def Adds (S : IfId → Prop) (d d' : Daemon) (w : PEnv → IfId → Nat → List Item) : Prop :=
  ∀ (β : Type) (f : Item → Option β), (∀ it, isChat it = false → f it = none) → ∀ E : PEnv, linklocal E.sender = true →
    ∀ i j, j ≠ 0 ∨ S i → reads f E (d'.link i) j = reads f E (d.link i) j ++ (w E i j).filterMap f

theorem Adds.trans {S : IfId → Prop} {a b c : Daemon} {w w' : PEnv → IfId → Nat → List Item} (h : Adds S a b w) (g : Adds S b c w') :
    Adds S a c (fun E i j => w E i j ++ w' E i j) := by
  intro β f hf E hE i j hj
  rw [g β f hf E hE i j hj, h β f hf E hE i j hj, List.filterMap_append, List.append_assoc]

theorem Adds.congr {S : IfId → Prop} {a b : Daemon} {w w' : PEnv → IfId → Nat → List Item} (h : Adds S a b w) (g : ∀ E i j, w E i j = w' E i j) :
    Adds S a b w' := by
  have : w = w' := by funext E i j; exact g E i j
  rw [← this]
  exact h

theorem Adds.refl (S : IfId → Prop) (d : Daemon) : Adds S d d (fun _ _ _ => []) := by
  intro β f hf E hE i j hj
  rw [List.filterMap_nil, List.append_nil]

structure TInv (e : DCfg) (X : PKey → Prop) (s0 : St) (S : IfId → Prop) (d : Daemon) : Prop where
  inv : DInv (talkKit e X s0 S (fun _ => True)) d
  housed : Housed e d

/-- Nothing but the buffers and what is unrelated to neighbours has changed. -/
structure Chats (e : DCfg) (X : PKey → Prop) (s0 : St) (S : IfId → Prop) (d d' : Daemon) (w : PEnv → IfId → Nat → List Item) : Prop where
  inv : TInv e X s0 S d'
  nbrs : d'.nbrs = d.nbrs
  now : d'.st.now = d.st.now
  up : ifUp d'.st = ifUp d.st
  adds : Adds S d d' w
  devs : ∃ l, drun e d l = some d' ∧ ∀ ev ∈ l, DEvOk e Proper X SndOk ev

section
variable {e : DCfg} {X : PKey → Prop} {s0 : St} {S : IfId → Prop}

theorem Chats.refl {d : Daemon} (h : TInv e X s0 S d) : Chats e X s0 S d d (fun _ _ _ => []) :=
  ⟨h, rfl, rfl, rfl, .refl S d, [], rfl, fun _ h => by cases h⟩

theorem Chats.trans {a b d : Daemon} {w w' : PEnv → IfId → Nat → List Item} (h : Chats e X s0 S a b w) (g : Chats e X s0 S b d w') :
    Chats e X s0 S a d (fun E i j => w E i j ++ w' E i j) := by
  obtain ⟨l1, e1, o1⟩ := h.devs
  obtain ⟨l2, e2, o2⟩ := g.devs
  exact ⟨g.inv, g.nbrs.trans h.nbrs, g.now.trans h.now, g.up.trans h.up, h.adds.trans g.adds, l1 ++ l2, drun_append e1 e2, fun ev hev =>
    (List.mem_append.1 hev).elim (o1 ev) (o2 ev)⟩

theorem Chats.congr {a b : Daemon} {w w' : PEnv → IfId → Nat → List Item} (h : Chats e X s0 S a b w) (g : ∀ E i j, w E i j = w' E i j) :
    Chats e X s0 S a b w' := ⟨h.inv, h.nbrs, h.now, h.up, h.adds.congr g, h.devs⟩

theorem Chats.nbr {a b : Daemon} {w : PEnv → IfId → Nat → List Item} (h : Chats e X s0 S a b w) (n : NeighId) : b.nbr n = a.nbr n := by
  unfold Daemon.nbr
  rw [h.nbrs]

theorem Chats.sif {a b : Daemon} {w : PEnv → IfId → Nat → List Item} (ha : TInv e X s0 S a) (h : Chats e X s0 S a b w) (i : IfId) :
    sifOf e b.st i = sifOf e a.st i := by
  rw [HoldsAt.tsif ⟨_, h.inv.inv⟩, HoldsAt.tsif ⟨_, ha.inv⟩, h.up]

theorem helloMs_core {d : Daemon} {s : St} (h : d.st.ifaces.map Iface.core = s.ifaces.map Iface.core) (i : IfId) :
    helloMs d i = match getIf s i with | some x => x.helloInterval | none => 0 := by
  have h := getIf_core h i
  unfold helloMs
  cases h1 : getIf d.st i with
  | none =>
    rw [h1] at h
    cases h2 : getIf s i with
    | none => rfl
    | some y => rw [h2] at h; cases h
  | some x =>
    rw [h1] at h
    cases h2 : getIf s i with
    | none => rw [h2] at h; cases h
    | some y =>
      rw [h2] at h
      have h := Option.some.inj h
      exact congrArg (fun z => z.helloInterval) h

theorem TInv.ms {a b : Daemon} (ha : TInv e X s0 S a) (hb : TInv e X s0 S b) (i : IfId) : helloMs b i = helloMs a i := by
  rw [helloMs_core ha.inv.ifs, helloMs_core hb.inv.ifs]

variable (he : DCfgOk e) (hX : ∀ a b, X a → X b → Proper ⟨a.prefix_, b.plen, b.srcPrefix, a.srcPlen⟩)

include he hX in
/-- Writing to a buffer. -/
theorem write_did {t : Talk} (h : TInv e X s0 S t.d) (i : IfId) (j : Nat) (op : Snd) (hj : j < t.d.fresh i) (hb : ifUp t.d.st i = true ∨ j ≠ 0)
    (hc : isChatter op = true) (ho : SndOk op) :
    ∃ d', t.write e i j op = some { t with d := d' } ∧
      Chats e X s0 S t.d d' (fun E i0 j0 => if (i, j) = (i0, j0) then told E (sifOf e t.d.st i0) ((t.d.link i0).bufs j0).hello.isSome op else []) := by
  have hK := talkKit_ok he hX s0 S (Q0 := fun _ => True) fun _ _ => trivial
  obtain ⟨d', w, i', e1, e2, e3⟩ := h.inv.write hK (done' := t.d.st.out) i j op hj hb ⟨fine_of_ok op hc ho, trivial⟩ (fun _ h => h)
    (by cases op <;> first | trivial | cases hc) (fun _ _ _ => rfl) (fun _ _ => by cases op <;> first | (cases hc; done) | simp [updAt])
  have w1 : t.d.write e i j op = some d' := w.eq
  refine ⟨d', ?_, ⟨?_, wrote_housed w h.housed⟩, e2, by rw [e1], by rw [e1], ?_, [.say i j op], ?_, ?_⟩
  · unfold Talk.write
    rw [w1]
    rfl
  · unfold DInv
    rw [e1]
    exact i'
  · intro β f hf E hE i0 j0 h0
    rw [wrote_talks he hE w h0]
    congr 1
    dsimp only
    split <;> rfl
  · unfold drun
    rw [List.foldlM_cons]
    have : dstep e t.d (.say i j op) = some d' := by
      show (if isChatter op ∧ j < t.d.fresh i ∧ (ifUp t.d.st i = true ∨ j ≠ 0) then t.d.write e i j op else some t.d) = some d'
      rw [if_pos ⟨hc, hj, hb⟩, w1]
    rw [this]
    rfl
  · intro ev hev
    rw [List.mem_singleton] at hev
    subst hev
    exact ho

omit he hX in
theorem evOk_change {Q Q' : Snd → Prop} {ev : DEv} (h : DEvOk e Proper X Q ev) (hn : ∀ i j op, ev ≠ .say i j op) : DEvOk e Proper X Q' ev := by
  cases ev with
  | say i j op => exact absurd rfl (hn i j op)
  | node ev => cases ev <;> exact h
  | _ => exact h

include he hX in
/-- An event other than a hello or IHU. -/
theorem other_did {d d' : Daemon} (h : TInv e X s0 S d) {ev : DEv} (hev : DEvOk e Proper X SndOk ev) (ho : isOther ev = true)
    (hs : ∀ i, S i → Staying i (.ev ev)) (hk : dstep e d ev = some d') : TInv e X s0 S d' ∧ Adds S d d' (fun _ _ _ => []) ∧
      (∀ i, d.fresh i ≤ d'.fresh i) ∧ ∀ p ∈ shape d', p ∈ shape d ∨ d.fresh (e.node.ifOf p.1) ≤ p.2 := by
  have hK := talkKit_ok he hX s0 S (Q0 := fun op => mute op = true) fun _ h => h
  have hi : DInv (talkKit e X s0 S (fun op => mute op = true)) d := talk_inv h.inv
  have hg : DEvGood (talkKit e X s0 S (fun op => mute op = true)) d ev := by
    by_cases hsay : ∃ i j op, ev = .say i j op
    · obtain ⟨i, j, op, rfl⟩ := hsay
      cases op <;> first | (cases ho; done) | exact fun _ => ⟨fine_of_ok .flush rfl trivial, rfl⟩
    · refine good_of_ok hK (fun _ _ => trivial) rfl (Q := (talkKit e X s0 S (fun op => mute op = true)).Q) (fun op _ h => h) hi ev
        (evOk_change hev fun i j op h => hsay ⟨i, j, op, h⟩) ?_
      cases ev with
      | down i => exact ⟨fun hS => hs _ hS rfl, fun _ => trivial⟩
      | up i mtu fi full => exact fun hS => hs _ hS rfl
      | _ => trivial
  obtain ⟨d2, e2, i2, _, ls, t2, _⟩ := hi.dstep hK ev hg
  have e2 : dstep e d ev = some d2 := e2
  rw [hk] at e2
  cases e2
  refine ⟨⟨talk_inv i2, trace_housed t2.1 h.housed⟩, fun β f hf E hE i j hj => ?_, trace_known t2.1⟩
  rw [trace_mute he hE hf t2.1 hj, List.filterMap_nil, List.append_nil]

include he hX in
/-- Other events do not fail. -/
theorem other_ok {d : Daemon} (h : TInv e X s0 S d) {ev : DEv} (hev : DEvOk e Proper X SndOk ev)
    (hs : ∀ i, S i → Staying i (.ev ev)) : ∃ d', dstep e d ev = some d' := by
  have hK := talkKit_ok he hX s0 S (Q0 := fun _ => True) fun _ _ => trivial
  have hg : DEvGood (talkKit e X s0 S (fun _ => True)) d ev := by
    refine good_of_ok hK (fun _ _ => trivial) rfl (Q := SndOk) (fun op hc h => ⟨fine_of_ok op hc h, trivial⟩) h.inv ev hev ?_
    cases ev with
    | down i => exact ⟨fun hS => hs _ hS rfl, fun _ => trivial⟩
    | up i mtu fi full => exact fun hS => hs _ hS rfl
    | _ => trivial
  obtain ⟨d2, e2, _⟩ := h.inv.dstep hK ev hg
  exact ⟨d2, e2⟩

include he hX in
/-- The updates that are waiting are sent. -/
theorem flush_did {d : Daemon} (h : TInv e X s0 S d) (i : IfId) :
    ∃ d', d.node e (.flushUpdates i) = some d' ∧ Chats e X s0 S d d' (fun _ _ _ => []) := by
  have hev : DEvOk e Proper X SndOk (.node (.flushUpdates i)) := trivial
  have hs : ∀ x, S x → Staying x (.ev (.node (.flushUpdates i))) := fun _ _ => trivial
  obtain ⟨d', hk⟩ := other_ok he hX h hev hs
  obtain ⟨r1, r2, _⟩ := other_did he hX h hev rfl hs hk
  have hn : d.node e (.flushUpdates i) = some d' := hk
  have h1 : d.nodeAs e (fun l => l) (.flushUpdates i) = some d' := hn
  obtain ⟨costs, nc, l, hd, _, hc, _⟩ := nodeAs_spec h1
  have hst : d'.st = step e.node { d.st with ncost := nc } (.flushUpdates i) := by
    rw [hd]
    show run e.node d.st (costs ++ [Ev.flushUpdates i]) = _
    unfold run at hc ⊢
    rw [List.foldl_append, hc]
    rfl
  have hK := talkKit_ok he hX s0 S (Q0 := fun _ => True) fun _ _ => trivial
  have t := tame_step hK.rules (s := { d.st with ncost := nc }) (keys_of_eq h.inv.keys rfl rfl rfl rfl rfl) (.flushUpdates i) trivial
    nofun nofun (fun _ => ⟨nofun, nofun⟩)
  refine ⟨d', hn, r1, by rw [hd], ?_, ?_, r2, [.node (.flushUpdates i)], ?_, ?_⟩
  · rw [hst]
    exact t.now
  · rw [hst]
    funext x
    have t2 := t.ifs
    exact (ifUp_fixed t2 x)
  · unfold drun
    rw [List.foldlM_cons, hk]
    rfl
  · intro ev hev
    rw [List.mem_singleton] at hev
    subst hev
    trivial

/-! ### Hellos -/

/-- One hello more. -/
def bump (f : Nat → UInt16) (b : Bool) (i : Nat) : Nat → UInt16 := fun x => if b = true ∧ x = i then f i + 1 else f x

theorem bump_false (f : Nat → UInt16) (i : Nat) : bump f false i = f := by
  funext x
  simp [bump]

theorem bump_true (f : Nat → UInt16) (i : Nat) : bump f true i = fun x => if x = i then f i + 1 else f x := by
  funext x
  simp [bump]

/-- What is read after a hello. -/
def greeting (b u : Bool) (i : IfId) (j : Nat) (q : UInt16) (v : Nat) : PEnv → IfId → Nat → List Item :=
  fun _ i0 j0 => if b = true ∧ (i, j) = (i0, j0) then [.hello u q.toNat v none] else []

include he hX in
theorem newHello_did {t : Talk} (h : TInv e X s0 S t.d) {i : IfId} (hup : ifUp t.d.st i = true) (v : Nat) :
    ∃ d', t.newHello e i v = some ⟨d', bump t.seq true i, t.useq⟩ ∧
      Chats e X s0 S t.d d' (greeting true false i 0 (t.seq i + 1) (min v 65535)) := by
  obtain ⟨d', e1, r⟩ := write_did he hX (t := { t with seq := bump t.seq true i }) h i 0 (.hello (t.seq i + 1).toNat v false true)
    (h.inv.pos i) (.inl hup) rfl (UInt16.toNat_lt _)
  refine ⟨d', ?_, r.congr fun E i0 j0 => ?_⟩
  · unfold Talk.newHello
    rw [bump_true] at e1 ⊢
    exact e1
  · unfold greeting
    simp [told]

include he hX in
theorem multicast_did {t : Talk} (h : TInv e X s0 S t.d) (i : IfId) (v : Nat) (force : Bool) :
    ∃ d' b, t.multicastHello e i v force = some ⟨d', bump t.seq b i, t.useq⟩ ∧
      Chats e X s0 S t.d d' (greeting b false i 0 (t.seq i + 1) (min v 65535)) ∧
      (b = true → ifUp t.d.st i = true ∧ ¬ (v = 0 ∧ (sifOf e t.d.st i).rfc6126 = true)) ∧
      (ifUp t.d.st i = true → ¬ (v = 0 ∧ (sifOf e t.d.st i).rfc6126 = true) → force = true → b = true) := by
  unfold Talk.multicastHello
  have hno : ∀ P : Prop, ¬ P → ∃ d' b, (some t : Option Talk) = some ⟨d', bump t.seq b i, t.useq⟩ ∧
      Chats e X s0 S t.d d' (greeting b false i 0 (t.seq i + 1) (min v 65535)) ∧ (b = true → P) ∧ b = false := by
    intro P hP
    refine ⟨t.d, false, by rw [bump_false], (Chats.refl h).congr fun E i0 j0 => ?_, nofun, rfl⟩
    simp [greeting]
  by_cases hup : ifUp t.d.st i = false
  · rw [if_pos hup]
    obtain ⟨d', b, r1, r2, r3, r4⟩ := hno (ifUp t.d.st i = true ∧ ¬ (v = 0 ∧ (sifOf e t.d.st i).rfc6126 = true)) (by rw [hup]; nofun)
    exact ⟨d', b, r1, r2, r3, fun hc => by rw [hup] at hc; cases hc⟩
  · rw [if_neg hup]
    have hup : ifUp t.d.st i = true := by simpa using hup
    by_cases hz : v = 0 ∧ (sifOf e t.d.st i).rfc6126 = true
    · rw [if_pos hz]
      obtain ⟨d', b, r1, r2, r3, r4⟩ := hno (ifUp t.d.st i = true ∧ ¬ (v = 0 ∧ (sifOf e t.d.st i).rfc6126 = true)) (fun hc => hc.2 hz)
      exact ⟨d', b, r1, r2, r3, fun _ hc => absurd hz hc⟩
    · rw [if_neg hz]
      split
      · cases force with
        | false =>
          rw [if_neg Bool.false_ne_true]
          refine ⟨t.d, false, by rw [bump_false], (Chats.refl h).congr fun E i0 j0 => ?_, nofun, fun _ _ hc => by cases hc⟩
          simp [greeting]
        | true =>
          rw [if_pos rfl]
          obtain ⟨d1, e1, c1⟩ := flush_did he hX h i
          obtain ⟨d2, e2, c2⟩ := write_did he hX (t := { t with d := d1 }) c1.inv i 0 .flush (c1.inv.inv.pos i)
            (.inl (by show ifUp d1.st i = true; rw [c1.up]; exact hup)) rfl trivial
          have e2 : Talk.write e { t with d := d1 } i 0 .flush = some { t with d := d2 } := e2
          obtain ⟨d3, e3, c3⟩ := newHello_did he hX (t := { t with d := d2 }) c2.inv (i := i)
            (by show ifUp d2.st i = true; rw [c2.up, c1.up]; exact hup) v
          refine ⟨d3, true, ?_, ((c1.trans c2).trans c3).congr fun E i0 j0 => ?_, fun _ => ⟨hup, hz⟩, fun _ _ _ => rfl⟩
          · rw [e1]
            simp only [Option.bind_eq_bind, Option.bind_some]
            rw [e2]
            exact e3
          · simp [told]
      · obtain ⟨d3, e3, c3⟩ := newHello_did he hX h hup v
        exact ⟨d3, true, e3, c3, fun _ => ⟨hup, hz⟩, fun _ _ _ => rfl⟩

include he hX in
theorem unicast_did {t : Talk} (h : TInv e X s0 S t.d) {n : NeighId} {x : DNbr} (hx : t.d.nbr n = some x) :
    ∃ d' b, t.unicastHello e n x = some ⟨d', t.seq, bump t.useq b n⟩ ∧
      Chats e X s0 S t.d d' (greeting b true (e.node.ifOf n) x.buf (t.useq n + 1) 0) := by
  have hno : ∃ d' b, (some t : Option Talk) = some ⟨d', t.seq, bump t.useq b n⟩ ∧
      Chats e X s0 S t.d d' (greeting b true (e.node.ifOf n) x.buf (t.useq n + 1) 0) := by
    refine ⟨t.d, false, by rw [bump_false], (Chats.refl h).congr fun E i0 j0 => ?_⟩
    simp [greeting]
  unfold Talk.unicastHello
  simp only
  split
  · exact hno
  split
  · exact hno
  split
  · exact hno
  next h1 h2 h3 =>
  have hb := HoldsAt.buf ⟨_, h.inv⟩ (mem_shape hx)
  obtain ⟨d', e1, r⟩ := write_did he hX (t := { t with useq := bump t.useq true n }) h (e.node.ifOf n) x.buf (.hello (t.useq n + 1).toNat 0 true false)
    hb.1 (.inr hb.2) rfl (UInt16.toNat_lt _)
  refine ⟨d', true, ?_, r.congr fun E i0 j0 => ?_⟩
  · rw [bump_true] at e1 ⊢
    exact e1
  · unfold greeting
    simp only [true_and]
    split
    · next hij =>
      cases hij
      have : ((t.d.link (e.node.ifOf n)).bufs x.buf).hello.isSome = false := by simpa using h3
      simp only [told]
      rw [if_neg (by rw [this]; nofun)]
      rfl
    · rfl

/-! ### IHUs -/

theorem ihuOf_ok (hA : ∀ n, (e.addr n).length = 16) (d : Daemon) (n : NeighId) (x : DNbr) : SndOk (ihuOf e d n x) := by
  refine ⟨Nat.mod_lt _ (by decide), Nat.mod_lt _ (by decide), hA n, fun t1 t2 h => ?_⟩
  unfold ihuTimes at h
  split at h
  · cases h
    refine ⟨Nat.mod_lt _ (by decide), ?_⟩
    unfold timeUs
    omega
  · cases h

/-- What is read after an IHU. -/
def ihuRead (e : DCfg) (d : Daemon) (n : NeighId) (x : DNbr) (j : Nat) : PEnv → IfId → Nat → List Item :=
  fun E i0 j0 => if (e.node.ifOf n, j) = (i0, j0) ∧ E.isOurs (e.addr n) = true then [.ihu (ihuFor e d n x).1 (ihuFor e d n x).2] else []

include he hX in
theorem writeIhu_did (hA : ∀ n, (e.addr n).length = 16) {t : Talk} {d0 : Daemon} (h : TInv e X s0 S t.d) {n : NeighId} {x : DNbr} {j : Nat}
    (hj : j < t.d.fresh (e.node.ifOf n)) (hup : ifUp t.d.st (e.node.ifOf n) = true) :
    ∃ d', t.write e (e.node.ifOf n) j (ihuOf e d0 n x) = some { t with d := d' } ∧ Chats e X s0 S t.d d' (ihuRead e d0 n x j) := by
  obtain ⟨d', e1, r⟩ := write_did he hX h (e.node.ifOf n) j (ihuOf e d0 n x) hj (.inl hup) rfl (ihuOf_ok hA d0 n x)
  refine ⟨d', e1, r.congr fun E i0 j0 => ?_⟩
  unfold ihuRead
  by_cases hij : (e.node.ifOf n, j) = (i0, j0)
  · rw [if_pos hij]
    show (if E.isOurs (e.addr n) = true then _ else _) = _
    by_cases hE : E.isOurs (e.addr n) = true
    · rw [if_pos hE, if_pos ⟨hij, hE⟩]
      rfl
    · rw [if_neg hE, if_neg fun h => hE h.2]
  · rw [if_neg hij, if_neg fun h => hij h.1]

include he hX in
/-- One IHU. -/
theorem sendIhu_did (hA : ∀ n, (e.addr n).length = 16) {t : Talk} (h : TInv e X s0 S t.d) {n : NeighId} {x : DNbr} (hx : t.d.nbr n = some x)
    (hup : ifUp t.d.st (e.node.ifOf n) = true) :
    ∃ d' b one, t.sendIhu e n = some ⟨d', bump t.seq (b && !one) (e.node.ifOf n), bump t.useq (b && one) n⟩ ∧
      Chats e X s0 S t.d d' (fun E i0 j0 =>
        (greeting (b && !one) false (e.node.ifOf n) 0 (t.seq (e.node.ifOf n) + 1) 0 E i0 j0 ++
          greeting (b && one) true (e.node.ifOf n) x.buf (t.useq n + 1) 0 E i0 j0) ++
        ihuRead e t.d n x (if one then x.buf else 0) E i0 j0) ∧
      (b = true → (e.ifs (e.node.ifOf n)).timestamps = true) := by
  have hb := HoldsAt.buf ⟨_, h.inv⟩ (mem_shape hx)
  have hb1 : x.buf < t.d.fresh (e.node.ifOf n) := hb.1
  have hpos : ∀ d, TInv e X s0 S d → 0 < d.fresh (e.node.ifOf n) := fun d h => h.inv.pos _
  have hbuf : ∀ d w, Chats e X s0 S t.d d w → x.buf < d.fresh (e.node.ifOf n) := fun d w c =>
    (HoldsAt.buf ⟨_, c.inv.inv⟩ (mem_shape (x := x) (by rw [c.nbr]; exact hx))).1
  have hj : ∀ d w (one : Bool), Chats e X s0 S t.d d w → (if one then x.buf else 0) < d.fresh (e.node.ifOf n) := fun d w one c => by
    cases one
    · exact hpos d c.inv
    · exact hbuf d w c
  unfold Talk.sendIhu
  rw [hx]
  simp only
  rw [if_neg (by rw [hup]; nofun)]
  generalize hone : ihuPrivate e t.d (e.node.ifOf n) x = one
  by_cases hts : (ihuTimes e t.d (e.node.ifOf n) x).isSome = true
  · rw [if_pos hts]
    have htime : (e.ifs (e.node.ifOf n)).timestamps = true := by
      unfold ihuTimes at hts
      split at hts
      · next hc => exact hc.1
      · cases hts
    obtain ⟨d1, e1, c1⟩ := write_did he hX h (e.node.ifOf n) (if one then x.buf else 0) (.ensure 30) (hj t.d _ one (.refl h)) (.inl hup) rfl
      (by show 30 ≤ 194; decide)
    rw [e1]
    simp only [Option.bind_eq_bind, Option.bind_some]
    replace c1 : Chats e X s0 S t.d d1 (fun _ _ _ => []) := c1.congr fun E i0 j0 => by simp [told]
    have hx1 : d1.nbr n = some x := (c1.nbr n).trans hx
    have hup1 : ifUp d1.st (e.node.ifOf n) = true := by rw [c1.up]; exact hup
    cases one with
    | true =>
      obtain ⟨d2, b, e2, c2⟩ := unicast_did he hX (t := { t with d := d1 }) c1.inv hx1
      rw [if_pos rfl, if_pos rfl, e2]
      simp only [Option.bind_some]
      have c12 := c1.trans c2
      obtain ⟨d3, e3, c3⟩ := writeIhu_did he hX hA (d0 := t.d) (n := n) (x := x) (j := x.buf) (t := ⟨d2, t.seq, bump t.useq b n⟩) c2.inv
        (hbuf _ _ c12) (by show ifUp d2.st _ = true; rw [c12.up]; exact hup)
      refine ⟨d3, b, true, ?_, (c12.trans c3).congr fun E i0 j0 => ?_, fun _ => htime⟩
      · rw [e3, Bool.not_true, Bool.and_false, Bool.and_true, bump_false]
      · simp [greeting]
    | false =>
      obtain ⟨d2, b, e2, c2, _⟩ := multicast_did he hX (t := { t with d := d1 }) c1.inv (e.node.ifOf n) 0 false
      rw [if_neg Bool.false_ne_true, if_neg Bool.false_ne_true, e2]
      simp only [Option.bind_some]
      have c12 := c1.trans c2
      obtain ⟨d3, e3, c3⟩ := writeIhu_did he hX hA (d0 := t.d) (n := n) (x := x) (j := 0) (t := ⟨d2, bump t.seq b (e.node.ifOf n), t.useq⟩) c2.inv
        (hpos d2 c2.inv) (by show ifUp d2.st _ = true; rw [c12.up]; exact hup)
      refine ⟨d3, b, false, ?_, (c12.trans c3).congr fun E i0 j0 => ?_, fun _ => htime⟩
      · rw [e3, Bool.not_false, Bool.and_true, Bool.and_false, bump_false]
      · simp [greeting]
  · rw [if_neg hts]
    obtain ⟨d3, e3, c3⟩ := writeIhu_did he hX hA (d0 := t.d) (n := n) (x := x) (j := if one then x.buf else 0) h (hj t.d _ one (.refl h)) hup
    refine ⟨d3, false, one, ?_, c3.congr fun E i0 j0 => ?_, nofun⟩
    · rw [e3, Bool.false_and, Bool.false_and, bump_false, bump_false]
    · simp [greeting]

end

end Babel
