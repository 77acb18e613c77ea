import Verif.Lemmas.Packet
import Verif.Spec.Unicast
/-
Buffers of neighbours.
-/
set_option linter.unusedSimpArgs false
set_option linter.unusedVariables false
set_option linter.unusedSectionVars false
namespace Babel
open Spec

/-! ### One operation on a buffer -/

theorem step_out {o : Orc} {c : SIf} {now : Timeval} {j : Nat} {op : Snd} {l l' : Link} (h : l.step o c now j op = some l') :
    ∃ t, op.run o c now (l.tx j) = some t ∧ l'.bufs j = t.buf ∧ (∀ x, x ≠ j → l'.bufs x = l.bufs x) ∧
      l'.out = l.out ++ t.out.map (fun p => (j, p)) ∧ l'.index = t.index := by
  unfold Link.step at h
  cases hr : op.run o c now (l.tx j) with
  | none => rw [hr] at h; cases h
  | some t =>
    rw [hr] at h
    cases h
    exact ⟨t, rfl, if_pos rfl, fun x hx => if_neg hx, rfl, rfl⟩

theorem step_sent {o : Orc} {c : SIf} {now : Timeval} {j : Nat} {op : Snd} {l l' : Link} (h : l.step o c now j op = some l') (x : Nat) :
    ∃ ps, sentOn l' x = sentOn l x ++ ps ∧ (x ≠ j → ps = []) := by
  obtain ⟨t, _, _, _, h4, _⟩ := step_out h
  have := sentOn_step (l := l) (l' := l') (ps := t.out) (x := ⟨c, now, j, op⟩) h4 x
  refine ⟨_, this, fun hx => if_neg fun h => hx h.symm⟩

/-- What an operation does to a buffer whose contents are known. -/
theorem lstep_own {a tf : Bool} {o : Orc} {c : SIf} {now : Timeval} {j : Nat} {op : Snd} {l l' : Link} {ts : List Tlv}
    (hc : Circ a tf o c) (hop : SndOk op) (g : Good a tf (l.bufs j) ts) (hi : l.index.length = 8) (h : l.step o c now j op = some l') :
    ∃ ts' ps, Good a tf (l'.bufs j) ts' ∧ sentOn l' j = sentOn l j ++ ps ∧
      (ps = [] ∧ (∃ new, ts' = ts ++ new) ∨
        ∃ tr ex, ps = [packet (encAll (ts.map (stampTlv tf now) ++ ex)) tr] ∧ ∀ t ∈ ex, t.Ok) ∧
      ∀ E, linklocal E.sender = true → ps.flatMap (heard E) ++ its E {} ts' = its E {} ts ++ told E c (l.bufs j).hello.isSome op := by
  obtain ⟨l1, ts', ps, r1, r2, r3, r4, _, r5, r6⟩ := step_ok (l := { l with bufs := fun _ => l.bufs j }) (tss := fun _ => ts)
      ⟨c, now, j, op⟩ ⟨hc.rand, fun x hx => by
        rw [List.mem_singleton] at hx
        subst hx
        exact ⟨hc.key, hc.ts, hc.signs, hc.ip, hop⟩⟩ ⟨fun _ => g, hi⟩
  obtain ⟨t, q1, q2, _, q4, q5⟩ := step_out h
  obtain ⟨t', s1, s2, _, s4, _⟩ := step_out r1
  have hs : t' = t := by
    have s1 : op.run o c now (l.tx j) = some t' := s1
    rw [q1] at s1
    exact (Option.some.inj s1).symm
  subst hs
  have g' := r2.good j
  simp only [if_pos] at g'
  rw [s2] at g'
  have hps : ps = t'.out := by
    have : ps.map (fun p => (j, p)) = t'.out.map (fun p => (j, p)) := by
      have r3 : l1.out = l.out ++ ps.map (fun p => (j, p)) := r3
      have s4 : l1.out = l.out ++ t'.out.map (fun p => (j, p)) := s4
      exact List.append_cancel_left (r3.symm.trans s4)
    exact (List.map_inj_right (fun _ _ h => (Prod.mk.inj h).2)).1 this
  refine ⟨ts', ps, q2 ▸ g', ?_, ?_, r6⟩
  · have := sentOn_step (l := l) (l' := l') (ps := t'.out) (x := ⟨c, now, j, op⟩) q4 j
    rw [this, if_pos rfl, hps]
  · generalize l1.pc = pc' at r4
    generalize l1.index = ix' at r4
    generalize l1.draws = dr' at r4
    cases r4 with
    | none => exact .inl ⟨rfl, r5 rfl⟩
    | sent tr ex pc ix dr e0 e1 e2 e3 e4 => exact .inr ⟨tr, ex, rfl, fun t ht => (e3 t ht).1⟩

/-! ### The invariant -/

/-- The buffers of neighbours make sense, and those that are not in use are empty. -/
structure OwnL (e : DCfg) (i : IfId) (b : Bool) (fresh : Nat) (l : Link) : Prop where
  safe : SafeL e i b l
  good : ∀ j, j ≠ 0 → ∃ ts, Good (e.ifs i).key.isSome (e.ifs i).timestamps (l.bufs j) ts
  new : ∀ j, fresh ≤ j → sentOn l j = [] ∧ (l.bufs j).bytes = []

theorem ownL_start {e : DCfg} {i : IfId} {b : Bool} {l : Link} (h : FreshLink l) : OwnL e i b 1 l :=
  ⟨safeL_start h, fun j _ => ⟨[], (Spec.FreshLink.good h).good j⟩, fun j _ => ⟨by unfold sentOn; rw [h.2.2.2]; rfl, (h.1 j).2.2.1⟩⟩

theorem ownL_ok {e : DCfg} (he : DCfgOk e) (s0 : St) (i : IfId) (F : Prop) (C : Buf → Prop) :
    LinkOk e s0 SndFine i F C (fun b _ fresh l => OwnL e i b fresh l) where
  lstep := by
    intro b done done' fresh l now j op h hq hj hb hm hc hu
    obtain ⟨l', r1, r2⟩ := (safeL_ok he s0 i (Q := SndFine) (fun _ h => h.2) F C).lstep b done done' fresh l now j op h.safe hq hj hb hm hc hu
    refine ⟨l', r1, r2, fun x hx => ?_, fun x hx => ?_⟩
    · by_cases hxj : x = j
      · subst hxj
        obtain ⟨ts, g⟩ := h.good x hx
        obtain ⟨ts', ps, g', _⟩ := lstep_own (circ_at he s0 i (b := b) (hb.imp_right (·.2))) hq.1 g h.safe.idx r1
        exact ⟨ts', g'⟩
      · obtain ⟨_, _, _, h3, _⟩ := step_out r1
        rw [h3 x hxj]
        exact h.good x hx
    · have hxj : x ≠ j := by omega
      obtain ⟨_, _, _, h3, _⟩ := step_out r1
      obtain ⟨ps, h4, h5⟩ := step_sent r1 x
      rw [h3 x hxj, h4, h5 hxj, List.append_nil]
      exact h.new x hx
  lmono := fun b done done' fresh l h _ _ => h
  laddr := fun done fresh l a h hf => by
    refine ⟨(safeL_ok he s0 i (Q := SndFine) (fun _ h => h.2) F C).laddr done fresh l a h.safe hf, fun x hx => ?_, fun x hx => ?_⟩
    · obtain ⟨ts, g⟩ := h.good x hx
      refine ⟨ts, ?_⟩
      show Good _ _ (if x = fresh then { l.bufs x with dst := a } else l.bufs x) ts
      split
      · exact good_dst g a
      · exact g
    · obtain ⟨h1, h2⟩ := h.new x (by omega)
      refine ⟨h1, ?_⟩
      show (if x = fresh then { l.bufs x with dst := a } else l.bufs x).bytes = []
      split
      · exact h2
      · exact h2
  ldown := fun done fresh l hF hC h => by
    refine ⟨(safeL_ok he s0 i (Q := SndFine) (fun _ h => h.2) F C).ldown done fresh l hF hC h.safe, fun x hx => ?_, fun x hx => ?_⟩
    · show ∃ ts, Good _ _ (if x = 0 then _ else l.bufs x) ts
      rw [if_neg hx]
      exact h.good x hx
    · refine ⟨(h.new x hx).1, ?_⟩
      show (if x = 0 then Buf.down (l.bufs 0) else l.bufs x).bytes = []
      split
      · rfl
      · exact (h.new x hx).2
  lup := fun done fresh l mtu fi hF hm h => by
    refine ⟨(safeL_ok he s0 i (Q := SndFine) (fun _ h => h.2) F C).lup done fresh l mtu fi hF hm h.safe, fun x hx => ?_, fun x hx => ?_⟩
    · show ∃ ts, Good _ _ (if x = 0 then _ else l.bufs x) ts
      rw [if_neg hx]
      exact h.good x hx
    · refine ⟨(h.new x hx).1, ?_⟩
      show (if x = 0 then (l.bufs 0).up (l.bufs 0).dst mtu fi else l.bufs x).bytes = []
      split
      · next h0 =>
        show (l.bufs 0).bytes = []
        rw [← h0]
        exact (h.new x hx).2
      · exact (h.new x hx).2

/-- The invariant of what neighbours are told. -/
def ownKit (e : DCfg) (X : PKey → Prop) (s0 : St) : Kit :=
  properKit e X s0 (fun _ => True) (fun _ _ => True) fun i b _ fresh l => OwnL e i b fresh l

theorem ownKit_ok {e : DCfg} (he : DCfgOk e) {X : PKey → Prop} (hX : ∀ a b, X a → X b → Proper ⟨a.prefix_, b.plen, b.srcPrefix, a.srcPlen⟩)
    (s0 : St) : (ownKit e X s0).Ok := properKit_ok he hX s0 fun i => ownL_ok he s0 i _ _

/-! ### Which buffer belongs to whom -/

theorem mem_shape {d : Daemon} {n : NeighId} {x : DNbr} (h : d.nbr n = some x) : (n, x.buf) ∈ shape d :=
  List.mem_map.2 ⟨(n, x), nbr_mem h, rfl⟩

theorem nbr_of_mem {d : Daemon} (hn : (d.nbrs.map (·.1)).Nodup) {p : NeighId × DNbr} (hp : p ∈ d.nbrs) : d.nbr p.1 = some p.2 := by
  unfold Daemon.nbr
  have : ∀ l : List (NeighId × DNbr), (l.map (·.1)).Nodup → p ∈ l → l.find? (fun x => x.1 == p.1) = some p := by
    intro l
    induction l with
    | nil => intro _ h; cases h
    | cons q l ih =>
      intro hn hp
      rw [List.map_cons, List.nodup_cons] at hn
      rcases List.mem_cons.1 hp with rfl | hp
      · exact List.find?_cons_of_pos (p := fun x : NeighId × DNbr => x.1 == p.1) (by simp)
      · rw [List.find?_cons_of_neg (p := fun x : NeighId × DNbr => x.1 == p.1)]
        · exact ih hn.2 hp
        · simp only [beq_iff_eq]
          exact fun h => hn.1 (h ▸ List.mem_map_of_mem hp)
  rw [this _ hn hp]
  rfl

theorem shape_mem {d : Daemon} (hn : ((shape d).map (·.1)).Nodup) {n : NeighId} {j : Nat} (h : (n, j) ∈ shape d) :
    ∃ x, d.nbr n = some x ∧ x.buf = j := by
  obtain ⟨p, hp, he⟩ := List.mem_map.1 h
  cases he
  have hn : (d.nbrs.map (·.1)).Nodup := by
    unfold shape at hn
    rw [List.map_map] at hn
    exact hn
  exact ⟨p.2, nbr_of_mem hn hp, rfl⟩

/-- Each neighbour has a buffer of its own, with its address. -/
structure Housed (e : DCfg) (d : Daemon) : Prop where
  nodup : ((shape d).map (·.1)).Nodup
  apart : ∀ p ∈ shape d, ∀ q ∈ shape d, e.node.ifOf p.1 = e.node.ifOf q.1 → p.2 = q.2 → p.1 = q.1
  dst : ∀ p ∈ shape d, ((d.link (e.node.ifOf p.1)).bufs p.2).dst = e.addr p.1

section
variable {K : Kit} {d d' : Daemon}

theorem HoldsAt.buf (h : HoldsAt K d) {p : NeighId × Nat} (hp : p ∈ shape d) : p.2 < d.fresh (K.e.node.ifOf p.1) ∧ p.2 ≠ 0 := by
  obtain ⟨done, h⟩ := h
  obtain ⟨q, hq, rfl⟩ := List.mem_map.1 hp
  have := h.bufs q hq
  exact ⟨this.1.1, this.2⟩

theorem Wrote.step {i : IfId} {j : Nat} {op : Snd} (h : Wrote K d i j op d') :
    ∃ l, (d.link i).step (K.e.orc i) (sifOf K.e d.st i) d.st.now j op = some l ∧ d' = { d with link := fun x => if x = i then l else d.link x } := by
  have h := h.eq
  unfold Daemon.write at h
  simp only [Option.bind_eq_bind] at h
  obtain ⟨l, h1, h⟩ := Option.bind_eq_some_iff.1 h
  cases h
  exact ⟨l, h1, rfl⟩

theorem wrote_housed {i : IfId} {j : Nat} {op : Snd} (h : Wrote K d i j op d') (hh : Housed K.e d) : Housed K.e d' := by
  obtain ⟨l, h1, rfl⟩ := h.step
  refine ⟨hh.nodup, hh.apart, fun p hp => ?_⟩
  show ((if K.e.node.ifOf p.1 = i then l else d.link (K.e.node.ifOf p.1)).bufs p.2).dst = _
  rw [← hh.dst p hp]
  split
  · next hi => rw [step_same h1, hi]
  · rfl

theorem Writes.ind {op : Snd} {l : List (IfId × Nat)} (P : Daemon → Prop) (hP : ∀ a b i j, Wrote K a i j op b → P a → P b)
    (h : Writes K op d l d') (hd : P d) : P d' := by
  induction h with
  | nil => exact hd
  | cons w _ ih => exact ih (hP _ _ _ _ w hd)

theorem Micro.post {o : Out} {u : IfId → Bool} (h : Micro K d (.post o u) d') :
    u = ifUp d.st ∧ (d' = d ∧ (sndOf o = none ∨ ∃ i op, sndOf o = some (i, none, op) ∧ ifUp d.st i = false) ∨
      ∃ i to op, sndOf o = some (i, to, op) ∧ ¬ (to = none ∧ ifUp d.st i = false) ∧ Writes K op d (d.targets K.e i to) d') := by
  obtain ⟨h1, h2⟩ := h
  refine ⟨h1, ?_⟩
  split at h2
  · next hs => exact .inl ⟨h2, .inl hs⟩
  · next i to op hs =>
    by_cases hc : to = none ∧ ifUp d.st i = false
    · rw [if_pos hc] at h2
      obtain ⟨rfl, hc⟩ := hc
      exact .inl ⟨h2, .inr ⟨i, op, hs, hc⟩⟩
    · rw [if_neg hc] at h2
      exact .inr ⟨i, to, op, hs, hc, h2⟩

/-- What single operations keep is kept by outputs. -/
theorem Micro.post_ind {o : Out} {u : IfId → Bool} (P : Daemon → Prop) (hP : ∀ a b i j op, Wrote K a i j op b → P a → P b)
    (h : Micro K d (.post o u) d') (hd : P d) : P d' := by
  obtain ⟨_, h | ⟨i, to, op, _, _, h⟩⟩ := h.post
  · rw [h.1]; exact hd
  · exact h.ind P (fun a b i j => hP a b i j op) hd

theorem micro_housed {l : Lab} (h0 : HoldsAt K d) (h : Micro K d l d') (hh : Housed K.e d) : Housed K.e d' := by
  cases l with
  | post o u => exact h.post_ind (Housed K.e) (fun _ _ _ _ _ w => wrote_housed w) hh
  | to m op =>
    obtain ⟨_, x, _, w⟩ := h
    exact wrote_housed w hh
  | chat i j op => exact wrote_housed h.2 hh
  | quiet =>
    refine ⟨h.shape ▸ hh.nodup, h.shape ▸ hh.apart, fun p hp => ?_⟩
    rw [h.shape] at hp
    rw [h.bufs _ _ (.inl (h0.buf hp).2)]
    exact hh.dst p hp
  | drop m =>
    obtain ⟨a, rfl⟩ := h
    have hsub : (shape { d with nbrs := d.nbrs.filter fun p => !(p.1 == m), auth := a }).Sublist (shape d) := List.filter_sublist.map _
    exact ⟨hh.nodup.sublist (hsub.map _), fun p hp q hq => hh.apart p (hsub.mem hp) q (hsub.mem hq), fun p hp => hh.dst p (hsub.mem hp)⟩
  | add m =>
    obtain ⟨hm, rfl⟩ := h
    have hs : shape (d.addNbr K.e m) = (m, d.fresh (K.e.node.ifOf m)) :: shape d := rfl
    have hno : ∀ j, (m, j) ∉ shape d := by
      intro j hj
      obtain ⟨x, hx, _⟩ := shape_mem hh.nodup hj
      rw [hm] at hx
      cases hx
    refine ⟨?_, ?_, ?_⟩
    · rw [hs, List.map_cons, List.nodup_cons]
      refine ⟨fun hc => ?_, hh.nodup⟩
      obtain ⟨p, hp, he⟩ := List.mem_map.1 hc
      have he : p.1 = m := he
      subst he
      exact hno p.2 hp
    · rw [hs]
      intro p hp q hq hi hj
      rcases List.mem_cons.1 hp with rfl | hp <;> rcases List.mem_cons.1 hq with rfl | hq
      · rfl
      · have := (h0.buf hq).1
        simp only at hi hj
        rw [← hi, ← hj] at this
        omega
      · have := (h0.buf hp).1
        simp only at hi hj
        rw [hi, hj] at this
        omega
      · exact hh.apart p hp q hq hi hj
    · rw [hs]
      intro p hp
      show ((if K.e.node.ifOf p.1 = K.e.node.ifOf m then (d.link (K.e.node.ifOf m)).setDst (d.fresh (K.e.node.ifOf m)) (K.e.addr m)
        else d.link (K.e.node.ifOf p.1)).bufs p.2).dst = _
      rcases List.mem_cons.1 hp with rfl | hp
      · rw [if_pos rfl]
        show (if d.fresh (K.e.node.ifOf m) = d.fresh (K.e.node.ifOf m) then _ else _ : Buf).dst = _
        rw [if_pos rfl]
      · rw [← hh.dst p hp]
        split
        · next hi =>
          have := (h0.buf hp).1
          rw [hi] at this
          show (if p.2 = d.fresh (K.e.node.ifOf m) then _ else _ : Buf).dst = _
          rw [if_neg (by omega), hi]
        · rfl

theorem trace_housed {ls : List Lab} (h : Trace K d ls d') (hh : Housed K.e d) : Housed K.e d' := by
  induction h with
  | nil => exact hh
  | cons h0 h1 _ ih => exact ih (micro_housed h0 h1 hh)

/-! ### Who is known -/

theorem wrote_shape {i : IfId} {j : Nat} {op : Snd} (h : Wrote K d i j op d') : shape d' = shape d ∧ d'.fresh = d.fresh ∧ d'.st = d.st := by
  obtain ⟨l, h1, rfl⟩ := h.step
  exact ⟨rfl, rfl, rfl⟩

theorem post_shape {o : Out} {u : IfId → Bool} (h : Micro K d (.post o u) d') : shape d' = shape d ∧ d'.fresh = d.fresh ∧ d'.st = d.st :=
  h.post_ind (fun x => shape x = shape d ∧ x.fresh = d.fresh ∧ x.st = d.st) (fun a b i j op w h =>
    ⟨(wrote_shape w).1.trans h.1, (wrote_shape w).2.1.trans h.2.1, (wrote_shape w).2.2.trans h.2.2⟩) ⟨rfl, rfl, rfl⟩

/-- A neighbour whose buffer was already in use was known with that buffer. -/
theorem micro_known {l : Lab} (h : Micro K d l d') :
    (∀ i, d.fresh i ≤ d'.fresh i) ∧ ∀ p ∈ shape d', p ∈ shape d ∨ (d.fresh (K.e.node.ifOf p.1) ≤ p.2 ∧ l = .add p.1) := by
  cases l with
  | post o u =>
    obtain ⟨h1, h2, _⟩ := post_shape h
    rw [h1, h2]
    exact ⟨fun _ => Nat.le_refl _, fun p hp => .inl hp⟩
  | to m op =>
    obtain ⟨_, x, _, w⟩ := h
    obtain ⟨h1, h2, _⟩ := wrote_shape w
    rw [h1, h2]
    exact ⟨fun _ => Nat.le_refl _, fun p hp => .inl hp⟩
  | chat i j op =>
    obtain ⟨h1, h2, _⟩ := wrote_shape h.2
    rw [h1, h2]
    exact ⟨fun _ => Nat.le_refl _, fun p hp => .inl hp⟩
  | quiet =>
    rw [h.shape, h.fresh]
    exact ⟨fun _ => Nat.le_refl _, fun p hp => .inl hp⟩
  | drop m =>
    obtain ⟨a, rfl⟩ := h
    exact ⟨fun _ => Nat.le_refl _, fun p hp => .inl ((List.filter_sublist.map _).mem hp)⟩
  | add m =>
    obtain ⟨hm, rfl⟩ := h
    refine ⟨fun i => ?_, fun p hp => ?_⟩
    · show _ ≤ (if i = K.e.node.ifOf m then d.fresh (K.e.node.ifOf m) + 1 else d.fresh i)
      split
      · next h => rw [h]; omega
      · exact Nat.le_refl _
    · rcases List.mem_cons.1 hp with rfl | hp
      · exact .inr ⟨Nat.le_refl _, rfl⟩
      · exact .inl hp

theorem trace_known {ls : List Lab} (h : Trace K d ls d') : (∀ i, d.fresh i ≤ d'.fresh i) ∧
    ∀ p ∈ shape d', p ∈ shape d ∨ d.fresh (K.e.node.ifOf p.1) ≤ p.2 := by
  induction h with
  | nil => exact ⟨fun _ => Nat.le_refl _, fun p hp => .inl hp⟩
  | cons h0 h1 _ ih =>
    obtain ⟨k1, k2⟩ := micro_known h1
    refine ⟨fun i => Nat.le_trans (k1 i) (ih.1 i), fun p hp => ?_⟩
    rcases ih.2 p hp with hp | hp
    · rcases k2 p hp with hp | hp
      · exact .inl hp
      · exact .inr hp.1
    · exact .inr (Nat.le_trans (k1 _) hp)

end

/-! ### What is read -/

/-- Apart from hellos and IHUs. -/
def chatless (l : List Item) : List Item := l.filter fun it => !isChat it

theorem chatless_append (a b : List Item) : chatless (a ++ b) = chatless a ++ chatless b := List.filter_append ..

theorem privately_own {a tf : Bool} {l : Link} {j : Nat} {ts : List Tlv} (g : Good a tf (l.bufs j) ts) {E : PEnv} (hE : linklocal E.sender = true) :
    privately E l j = chatless ((sentOn l j).flatMap (heard E) ++ its E {} ts) := by
  unfold privately chatless unsent
  rw [heard_buf g E hE]

theorem privately_same {E : PEnv} {l l' : Link} {j : Nat} (h1 : sentOn l' j = sentOn l j) (h2 : (l'.bufs j).bytes = (l.bufs j).bytes) :
    privately E l' j = privately E l j := by
  unfold privately unsent
  rw [h1, h2]

theorem told_chatless (E : PEnv) (c : SIf) (b : Bool) (op : Snd) : chatless (told E c b op) = chatless (told E c false op) := by
  cases op with
  | hello s i u f =>
    simp only [told]
    split <;> split <;> rfl
  | request k => cases k <;> rfl
  | _ => rfl

theorem told_chatter (E : PEnv) (c : SIf) {op : Snd} (h : isChatter op = true) : chatless (told E c false op) = [] := by
  cases op with
  | hello s i u f =>
    simp only [told]
    split <;> rfl
  | ihu r i a t =>
    simp only [told]
    split <;> rfl
  | ensure => rfl
  | flush => rfl
  | _ => cases h

theorem told_answer (E : PEnv) (c : SIf) {op : Snd} (h : isAnswer op = true) : told E c false op = [] := by
  cases op with
  | ack => rfl
  | challenge => rfl
  | reply => rfl
  | _ => cases h

section
variable {e : DCfg} {X : PKey → Prop} {s0 : St} (he : DCfgOk e) {d d' : Daemon} {E : PEnv} (hE : linklocal E.sender = true)

theorem HoldsAt.own (h : HoldsAt (ownKit e X s0) d) (i : IfId) : OwnL e i (ifUp d.st i) (d.fresh i) (d.link i) := by
  obtain ⟨done, h⟩ := h
  exact h.links i

theorem HoldsAt.sif (h : HoldsAt (ownKit e X s0) d) (i : IfId) : sifOf e d.st i = sifAt e s0 i (ifUp d.st i) := by
  obtain ⟨done, h⟩ := h
  exact sif_core h.ifs i

include he in
theorem Wrote.circ {i : IfId} {j : Nat} {op : Snd} (h : Wrote (ownKit e X s0) d i j op d') :
    Circ (e.ifs i).key.isSome (e.ifs i).timestamps (e.orc i) (sifOf e d.st i) := by
  rw [h.at_.sif i]
  apply circ_at he
  obtain ⟨done, h1⟩ := h.at_
  cases hu : ifUp d.st i with
  | true => exact .inl rfl
  | false =>
    refine .inr ?_
    rcases h1.dead i hu with h2 | h2
    · exact h2
    · have := h.lt
      rcases h.up with h3 | h3
      · rw [hu] at h3; cases h3
      · omega

include he hE in
theorem wrote_reads {i i0 : IfId} {j j0 : Nat} {op : Snd} (h : Wrote (ownKit e X s0) d i j op d') (h0 : j0 ≠ 0) :
    privately E (d'.link i0) j0 = privately E (d.link i0) j0 ++
      if (i, j) = (i0, j0) then chatless (told E (sifOf e d.st i0) false op) else [] := by
  have hc := h.circ he
  have hq := h.q
  have ho := h.at_.own i
  obtain ⟨l, h1, rfl⟩ := h.step
  by_cases hi : i0 = i
  · subst hi
    show privately E (if i0 = i0 then l else d.link i0) j0 = _
    rw [if_pos rfl]
    by_cases hj : j0 = j
    · subst hj
      rw [if_pos rfl]
      obtain ⟨ts, g⟩ := ho.good j0 h0
      obtain ⟨ts', ps, g', e1, _, e2⟩ := lstep_own hc hq.1 g ho.safe.idx h1
      rw [privately_own g hE, privately_own g' hE, e1, List.flatMap_append, List.append_assoc, e2 E hE, ← List.append_assoc, chatless_append,
        told_chatless]
    · rw [if_neg (by simp only [Prod.mk.injEq]; omega), List.append_nil]
      obtain ⟨_, _, _, h3, _⟩ := step_out h1
      obtain ⟨ps, h4, h5⟩ := step_sent h1 j0
      exact privately_same (by rw [h4, h5 hj, List.append_nil]) (by rw [h3 _ hj])
  · show privately E (if i0 = i then l else d.link i0) j0 = _
    rw [if_neg hi, if_neg (by simp only [Prod.mk.injEq]; exact fun h => hi h.1.symm), List.append_nil]

include he hE in
theorem writes_reads {op : Snd} {l : List (IfId × Nat)} (h : Writes (ownKit e X s0) op d l d') (i0 : IfId) {j0 : Nat} (h0 : j0 ≠ 0) :
    privately E (d'.link i0) j0 = privately E (d.link i0) j0 ++
      l.flatMap fun x => if x = (i0, j0) then chatless (told E (sifOf e d.st i0) false op) else [] := by
  induction h with
  | nil => rw [List.flatMap_nil, List.append_nil]
  | cons w _ ih => rw [ih, wrote_reads he hE w h0, (wrote_shape w).2.2, List.flatMap_cons, List.append_assoc]

omit he hE in
theorem flatMap_once {α β : Type} (f : α → List β) (T : List β) (p : α) : ∀ l : List α, l.Nodup → p ∈ l → f p = T → (∀ q ∈ l, q ≠ p → f q = []) →
    l.flatMap f = T := by
  intro l
  induction l with
  | nil => intro _ h; cases h
  | cons q l ih =>
    intro hn hp hf ho
    rw [List.nodup_cons] at hn
    rw [List.flatMap_cons]
    rcases List.mem_cons.1 hp with rfl | hp
    · rw [hf, List.flatMap_eq_nil_iff.2 fun q hq => ho q (List.mem_cons_of_mem _ hq) (fun h => hn.1 (h ▸ hq)), List.append_nil]
    · rw [ho q (List.mem_cons_self ..) (fun h => hn.1 (h ▸ hp)), List.nil_append]
      exact ih hn.2 hp hf fun q hq => ho q (List.mem_cons_of_mem _ hq)

omit he hE in
theorem nodup_of_map {α β : Type} (f : α → β) : ∀ {l : List α}, (l.map f).Nodup → l.Nodup := by
  intro l
  induction l with
  | nil => intro _; exact .nil
  | cons x l ih =>
    intro h
    rw [List.map_cons, List.nodup_cons] at h
    exact List.nodup_cons.2 ⟨fun hx => h.1 (List.mem_map_of_mem hx), ih h.2⟩

omit he hE in
/-- A message goes to neighbour `n` if it is meant for it, or for everyone on its interface. -/
theorem targets_once {β : Type} (hh : Housed e d) {n : NeighId} {j : Nat} (hn : (n, j) ∈ shape d) (hj : j ≠ 0) (i : IfId) (to : Option NeighId)
    (T : List β) : (d.targets e i to).flatMap (fun x => if x = (e.node.ifOf n, j) then T else []) =
      if to = some n ∨ (to = none ∧ i = e.node.ifOf n ∧ (e.ifs i).unicast = true) then T else [] := by
  have hnd : (d.nbrs.map (·.1)).Nodup := by
    have := hh.nodup
    unfold shape at this
    rw [List.map_map] at this
    exact this
  obtain ⟨x, hx, rfl⟩ := shape_mem hh.nodup hn
  unfold Daemon.targets
  cases to with
  | some m =>
    simp only [Option.some.injEq, reduceCtorEq, false_and, or_false]
    by_cases hm : m = n
    · subst hm
      rw [hx]
      simp
    · rw [if_neg hm]
      cases hy : d.nbr m with
      | none => rfl
      | some y =>
        simp only [Option.toList_some, List.map_cons, List.map_nil, List.flatMap_cons, List.flatMap_nil, List.append_nil]
        refine if_neg fun h => hm ?_
        exact hh.apart _ (mem_shape hy) _ hn (Prod.mk.inj h).1 (Prod.mk.inj h).2
  | none =>
    simp only [reduceCtorEq, true_and, false_or]
    by_cases hu : (e.ifs i).unicast = true
    · rw [if_pos hu, List.flatMap_map]
      by_cases hi : i = e.node.ifOf n
      · rw [if_pos ⟨hi, hu⟩]
        apply flatMap_once _ T (n, x)
        · exact (nodup_of_map _ hnd).filter _
        · exact List.mem_filter.2 ⟨nbr_mem hx, by simp [hi]⟩
        · simp [hi]
        · intro q hq hne
          obtain ⟨h1, h2⟩ := List.mem_filter.1 hq
          refine if_neg fun h => hne ?_
          have h2 : e.node.ifOf q.1 = i := by simpa using h2
          have h3 := hh.apart _ (List.mem_map.2 ⟨q, h1, rfl⟩) _ hn (h2.trans hi) (Prod.mk.inj h).2
          have h3 : q.1 = n := h3
          have h4 := nbr_of_mem hnd h1
          rw [h3, hx] at h4
          exact Prod.ext h3 (Option.some.inj h4).symm
      · rw [if_neg fun h => hi h.1]
        exact List.flatMap_eq_nil_iff.2 fun q _ => if_neg fun h => hi (Prod.mk.inj h).1
    · rw [if_neg hu, if_neg fun h => hu h.2]
      simp only [List.flatMap_cons, List.flatMap_nil, List.append_nil]
      exact if_neg fun h => hj (Prod.mk.inj h).2.symm

omit hE he in
theorem saidTo_of {E : PEnv} {c : SIf} {n : NeighId} {o : Out} {i : IfId} {to : Option NeighId} {op : Snd} (h : sndOf o = some (i, to, op))
    (hup : to = none → i = e.node.ifOf n → c.up = true) :
    (if to = some n ∨ (to = none ∧ i = e.node.ifOf n ∧ (e.ifs i).unicast = true) then chatless (told E c false op) else []) = saidTo e E c n o := by
  cases o with
  | update i' id k q m =>
    cases h
    simp only [saidTo, reduceCtorEq, true_and, false_or]
    split
    · simp only [told]
      split <;> rfl
    · rfl
  | request i' to' k =>
    cases h
    simp only [saidTo]
    have hc : (to = some n ∨ to = none ∧ i = e.node.ifOf n ∧ (e.ifs i).unicast = true) ↔
        (to = some n ∨ to = none ∧ i = e.node.ifOf n ∧ (e.ifs i).unicast = true ∧ c.up = true) :=
      or_congr Iff.rfl ⟨fun h => ⟨h.1, h.2.1, h.2.2, hup h.1 h.2.1⟩, fun h => ⟨h.1, h.2.1, h.2.2.1⟩⟩
    simp only [hc]
    split
    · cases k with
      | none => rfl
      | some k =>
        simp only [told]
        split <;> rfl
    · rfl
  | mhRequest i' to' k q id hh =>
    cases h
    simp only [saidTo]
    have hc : (to = some n ∨ to = none ∧ i = e.node.ifOf n ∧ (e.ifs i).unicast = true) ↔
        (to = some n ∨ to = none ∧ i = e.node.ifOf n ∧ (e.ifs i).unicast = true ∧ c.up = true) :=
      or_congr Iff.rfl ⟨fun h => ⟨h.1, h.2.1, h.2.2, hup h.1 h.2.1⟩, fun h => ⟨h.1, h.2.1, h.2.2.1⟩⟩
    simp only [hc]
    split
    · simp only [told]
      split <;> rfl
    · rfl
  | _ => cases h

omit hE he in
/-- Nothing that concerns everyone is said on an interface that is down. -/
theorem saidTo_down {E : PEnv} {c : SIf} {n : NeighId} {o : Out} (hc : c.up = false)
    (h : ∀ i to op, sndOf o = some (i, to, op) → to = none) : saidTo e E c n o = [] := by
  cases o with
  | update i' id k q m =>
    simp only [saidTo]
    split
    · simp only [told]
      exact if_neg fun h => by have := h.1; rw [hc] at this; cases this
    · rfl
  | request i' to' k =>
    cases h _ _ _ rfl
    simp only [saidTo]
    exact if_neg fun h => by simp [hc] at h
  | mhRequest i' to' k q id hh =>
    cases h _ _ _ rfl
    simp only [saidTo]
    exact if_neg fun h => by simp [hc] at h
  | _ => rfl

/-- What something done says to neighbour `n`. -/
def Lab.said (e : DCfg) (s0 : St) (E : PEnv) (n : NeighId) : Lab → List Item
  | .post o u => saidTo e E (sifAt e s0 (e.node.ifOf n) (u (e.node.ifOf n))) n o
  | _ => []

include he hE in
theorem micro_reads {l : Lab} (h0 : HoldsAt (ownKit e X s0) d) (h : Micro (ownKit e X s0) d l d') {n : NeighId} {j : Nat} (hj : j ≠ 0)
    (hn : (∀ o u, l = .post o u → Housed e d ∧ (n, j) ∈ shape d)) :
    privately E (d'.link (e.node.ifOf n)) j = privately E (d.link (e.node.ifOf n)) j ++ l.said e s0 E n := by
  cases l with
  | post o u =>
    obtain ⟨hh, hm⟩ := hn o u rfl
    obtain ⟨hu, hp⟩ := h.post
    clear h
    rcases hp with h | ⟨i, to, op, hs, hc, h⟩
    · subst hu
      rw [h.1]
      show _ = _ ++ saidTo e E (sifAt e s0 (e.node.ifOf n) (ifUp d.st (e.node.ifOf n))) n o
      rw [← h0.sif]
      have : saidTo e E (sifOf e d.st (e.node.ifOf n)) n o = [] := by
        rcases h.2 with h | ⟨i, op, h, hd⟩
        · cases o with
          | update => cases h
          | request => cases h
          | mhRequest => cases h
          | _ => rfl
        · by_cases hi : i = e.node.ifOf n
          · subst hi
            exact saidTo_down hd fun i to op' h' => by rw [h] at h'; cases h'; rfl
          · cases o with
            | update => cases h; exact if_neg fun h => hi h.1
            | request => cases h; exact if_neg fun h => by simp [hi] at h
            | mhRequest => cases h; exact if_neg fun h => by simp [hi] at h
            | _ => cases h
      rw [this, List.append_nil]
    · subst hu
      show _ = _ ++ saidTo e E (sifAt e s0 (e.node.ifOf n) (ifUp d.st (e.node.ifOf n))) n o
      rw [← h0.sif, writes_reads he hE h _ hj]
      have := targets_once hh hm hj i to (chatless (told E (sifOf e d.st (e.node.ifOf n)) false op))
      have this : List.flatMap (fun x => if x = (e.node.ifOf n, j) then chatless (told E (sifOf e d.st (e.node.ifOf n)) false op) else [])
        (d.targets (ownKit e X s0).e i to) = _ := this
      rw [this, saidTo_of hs]
      intro h1 h2
      cases hd : ifUp d.st i with
      | true => rw [← h2]; exact hd
      | false => exact absurd ⟨h1, hd⟩ hc
  | to m op =>
    obtain ⟨ha, x, _, w⟩ := h
    rw [wrote_reads he hE w hj, told_answer _ _ ha]
    show _ ++ (if _ then [] else []) = _ ++ []
    split <;> rfl
  | chat i j' op =>
    obtain ⟨ha, w⟩ := h
    rw [wrote_reads he hE w hj, told_chatter _ _ ha]
    show _ ++ (if _ then [] else []) = _ ++ []
    split <;> rfl
  | quiet =>
    show _ = _ ++ []
    rw [List.append_nil]
    exact privately_same (by unfold sentOn; rw [h.out]) (by rw [h.bufs _ _ (.inl hj)])
  | drop m =>
    obtain ⟨a, rfl⟩ := h
    exact (List.append_nil _).symm
  | add m =>
    obtain ⟨_, rfl⟩ := h
    show privately E (if e.node.ifOf n = e.node.ifOf m then (d.link (e.node.ifOf m)).setDst (d.fresh (e.node.ifOf m)) (e.addr m)
        else d.link (e.node.ifOf n)) j = _ ++ []
    rw [List.append_nil]
    split
    · next hi =>
      rw [hi]
      refine privately_same rfl ?_
      show (if j = d.fresh (e.node.ifOf m) then { (d.link (e.node.ifOf m)).bufs j with dst := e.addr m } else (d.link (e.node.ifOf m)).bufs j : Buf).bytes = _
      split <;> rfl
    · rfl

include he hE in
/-- What a neighbour with a buffer in use reads is what is said to it. -/
theorem trace_reads {ls : List Lab} (h : Trace (ownKit e X s0) d ls d') (hh : Housed e d) {n : NeighId} {j : Nat}
    (hn : (n, j) ∈ shape d') (hj : j < d.fresh (e.node.ifOf n)) :
    privately E (d'.link (e.node.ifOf n)) j = privately E (d.link (e.node.ifOf n)) j ++ ls.flatMap (Lab.said e s0 E n) := by
  induction h with
  | nil => rw [List.flatMap_nil, List.append_nil]
  | @cons d d1 d' l ls h0 h1 h2 ih =>
    have hh1 : Housed e d1 := micro_housed h0 h1 hh
    obtain ⟨k1, k2⟩ := micro_known h1
    have hn1 : (n, j) ∈ shape d1 := by
      rcases (trace_known h2).2 _ hn with h | h
      · exact h
      · have := k1 (e.node.ifOf n)
        have h : d1.fresh (e.node.ifOf n) ≤ j := h
        omega
    have hn0 : (n, j) ∈ shape d := by
      rcases k2 _ hn1 with h | h
      · exact h
      · have h : d.fresh (e.node.ifOf n) ≤ j := h.1
        omega
    have hj0 : j ≠ 0 := (h0.buf hn0).2
    rw [ih hh1 hn (Nat.lt_of_lt_of_le hj (k1 _)), micro_reads he hE h0 h1 hj0 (fun _ _ _ => ⟨hh, hn0⟩), List.flatMap_cons, List.append_assoc]

include he hE in
/-- Nothing is read if nothing is said. -/
theorem trace_silent {ls : List Lab} (h : Trace (ownKit e X s0) d ls d') (hl : ls.filterMap Lab.out = []) (n : NeighId) {j : Nat} (hj : j ≠ 0) :
    privately E (d'.link (e.node.ifOf n)) j = privately E (d.link (e.node.ifOf n)) j := by
  induction h with
  | nil => rfl
  | @cons d d1 d' l ls h0 h1 h2 ih =>
    rw [List.filterMap_cons] at hl
    cases hlo : l.out with
    | some o => rw [hlo] at hl; cases hl
    | none =>
      rw [hlo] at hl
      rw [ih hl, micro_reads he hE h0 h1 (n := n) hj (fun o u h => by subst h; cases hlo)]
      cases l with
      | post o u => cases hlo
      | _ => exact List.append_nil _

end

end Babel
