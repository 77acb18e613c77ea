import Verif.Lemmas.Unicast
/-
What events write to the buffers of neighbours.
-/
set_option linter.unusedSimpArgs false
set_option linter.unusedVariables false
set_option linter.unusedSectionVars false
namespace Babel
open Spec

/-! ### Events -/

theorem recost_fresh {e : DCfg} {d d' : Daemon} {n : NeighId} {b : Bool} (h : d.recost e n b = some d') : d'.fresh = d.fresh := by
  unfold Daemon.recost at h
  split at h
  · have h : d.nodeAs e (fun l => l) (.updNeigh (d.st.routes.length + 1) n) = some d' := h
    obtain ⟨costs, nc, l, rfl, _⟩ := nodeAs_spec h
    rfl
  · cases h; rfl

theorem sample_fresh {e : DCfg} {n : NeighId} {d d' : Daemon} {p : PState} (h : d.sampleRtt e n p = some d') : d'.fresh = d.fresh := by
  unfold Daemon.sampleRtt at h
  split at h
  · cases h; rfl
  · next x hx =>
    split at h
    · split at h
      · cases h; rfl
      · next rtt hr =>
        simp only at h
        split at h
        · cases h
        · have := recost_fresh h
          rw [this]
          rfl
    · cases h; rfl

attribute [local irreducible] rttSample rttcost Daemon.sampleRtt parsePacket Daemon.accept Daemon.items in
theorem packet_parts {e : DCfg} {n : NeighId} {d d' : Daemon} {buf dst : Bytes} {len : Nat} (hup : ifUp d.st (e.node.ifOf n) = true)
    (h : dstep e d (.packet n buf len dst) = some d') :
    ∃ d1 eff d2, d.accept e n buf len dst = some (d1, eff) ∧ d1.items e n eff.items = some d2 ∧ (d' = d2 ∨ ∃ p, d2.sampleRtt e n p = some d') := by
  have h : d.packet e n buf len dst = some d' := h
  unfold Daemon.packet at h
  rw [if_pos hup] at h
  simp only [Option.bind_eq_bind] at h
  obtain ⟨⟨d1, eff⟩, ha, h⟩ := Option.bind_eq_some_iff.1 h
  obtain ⟨d2, hi, h⟩ := Option.bind_eq_some_iff.1 h
  refine ⟨d1, eff, d2, ha, hi, ?_⟩
  by_cases hv : eff.verdict = .dropped
  · rw [if_pos hv] at h
    exact .inl (Option.some.inj h).symm
  · rw [if_neg hv] at h
    obtain ⟨⟨p', it'⟩, _, h⟩ := Option.bind_eq_some_iff.1 h
    exact .inr ⟨p', h⟩

theorem fresh_dstep {e : DCfg} {d d' : Daemon} {ev : DEv} (hp : ∀ n buf len dst, ev ≠ .packet n buf len dst) (h : dstep e d ev = some d') :
    d'.fresh = d.fresh := by
  cases ev with
  | packet n buf len dst => exact absurd rfl (hp n buf len dst)
  | checkNbr n =>
    have h : d.checkNbr e n = some d' := h
    unfold Daemon.checkNbr at h
    cases hx : d.nbr n with
    | none => rw [hx] at h; cases h; rfl
    | some x =>
      rw [hx] at h
      simp only at h
      cases hc : x.link.check d.st.now with
      | none =>
        rw [hc] at h
        simp only [Option.bind_eq_bind] at h
        obtain ⟨d3, h3, h⟩ := Option.bind_eq_some_iff.1 h
        have h3 : d.nodeAs e (fun l => l) (.flushNeigh n) = some d3 := h3
        obtain ⟨costs, nc, l, rfl, _⟩ := nodeAs_spec h3
        cases h
        rfl
      | some r =>
        rw [hc] at h
        obtain ⟨l, b⟩ := r
        have h : (d.setNbr n fun x => { x with link := l }).recost e n b = some d' := h
        rw [recost_fresh h]
        rfl
  | node ev =>
    have h : (if isInternal ev = true then d.nodeAs e (fun l => l) ev else some d) = some d' := h
    split at h
    · obtain ⟨costs, nc, l, rfl, _⟩ := nodeAs_spec h
      rfl
    · cases h; rfl
  | say i j op =>
    have h : (if isChatter op ∧ j < d.fresh i ∧ (ifUp d.st i = true ∨ j ≠ 0) then d.write e i j op else some d) = some d' := h
    split at h
    · obtain ⟨l, rfl⟩ := write_only h
      rfl
    · cases h; rfl
  | down i =>
    have h : (if ifUp d.st i then d.nodeAs e (ownBuf i Buf.down) (.ifDown i) else some d) = some d' := h
    split at h
    · obtain ⟨costs, nc, l, rfl, _⟩ := nodeAs_spec h
      rfl
    · cases h; rfl
  | up i mtu fi full =>
    have h : (if (getIf d.st i).isSome ∧ ifUp d.st i = false then
      d.nodeAs e (ownBuf i fun b => b.up b.dst mtu fi) (.ifUp i full) else some d) = some d' := h
    split at h
    · obtain ⟨costs, nc, l, rfl, _⟩ := nodeAs_spec h
      rfl
    · cases h; rfl

theorem keys_sane {P X : PKey → Prop} {I : Bytes → Prop} {s : St} (hk : Keys P X I s) : Sane s := by
  refine ⟨fun r hr => ⟨trivial, trivial⟩, fun _ _ => trivial, fun _ _ _ _ => trivial, fun r hr => ⟨trivial, fun _ => trivial⟩, fun o ho => ?_⟩
  have := hk.out o ho
  cases o with
  | update i id k q m => exact ⟨trivial, trivial, this.2.2⟩
  | request i to k => exact fun _ _ => trivial
  | mhRequest i to k q id hh => exact ⟨trivial, trivial, this.2.2⟩
  | _ => trivial

attribute [local irreducible] rttSample rttcost Daemon.sampleRtt parsePacket Daemon.accept Daemon.items

section
variable {e : DCfg} (he : DCfgOk e) {X : PKey → Prop} (hX : ∀ a b, X a → X b → Proper ⟨a.prefix_, b.plen, b.srcPrefix, a.srcPlen⟩) {s0 : St}
  {d d' : Daemon}

theorem said_posts {E : PEnv} {ls : List Lab} (h : HoldsAt (ownKit e X s0) d') (hp : PostsAt d' ls) (n : NeighId) :
    ls.flatMap (Lab.said e s0 E n) = (ls.filterMap Lab.out).flatMap (saidTo e E (sifOf e d'.st (e.node.ifOf n)) n) := by
  induction ls with
  | nil => rfl
  | cons l ls ih =>
    rw [List.flatMap_cons, ih fun o u hu => hp o u (List.mem_cons_of_mem _ hu)]
    cases l with
    | post o u =>
      have hu := hp o u (List.mem_cons_self ..)
      subst hu
      rw [h.sif]
      rfl
    | _ => rfl

include he hX in
theorem good_step (h : DInv (ownKit e X s0) d) {ev : DEv} (hev : DEvOk e Proper X SndOk ev) : DEvGood (ownKit e X s0) d ev :=
  good_of_ok (ownKit_ok he hX s0) (fun _ _ => trivial) rfl fine_of_ok h ev hev
    (by cases ev <;> first | trivial | exact ⟨trivial, fun _ => trivial⟩)

include he hX in
/-- What an event says to the neighbours. -/
theorem said_step (h : DInv (ownKit e X s0) d) (hh : Housed e d) {ev : DEv} (hev : DEvOk e Proper X SndOk ev) (hk : dstep e d ev = some d') :
    DInv (ownKit e X s0) d' ∧ Housed e d' ∧ (∃ ls, Trace (ownKit e X s0) d ls d') ∧ ∃ new : List Out, d'.st.out = new.reverse ++ d.st.out ∧
      ∀ E : PEnv, linklocal E.sender = true → ∀ n j, (n, j) ∈ shape d' →
        privately E (d'.link (e.node.ifOf n)) j =
          privately E (d.link (e.node.ifOf n)) j ++ new.flatMap (saidTo e E (sifOf e d'.st (e.node.ifOf n)) n) := by
  have hK := ownKit_ok he hX s0
  have hg := good_step he hX h hev
  obtain ⟨d2, e2, i2, p2, ls, t2, q2⟩ := h.dstep hK ev hg
  have e2 : dstep e d ev = some d2 := e2
  rw [hk] at e2
  cases e2
  have hh' : Housed e d' := trace_housed t2.1 hh
  refine ⟨i2, hh', ⟨ls, t2.1⟩, ?_⟩
  have key : d'.fresh = d.fresh → ∃ new : List Out, d'.st.out = new.reverse ++ d.st.out ∧
      ∀ E : PEnv, linklocal E.sender = true → ∀ n j, (n, j) ∈ shape d' →
        privately E (d'.link (e.node.ifOf n)) j =
          privately E (d.link (e.node.ifOf n)) j ++ new.flatMap (saidTo e E (sifOf e d'.st (e.node.ifOf n)) n) := by
    intro hf
    refine ⟨ls.filterMap Lab.out, t2.2, fun E hE n j hn => ?_⟩
    have hb : j < d'.fresh (e.node.ifOf n) := (HoldsAt.buf ⟨_, i2⟩ hn).1
    rw [hf] at hb
    rw [trace_reads he hE t2.1 hh hn hb, said_posts ⟨_, i2⟩ q2]
  cases ev with
  | packet n0 buf len dst =>
    obtain ⟨g1, g2, g3⟩ := hg
    by_cases hup : ifUp d.st (e.node.ifOf n0) = true
    · obtain ⟨d1, eff, d3, e1, e3, e4⟩ := packet_parts hup hk
      obtain ⟨d1', eff', e1', i1, s1, o1, _, l1, t1, _⟩ := h.accept hK n0 dst g1 g2 hup
      have e1' : d.accept e n0 buf len dst = some (d1', eff') := e1'
      rw [e1] at e1'
      cases e1'
      obtain ⟨d3', e3', i3, p3, c3⟩ := i1.items hK n0 eff.items o1 (g3 hup d1 eff e1)
      have e3' : d1.items e n0 eff.items = some d3' := e3'
      rw [e3] at e3'
      cases e3'
      have hl1 : l1.filterMap Lab.out = [] := by
        have := t1.2
        rw [s1] at this
        have := List.self_eq_append_left.1 this
        simpa using this
      have hf3 : d3.fresh = d1.fresh := (handles_items eff.items (keys_sane i1.keys) (by rw [s1]; exact hup) o1 e3).fresh
      have hh1 : Housed e d1 := trace_housed t1.1 hh
      have fin : d'.fresh = d1.fresh → Calm (ownKit e X s0) d1 d' → ∃ new : List Out, d'.st.out = new.reverse ++ d.st.out ∧
          ∀ E : PEnv, linklocal E.sender = true → ∀ n j, (n, j) ∈ shape d' →
            privately E (d'.link (e.node.ifOf n)) j =
              privately E (d.link (e.node.ifOf n)) j ++ new.flatMap (saidTo e E (sifOf e d'.st (e.node.ifOf n)) n) := by
        rintro hf ⟨l5, t5, _, q5⟩
        refine ⟨l5.filterMap Lab.out, by rw [t5.2, s1], fun E hE n j hn => ?_⟩
        have hb := HoldsAt.buf ⟨_, i2⟩ hn
        have hb1 : j < d'.fresh (e.node.ifOf n) := hb.1
        rw [hf] at hb1
        rw [trace_reads he hE t5.1 hh1 hn hb1, said_posts ⟨_, i2⟩ q5, trace_silent he hE t1.1 hl1 n hb.2]
      rcases e4 with rfl | ⟨p, e4⟩
      · exact fin hf3 c3
      · obtain ⟨d4, e4', i4, p4, c4⟩ := i3.sampleRtt hK n0 p
        have e4' : d3.sampleRtt e n0 p = some d4 := e4'
        rw [e4] at e4'
        cases e4'
        exact fin ((sample_fresh e4).trans hf3) (c3.trans c4)
    · have hk : (if ifUp d.st (e.node.ifOf n0) then _ else some d) = some d' := hk
      rw [if_neg hup] at hk
      cases hk
      exact key rfl
  | _ => exact key (fresh_dstep (fun _ _ _ _ h => by cases h) hk)

include he hX in
/-- An interface stays up or down as long as it does not go down or come up. -/
theorem ifUp_dstep (h : DInv (ownKit e X s0) d) {ev : DEv} (hev : DEvOk e Proper X SndOk ev) (hk : dstep e d ev = some d') {i : IfId}
    (hf : ev ≠ .down i ∧ ∀ mtu fi full, ev ≠ .up i mtu fi full) : ifUp d'.st i = ifUp d.st i := by
  have hflap : ∀ (ev : Ev) (x : IfId) (f : (IfId → Link) → IfId → Link), x ≠ i →
      (∀ {s : St}, Sane s → ∃ b, Flap (fun _ => True) (fun _ => True) (fun _ => True) x b s (step e.node s ev)) →
      d.nodeAs e f ev = some d' → ifUp d'.st i = ifUp d.st i := by
    intro ev x f hx hs h1
    obtain ⟨costs, nc, l, rfl, _, hc, _⟩ := nodeAs_spec h1
    show ifUp (run e.node d.st (costs ++ [ev])) i = _
    have : run e.node d.st (costs ++ [ev]) = step e.node { d.st with ncost := nc } ev := by
      unfold run at hc ⊢
      rw [List.foldl_append, hc]
      rfl
    rw [this]
    obtain ⟨b, hb⟩ := hs (sane_cost (keys_sane h.keys) nc)
    rw [hb.up, if_neg fun h => hx h.1.symm]
    rfl
  have calm : (∀ i, ev ≠ .down i ∧ ∀ mtu fi full, ev ≠ .up i mtu fi full) → ifUp d'.st i = ifUp d.st i := by
    intro hc
    obtain ⟨d2, e2, _, _, _, _, h2, _⟩ := h.dstep_calm (ownKit_ok he hX s0) ev (good_step he hX h hev) hc
    have e2 : dstep e d ev = some d2 := e2
    rw [hk] at e2
    cases e2
    rw [h2]
  cases ev with
  | down x =>
    have hk : (if ifUp d.st x then d.nodeAs e (ownBuf x Buf.down) (.ifDown x) else some d) = some d' := hk
    split at hk
    · exact hflap _ x _ (fun h => hf.1 (by rw [h])) (fun hs => ⟨_, flap_down sane_rules hs x⟩) hk
    · cases hk; rfl
  | up x mtu fi full =>
    have hk : (if (getIf d.st x).isSome ∧ ifUp d.st x = false then
      d.nodeAs e (ownBuf x fun b => b.up b.dst mtu fi) (.ifUp x full) else some d) = some d' := hk
    split at hk
    · exact hflap _ x _ (fun h => hf.2 mtu fi full (by rw [h])) (fun hs => ⟨_, flap_up sane_rules hs x full⟩) hk
    · cases hk; rfl
  | _ => exact calm fun _ => ⟨fun h => (by cases h), fun _ _ _ h => (by cases h)⟩

include he hX in
/-- What several events say to a neighbour whose buffer does not change. -/
theorem said_run {n : NeighId} (evs : List DEv) : ∀ {d : Daemon}, DInv (ownKit e X s0) d → Housed e d → (∀ ev ∈ evs, DEvOk e Proper X SndOk ev) →
    drun e d evs = some d' → (∀ ev ∈ evs, ev ≠ .down (e.node.ifOf n) ∧ ∀ mtu fi full, ev ≠ .up (e.node.ifOf n) mtu fi full) →
    DInv (ownKit e X s0) d' ∧ (∃ ls, Trace (ownKit e X s0) d ls d') ∧ ifUp d'.st (e.node.ifOf n) = ifUp d.st (e.node.ifOf n) ∧
    ∃ new : List Out, d'.st.out = new.reverse ++ d.st.out ∧
      ∀ E : PEnv, linklocal E.sender = true → ∀ j, (n, j) ∈ shape d' → j < d.fresh (e.node.ifOf n) →
        privately E (d'.link (e.node.ifOf n)) j =
          privately E (d.link (e.node.ifOf n)) j ++ new.flatMap (saidTo e E (sifOf e d.st (e.node.ifOf n)) n) := by
  induction evs with
  | nil =>
    intro d h hh _ hr _
    cases hr
    exact ⟨h, ⟨[], .nil ⟨_, h⟩⟩, rfl, [], rfl, fun E hE j _ _ => (List.append_nil _).symm⟩
  | cons ev l ih =>
    intro d h hh hev hr hf
    unfold drun at hr
    rw [List.foldlM_cons] at hr
    obtain ⟨d1, e1, hr⟩ := Option.bind_eq_some_iff.1 hr
    have hr : drun e d1 l = some d' := hr
    obtain ⟨i1, hh1, ⟨l1, t1⟩, new1, o1, r1⟩ := said_step he hX h hh (hev ev (List.mem_cons_self ..)) e1
    have u1 := ifUp_dstep he hX h (hev ev (List.mem_cons_self ..)) e1 (hf ev (List.mem_cons_self ..))
    obtain ⟨i2, ⟨l2, t2⟩, u2, new2, o2, r2⟩ := ih i1 hh1 (fun x hx => hev x (List.mem_cons_of_mem _ hx)) hr (fun x hx => hf x (List.mem_cons_of_mem _ hx))
    refine ⟨i2, ⟨_, t1.append t2⟩, u2.trans u1, new1 ++ new2, by rw [o2, o1, List.reverse_append, List.append_assoc], fun E hE j hn hj => ?_⟩
    have k1 := trace_known t1
    have hj1 : j < d1.fresh (e.node.ifOf n) := Nat.lt_of_lt_of_le hj (k1.1 _)
    have hn1 : (n, j) ∈ shape d1 := by
      rcases (trace_known t2).2 _ hn with h | h
      · exact h
      · have h : d1.fresh (e.node.ifOf n) ≤ j := h
        omega
    have hs : sifOf e d1.st (e.node.ifOf n) = sifOf e d.st (e.node.ifOf n) := by
      rw [HoldsAt.sif (X := X) (s0 := s0) ⟨_, i1⟩, HoldsAt.sif (X := X) (s0 := s0) ⟨_, h⟩, u1]
    rw [r2 E hE j hn hj1, r1 E hE n j hn1, hs, List.flatMap_append, List.append_assoc]

end

end Babel
