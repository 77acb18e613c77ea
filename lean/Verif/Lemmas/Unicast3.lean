import Verif.Lemmas.Unicast2
/-
Answers wait in the buffer of the neighbour until they are sent.
-/
set_option linter.unusedSimpArgs false
set_option linter.unusedVariables false
set_option linter.unusedSectionVars false
namespace Babel
open Spec

attribute [local irreducible] rttSample rttcost Daemon.sampleRtt Daemon.items

/-- The TLV is not a hello. -/
def NotHello (z : Tlv) : Prop := ∀ b, z ≠ .tlv 4 b

theorem stamp_notHello {tf : Bool} {now : Timeval} {z : Tlv} (h : NotHello z) : stampTlv tf now z = z := by
  unfold stampTlv
  split
  · next b => exact absurd rfl (h b)
  · rfl

theorem waiting_same {z : Tlv} {j : Nat} {sent : List Bytes} {l l' : Link} (h1 : sentOn l' j = sentOn l j)
    (h2 : (l'.bufs j).bytes = (l.bufs j).bytes) (h : Waiting z j sent l) : Waiting z j sent l' := by
  unfold Waiting at h ⊢
  rw [h1, h2]
  exact h

section
variable {e : DCfg} {X : PKey → Prop} {s0 : St} (he : DCfgOk e) {d d' : Daemon} {z : Tlv} {sent : List Bytes}

include he in
theorem wrote_keeps {i i0 : IfId} {j j0 : Nat} {op : Snd} (w : Wrote (ownKit e X s0) d i j op d') (h0 : j0 ≠ 0) (hz : NotHello z)
    (h : Waiting z j0 sent (d.link i0)) : Waiting z j0 sent (d'.link i0) := by
  have hc := w.circ he
  have hq := w.q
  have ho := w.at_.own i
  obtain ⟨l, h1, rfl⟩ := w.step
  by_cases hi : i0 = i
  · subst hi
    show Waiting z j0 sent (if i0 = i0 then l else d.link i0)
    rw [if_pos rfl]
    by_cases hj : j0 = j
    · subst hj
      obtain ⟨ts, g⟩ := ho.good j0 h0
      obtain ⟨ts', ps, g', e1, e2, _⟩ := lstep_own hc hq.1 g ho.safe.idx h1
      rcases h with ⟨h2, ts0, h3, h4, h5⟩ | ⟨p, rest, h2, h3⟩
      · have : ts0 = ts := encAll_inj _ _ h4 g.ok (h3.symm.trans g.bytes)
        subst this
        rcases e2 with ⟨rfl, new, rfl⟩ | ⟨tr, ex, rfl, hex⟩
        · refine .inl ⟨by rw [e1, h2, List.append_nil], _, g'.bytes, g'.ok, List.mem_append_left _ h5⟩
        · refine .inr ⟨_, [], by rw [e1, h2], _, tr, rfl, ?_, ?_⟩
          · intro t ht
            rcases List.mem_append.1 ht with ht | ht
            · exact (stamped_ok g _ t ht).1
            · exact hex t ht
          · exact List.mem_append_left _ (List.mem_map.2 ⟨z, h5, stamp_notHello hz⟩)
      · exact .inr ⟨p, rest ++ ps, by rw [e1, h2, List.append_assoc]; rfl, h3⟩
    · obtain ⟨_, _, _, h3, _⟩ := step_out h1
      obtain ⟨ps, h4, h5⟩ := step_sent h1 j0
      exact waiting_same (by rw [h4, h5 hj, List.append_nil]) (by rw [h3 _ hj]) h
  · show Waiting z j0 sent (if i0 = i then l else d.link i0)
    rw [if_neg hi]
    exact h

include he in
theorem micro_keeps {l : Lab} (h : Micro (ownKit e X s0) d l d') {i : IfId} {j : Nat} (hj : j ≠ 0) (hz : NotHello z)
    (hw : Waiting z j sent (d.link i)) : Waiting z j sent (d'.link i) := by
  cases l with
  | post o u => exact h.post_ind (fun x => Waiting z j sent (x.link i)) (fun _ _ _ _ _ w h => wrote_keeps he w hj hz h) hw
  | to m op =>
    obtain ⟨_, x, _, w⟩ := h
    exact wrote_keeps he w hj hz hw
  | chat i j op => exact wrote_keeps he h.2 hj hz hw
  | quiet => exact waiting_same (by unfold sentOn; rw [h.out]) (by rw [h.bufs _ _ (.inl hj)]) hw
  | drop m =>
    obtain ⟨a, rfl⟩ := h
    exact hw
  | add m =>
    obtain ⟨_, rfl⟩ := h
    show Waiting z j sent (if i = e.node.ifOf m then (d.link (e.node.ifOf m)).setDst (d.fresh (e.node.ifOf m)) (e.addr m) else d.link i)
    split
    · next hi =>
      subst hi
      refine waiting_same (l := d.link (e.node.ifOf m)) rfl ?_ hw
      show (if j = d.fresh (e.node.ifOf m) then { (d.link (e.node.ifOf m)).bufs j with dst := e.addr m } else (d.link (e.node.ifOf m)).bufs j : Buf).bytes = _
      split <;> rfl
    · exact hw

include he in
theorem trace_keeps {ls : List Lab} (h : Trace (ownKit e X s0) d ls d') {i : IfId} {j : Nat} (hj : j ≠ 0) (hz : NotHello z)
    (hw : Waiting z j sent (d.link i)) : Waiting z j sent (d'.link i) := by
  induction h with
  | nil => exact hw
  | cons h0 h1 _ ih => exact ih (micro_keeps he h1 hj hz hw)

end

section
variable {K : Kit} {d d' : Daemon}

theorem wrote_grows {i : IfId} {j : Nat} {op : Snd} (w : Wrote K d i j op d') (i0 : IfId) (j0 : Nat) :
    ∃ more, sentOn (d'.link i0) j0 = sentOn (d.link i0) j0 ++ more := by
  obtain ⟨l, h1, rfl⟩ := w.step
  show ∃ more, sentOn (if i0 = i then l else d.link i0) j0 = _
  split
  · next h =>
    subst h
    obtain ⟨ps, h4, _⟩ := step_sent h1 j0
    exact ⟨ps, h4⟩
  · exact ⟨[], (List.append_nil _).symm⟩

theorem trace_grows {ls : List Lab} (h : Trace K d ls d') (i0 : IfId) (j0 : Nat) :
    ∃ more, sentOn (d'.link i0) j0 = sentOn (d.link i0) j0 ++ more := by
  induction h with
  | nil => exact ⟨[], (List.append_nil _).symm⟩
  | @cons d d1 d' l ls h0 h1 _ ih =>
    obtain ⟨m, ih⟩ := ih
    have : ∃ more, sentOn (d1.link i0) j0 = sentOn (d.link i0) j0 ++ more := by
      cases l with
      | post o u =>
        refine h1.post_ind (fun x => ∃ more, sentOn (x.link i0) j0 = sentOn (d.link i0) j0 ++ more) (fun a b i j op w h => ?_) ⟨[], (List.append_nil _).symm⟩
        obtain ⟨m1, h⟩ := h
        obtain ⟨m2, h2⟩ := wrote_grows w i0 j0
        exact ⟨m1 ++ m2, by rw [h2, h, List.append_assoc]⟩
      | to m op =>
        obtain ⟨_, x, _, w⟩ := h1
        exact wrote_grows w i0 j0
      | chat i j op => exact wrote_grows h1.2 i0 j0
      | quiet => exact ⟨[], by unfold sentOn; rw [h1.out, List.append_nil]⟩
      | drop m =>
        obtain ⟨a, rfl⟩ := h1
        exact ⟨[], (List.append_nil _).symm⟩
      | add m =>
        obtain ⟨_, rfl⟩ := h1
        refine ⟨[], ?_⟩
        rw [List.append_nil]
        show sentOn (if i0 = K.e.node.ifOf m then (d.link (K.e.node.ifOf m)).setDst (d.fresh (K.e.node.ifOf m)) (K.e.addr m) else d.link i0) j0 = _
        split
        · next hi => subst hi; rfl
        · rfl
    obtain ⟨m1, h⟩ := this
    exact ⟨m1 ++ m, by rw [ih, h, List.append_assoc]⟩

end

section
variable {e : DCfg} {X : PKey → Prop} {s0 : St} (he : DCfgOk e) (hX : ∀ a b, X a → X b → Proper ⟨a.prefix_, b.plen, b.srcPrefix, a.srcPlen⟩)
  {d d' : Daemon} {z : Tlv}

include he in
/-- What is written is in the buffer. -/
theorem wrote_waits {i : IfId} {j : Nat} {op : Snd} (w : Wrote (ownKit e X s0) d i j op d') (hj : j ≠ 0) (hz : written op = some z) :
    Waiting z j (sentOn (d'.link i) j) (d'.link i) := by
  have hc := w.circ he
  have hq := w.q
  have ho := w.at_.own i
  obtain ⟨l, h1, rfl⟩ := w.step
  show Waiting z j (sentOn (if i = i then l else d.link i) j) (if i = i then l else d.link i)
  rw [if_pos rfl]
  obtain ⟨ts, g⟩ := ho.good j hj
  obtain ⟨t, h2, h3, _⟩ := step_out h1
  obtain ⟨base, h4, h5⟩ := op_last hc d.st.now (t := (d.link i).tx j) g ho.safe.idx op hq.1 h2 z hz
  exact .inl ⟨rfl, _, by rw [h3]; exact h4, h5, List.mem_append_right _ (List.mem_singleton_self z)⟩

/-- Something has been said to neighbour `n` in the meantime. -/
def Since (e : DCfg) (z : Tlv) (n : NeighId) (j : Nat) (d d' : Daemon) : Prop :=
  ∃ more, Waiting z j (sentOn (d.link (e.node.ifOf n)) j ++ more) (d'.link (e.node.ifOf n))

theorem Since.earlier {n : NeighId} {j : Nat} {d0 : Daemon} {ls : List Lab} (h : Since e z n j d d') (t : Trace (ownKit e X s0) d0 ls d) :
    Since e z n j d0 d' := by
  obtain ⟨m, h⟩ := h
  obtain ⟨m1, h1⟩ := trace_grows t (e.node.ifOf n) j
  rw [h1, List.append_assoc] at h
  exact ⟨_, h⟩

include he in
theorem Since.later {n : NeighId} {j : Nat} {d2 : Daemon} {ls : List Lab} (h : Since e z n j d d') (t : Trace (ownKit e X s0) d' ls d2) (hj : j ≠ 0)
    (hz : NotHello z) : Since e z n j d d2 := by
  obtain ⟨m, h⟩ := h
  exact ⟨m, trace_keeps he t hj hz h⟩

include he in
/-- One answer. -/
theorem answer_since {n : NeighId} {op : Snd} (h0 : HoldsAt (ownKit e X s0) d) (h : Micro (ownKit e X s0) d (.to n op) d') {j : Nat}
    (hh : Housed e d) (hn : (n, j) ∈ shape d) (hz : written op = some z) : Since e z n j d d' := by
  obtain ⟨_, x, hx, w⟩ := h
  obtain ⟨y, hy, rfl⟩ := shape_mem hh.nodup hn
  rw [hx] at hy
  cases hy
  obtain ⟨more, h1⟩ := wrote_grows w (e.node.ifOf n) x.buf
  exact ⟨more, h1 ▸ wrote_waits he w (h0.buf hn).2 hz⟩

include he hX in
theorem items_ack {n : NeighId} {j nonce iv : Nat} : ∀ (l : List Item) {d d' : Daemon}, DInv (ownKit e X s0) d → (∀ it ∈ l, ItemOk it) →
    ItemsGood (ownKit e X s0) n l d → d.items e n l = some d' → Housed e d → j < d.fresh (e.node.ifOf n) → (n, j) ∈ shape d' →
    .ackReq nonce iv ∈ l → Since e (.tlv 3 (be16 nonce)) n j d d' := by
  intro l
  have hK := ownKit_ok he hX s0
  induction l with
  | nil => intro d d' _ _ _ _ _ _ _ h; cases h
  | cons it l ih =>
    intro d d' h hi hg hr hh hj hn hm
    obtain ⟨d1, e1, i1, _, l1, t1, _⟩ := h.item hK n it (hi it (List.mem_cons_self ..)) hg.1
    have e1 : d.item e n it = some d1 := e1
    have hr1 : d1.items e n l = some d' := by
      unfold Daemon.items at hr ⊢
      rw [List.foldlM_cons, e1] at hr
      exact hr
    have hg1 := hg.2 d1 e1
    obtain ⟨d2, e2, i2, _, l2, t2, _⟩ := i1.items hK n l (fun y hy => hi y (List.mem_cons_of_mem _ hy)) hg1
    have e2 : d1.items e n l = some d2 := e2
    rw [hr1] at e2
    cases e2
    have k1 := trace_known t1.1
    have k2 := trace_known t2.1
    have hj1 : j < d1.fresh (e.node.ifOf n) := Nat.lt_of_lt_of_le hj (k1.1 _)
    have hn1 : (n, j) ∈ shape d1 := by
      rcases k2.2 _ hn with h | h
      · exact h
      · have h : d1.fresh (e.node.ifOf n) ≤ j := h
        omega
    have hn0 : (n, j) ∈ shape d := by
      rcases k1.2 _ hn1 with h | h
      · exact h
      · have h : d.fresh (e.node.ifOf n) ≤ j := h
        omega
    rcases List.mem_cons.1 hm with rfl | hm
    · refine Since.later he ?_ t2.1 (HoldsAt.buf ⟨_, h⟩ hn0).2 (fun b hb => by cases hb)
      obtain ⟨x, hx, hxj⟩ := shape_mem hh.nodup hn0
      obtain ⟨d3, e3, _, _, m3⟩ := h.toNbr hK hx _ (hK.ack nonce iv (hi _ (List.mem_cons_self ..)).1 (hi _ (List.mem_cons_self ..)).2) (fun _ _ => trivial)
        (fun _ => rfl) rfl
      have e1 : (match d.nbr n with | none => some d | some x => d.write e (e.node.ifOf n) x.buf (.ack nonce iv)) = some d1 := e1
      rw [hx] at e1
      have e3 : d.write e (e.node.ifOf n) x.buf (.ack nonce iv) = some d3 := e3
      have : d3 = d1 := Option.some.inj (e3.symm.trans e1)
      subst this
      exact answer_since he ⟨_, h⟩ m3 hh hn0 rfl
    · exact (ih i1 (fun y hy => hi y (List.mem_cons_of_mem _ hy)) hg1 hr1 (trace_housed t1.1 hh) hj1 hn hm).earlier t1.1

include he hX in
theorem challenges_since {n : NeighId} {j : Nat} {ch : Challenge} : ∀ (l : List Challenge) {d d' : Daemon}, DInv (ownKit e X s0) d → (∀ ch ∈ l, ChOk ch) →
    l.foldlM (fun d ch => d.challenge e n ch) d = some d' → Housed e d → j < d.fresh (e.node.ifOf n) → (n, j) ∈ shape d' →
    ch ∈ l → Since e (challengeTlv ch) n j d d' := by
  intro l
  have hK := ownKit_ok he hX s0
  induction l with
  | nil => intro d d' _ _ _ _ _ _ h; cases h
  | cons c l ih =>
    intro d d' h hi hr hh hj hn hm
    obtain ⟨d1, e1, i1, _, l1, t1, _⟩ := h.challenges hK n [c] (fun y hy => hi y (by rw [List.mem_singleton] at hy; subst hy; exact List.mem_cons_self ..))
    have e1 : d.challenge e n c = some d1 := by
      have e1 : [c].foldlM (fun d ch => d.challenge e n ch) d = some d1 := e1
      simpa using e1
    have hr1 : l.foldlM (fun d ch => d.challenge e n ch) d1 = some d' := by
      rw [List.foldlM_cons, e1] at hr
      exact hr
    obtain ⟨d2, e2, i2, _, l2, t2, _⟩ := i1.challenges hK n l (fun y hy => hi y (List.mem_cons_of_mem _ hy))
    have e2 : l.foldlM (fun d ch => d.challenge e n ch) d1 = some d2 := e2
    rw [hr1] at e2
    cases e2
    have k1 := trace_known t1.1
    have k2 := trace_known t2.1
    have hj1 : j < d1.fresh (e.node.ifOf n) := Nat.lt_of_lt_of_le hj (k1.1 _)
    have hn1 : (n, j) ∈ shape d1 := by
      rcases k2.2 _ hn with h | h
      · exact h
      · have h : d1.fresh (e.node.ifOf n) ≤ j := h
        omega
    have hn0 : (n, j) ∈ shape d := by
      rcases k1.2 _ hn1 with h | h
      · exact h
      · have h : d.fresh (e.node.ifOf n) ≤ j := h
        omega
    rcases List.mem_cons.1 hm with rfl | hm
    · refine Since.later he ?_ t2.1 (HoldsAt.buf ⟨_, h⟩ hn0).2 (fun b hb => by cases ch <;> cases hb)
      obtain ⟨x, hx, hxj⟩ := shape_mem hh.nodup hn0
      have hc := hi ch (List.mem_cons_self ..)
      unfold Daemon.challenge at e1
      rw [hx] at e1
      cases ch with
      | request b =>
        obtain ⟨d3, e3, _, _, m3⟩ := h.toNbr hK hx _ (hK.challenge b hc) (fun _ _ => trivial) (fun _ => rfl) rfl
        have e3 : d.write e (e.node.ifOf n) x.buf (.challenge b) = some d3 := e3
        have : d3 = d1 := Option.some.inj (e3.symm.trans e1)
        subst this
        exact answer_since he ⟨_, h⟩ m3 hh hn0 rfl
      | reply b =>
        obtain ⟨d3, e3, _, _, m3⟩ := h.toNbr hK hx _ (hK.reply b hc) (fun _ _ => trivial) (fun _ => rfl) rfl
        have e3 : d.write e (e.node.ifOf n) x.buf (.reply b) = some d3 := e3
        have : d3 = d1 := Option.some.inj (e3.symm.trans e1)
        subst this
        exact answer_since he ⟨_, h⟩ m3 hh hn0 rfl
    · exact (ih i1 (fun y hy => hi y (List.mem_cons_of_mem _ hy)) hr1 (trace_housed t1.1 hh) hj1 hn hm).earlier t1.1

omit he hX in
/-- Packets on interfaces without a key are all read. -/
theorem receive_plain {r : Nonces} {c : RIf} {p : Rx} {s a : AState} {eff : Effect} (hkey : c.key = none)
    (hr : receive r c p s = some (a, eff)) {st : PState} {items : List Item} (hp : parsePacket p.env p.buf p.len = some (st, items)) :
    eff.items = items := by
  unfold receive at hr
  unfold parsePacket at hp
  simp only [Option.bind_eq_bind] at hr hp
  obtain ⟨o, ho, hp⟩ := Option.bind_eq_some_iff.1 hp
  rw [ho] at hr
  simp only [Option.bind_some, hkey] at hr
  cases o with
  | none => cases hp; cases hr; rfl
  | some bl =>
    simp only at hr hp
    unfold deliver at hr
    simp only [Option.bind_eq_bind] at hr
    rw [hp] at hr
    simp only [Option.bind_some] at hr
    cases hr
    rfl

/-- What becomes of a packet before its messages are looked at. -/
theorem accept_parts {K : Kit} (hK : K.Ok) {d d1 : Daemon} (h : DInv K d) (n : NeighId) {buf : Bytes} {len : Nat} (dst : Bytes) (hb : 4 ≤ buf.length)
    (hl : len ≤ buf.length) (hup : ifUp d.st (K.e.node.ifOf n) = true) {eff : Effect} (ha : d.accept K.e n buf len dst = some (d1, eff)) :
    ∃ a E, DInv K E ∧ (∀ ch ∈ eff.challenges, ChOk ch) ∧ eff.challenges.foldlM (fun d ch => d.challenge K.e n ch) E = some d1 ∧
      d1.fresh = E.fresh ∧ (∃ ls, Trace K d ls E) ∧
      receive (K.e.nonces (K.e.node.ifOf n)) ⟨(K.e.ifs (K.e.node.ifOf n)).key, (K.e.ifs (K.e.node.ifOf n)).acceptBad⟩
        ⟨penvOf K.e n, buf, len, dst, d.st.now⟩ (d.auth (K.e.node.ifOf n)) = some (a, eff) := by
  unfold Daemon.accept at ha
  simp only [Option.bind_eq_bind] at ha
  obtain ⟨⟨a, eff'⟩, hr, ha⟩ := Option.bind_eq_some_iff.1 ha
  obtain ⟨d0, hch, ha⟩ := Option.bind_eq_some_iff.1 ha
  cases ha
  obtain ⟨h1, h2, h3⟩ := receive_ok (hK.nonces _) hl hr
  have h4 := (InvAt.setAuth h (fun x => if x = K.e.node.ifOf n then a else d.auth x)).ensureNbr hK n hup
  have h5 : DInv K (Daemon.ensureNbr K.e { d with auth := fun x => if x = K.e.node.ifOf n then a else d.auth x } n) := by
    show InvAt K (Daemon.ensureNbr K.e _ n).st.out _
    rw [ensureNbr_st]
    exact h4
  have h6 : DInv K { d with auth := fun x => if x = K.e.node.ifOf n then a else d.auth x } := InvAt.setAuth h _
  have c0 : Calm K d { d with auth := fun x => if x = K.e.node.ifOf n then a else d.auth x } :=
    .one (l := .quiet) h ⟨rfl, rfl, fun _ _ _ => rfl, fun _ => rfl⟩ h6 rfl rfl
  obtain ⟨ls, t, _⟩ := c0.trans (ensureNbr_calm (n := n) h6 h5)
  obtain ⟨l, hl0⟩ := onlyLinks_foldlM (fun _ _ _ h => challenge_only h) _ hch
  exact ⟨a, _, h5, h1, hch, by rw [hl0], ⟨ls, t.1⟩, hr⟩

include he hX in
/-- A packet is answered. -/
theorem packet_since (h : DInv (ownKit e X s0) d) (hh : Housed e d) {n : NeighId} {buf dst : Bytes} {len : Nat}
    (hev : DEvOk e Proper X SndOk (.packet n buf len dst)) (hk : dstep e d (.packet n buf len dst) = some d')
    (hup : ifUp d.st (e.node.ifOf n) = true) {j : Nat} (hn : (n, j) ∈ shape d') :
    ∃ d1 eff, d.accept e n buf len dst = some (d1, eff) ∧
      (∀ nonce iv, .ackReq nonce iv ∈ eff.items → Since e (.tlv 3 (be16 nonce)) n j d d') ∧
      ∀ ch ∈ eff.challenges, Since e (challengeTlv ch) n j d d' := by
  have hK := ownKit_ok he hX s0
  obtain ⟨g1, g2, g3⟩ := good_step he hX h hev
  obtain ⟨d2, e2, i2, _, ls2, t2, _⟩ := h.dstep hK (.packet n buf len dst) (good_step he hX h hev)
  have e2 : dstep e d (.packet n buf len dst) = some d2 := e2
  rw [hk] at e2
  cases e2
  obtain ⟨d1, eff, d3, e1, e3, e4⟩ := packet_parts hup hk
  obtain ⟨d1', eff', e1', i1, s1, o1, _, l1, t1, _⟩ := h.accept hK n dst g1 g2 hup
  have e1' : d.accept e n buf len dst = some (d1', eff') := e1'
  rw [e1] at e1'
  cases e1'
  obtain ⟨d3', e3', i3, p3, l3, t3, _⟩ := i1.items hK n eff.items o1 (g3 hup d1 eff e1)
  have e3' : d1.items e n eff.items = some d3' := e3'
  rw [e3] at e3'
  cases e3'
  have hf3 : d3.fresh = d1.fresh := (handles_items eff.items (keys_sane i1.keys) (by rw [s1]; exact hup) o1 e3).fresh
  have hh1 : Housed e d1 := trace_housed t1.1 hh
  obtain ⟨l4, t4, hf4⟩ : ∃ l4, Trace (ownKit e X s0) d3 l4 d' ∧ d'.fresh = d3.fresh := by
    rcases e4 with rfl | ⟨p, e4⟩
    · exact ⟨[], .nil ⟨_, i3⟩, rfl⟩
    · obtain ⟨d4, e4', i4, p4, l4, t4, _⟩ := i3.sampleRtt hK n p
      have e4' : d3.sampleRtt e n p = some d4 := e4'
      rw [e4] at e4'
      cases e4'
      exact ⟨l4, t4.1, sample_fresh e4⟩
  have hb := HoldsAt.buf ⟨_, i2⟩ hn
  have hb1 : j < d'.fresh (e.node.ifOf n) := hb.1
  have hn3 : (n, j) ∈ shape d3 := by
    rcases (trace_known t4).2 _ hn with h | h
    · exact h
    · have h : d3.fresh (e.node.ifOf n) ≤ j := h
      rw [hf4] at hb1
      omega
  rw [hf4, hf3] at hb1
  have hn1 : (n, j) ∈ shape d1 := by
    rcases (trace_known t3.1).2 _ hn3 with h | h
    · exact h
    · have h : d1.fresh (e.node.ifOf n) ≤ j := h
      omega
  refine ⟨d1, eff, e1, fun nonce iv hm => ?_, fun ch hm => ?_⟩
  · exact ((items_ack he hX eff.items i1 o1 (g3 hup d1 eff e1) e3 hh1 hb1 hn3 hm).earlier t1.1).later he t4 hb.2 (fun b hb => by cases hb)
  · refine (Since.later he ?_ t3.1 hb.2 (fun b hb => by cases ch <;> cases hb)).later he t4 hb.2 (fun b hb => by cases ch <;> cases hb)
    obtain ⟨a, E, r1, r2, r3, r4, ⟨l5, t5⟩, _⟩ := accept_parts hK h n dst g1 g2 hup e1
    refine (challenges_since he hX eff.challenges r1 r2 r3 (trace_housed t5 hh) ?_ hn1 hm).earlier t5
    rw [← r4]
    exact hb1

end

end Babel
