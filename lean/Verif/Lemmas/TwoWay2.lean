import Verif.Lemmas.TwoWay
/-
The same in a network.
-/
set_option linter.unusedSimpArgs false
set_option linter.unusedVariables false
set_option linter.unusedSectionVars false
namespace Babel
open Spec

section
variable {e : DCfg} {X : PKey → Prop} {s0 : St} {S : IfId → Prop} (he : DCfgOk e)
  (hX : ∀ a b, X a → X b → Proper ⟨a.prefix_, b.plen, b.srcPrefix, a.srcPlen⟩) (hA : ∀ n, (e.addr n).length = 16)

include he hX hA in
/-- Hellos and IHUs change nothing that is known of neighbours. -/
theorem chat_nbrs {t t' : Talk} (h : TInv e X s0 S t.d) {ev : TEv} (hev : ∀ x, ev ≠ .ev x) (hk : tstep e t ev = some t') : t'.d.nbrs = t.d.nbrs := by
  cases ev with
  | ev x => exact absurd rfl (hev x)
  | hello i =>
    have hk : t.hello e i = some t' := hk
    by_cases hup : ifUp t.d.st i = false
    · rw [hello_down he hX hA h hup] at hk
      cases hk
      rfl
    · obtain ⟨t2, b, e1, ⟨w, c⟩, _⟩ := hello_did he hX hA h (i := i) (by simpa using hup)
      rw [e1] at hk
      cases hk
      exact c.nbrs
  | last i =>
    obtain ⟨d1, b, e1, c1, _⟩ := multicast_did he hX h i 10 true
    have hk : t.multicastHello e i 10 true = some t' := hk
    rw [e1] at hk
    cases hk
    exact c1.nbrs
  | ihu n =>
    have hk : t.sendIhu e n = some t' := hk
    by_cases hup : ifUp t.d.st (e.node.ifOf n) = false
    · rw [ihu_down hup] at hk
      cases hk
      rfl
    · cases hx : t.d.nbr n with
      | none =>
        unfold Talk.sendIhu at hk
        rw [hx] at hk
        cases hk
        rfl
      | some x =>
        obtain ⟨t2, e2, ⟨w, c⟩, _⟩ := ihus_did he hX hA (i := e.node.ifOf n) [(n, x)] h (by simpa using hup) (fun p hp => by
          rw [List.mem_singleton] at hp
          subst hp
          exact ⟨rfl, hx⟩)
        have e2 : (t.sendIhu e n >>= fun t => some t) = some t2 := e2
        rw [hk] at e2
        have e2 : some t' = some t2 := e2
        cases e2
        exact c.nbrs

end

/-! ### What messages and the passing of time say -/

theorem check_link {now : Timeval} {l l' : Nbr} {b : Bool} (h : l.check now = some (l', b)) :
    (l'.txcost = INFINITY ∨ l'.txcost = l.txcost) ∧ l'.hello = (l.hello.check now).1 ∧ l'.uhello = (l.uhello.check now).1 := by
  unfold Nbr.check at h
  simp only at h
  split at h
  · cases h
  · cases h
    unfold Nbr.resetTxcost
    simp only
    split
    · exact ⟨.inr rfl, rfl, rfl⟩
    · split
      · exact ⟨.inl rfl, rfl, rfl⟩
      · exact ⟨.inr rfl, rfl, rfl⟩

theorem check_reach {now : Timeval} {h : Hist} (hr : (h.check now).1.reach ≠ 0) : h.reach ≠ 0 := by
  intro h0
  apply hr
  unfold Hist.check
  simp only
  split
  · exact h0
  · show (if _ then 0 else h.reach >>> _) = 0
    split
    · rfl
    · rw [h0, Nat.zero_shiftRight]

theorem noted_link (now : Timeval) (x : DNbr) (it : Item) :
    ((noted now x it).link.txcost = x.link.txcost ∨ ∃ iv, it = .ihu (noted now x it).link.txcost iv) ∧
    ((noted now x it).link.hello = x.link.hello ∨ ∃ q v t, it = .hello false q v t) ∧
    ((noted now x it).link.uhello = x.link.uhello ∨ ∃ q v t, it = .hello true q v t) := by
  cases it with
  | hello u q v t =>
    cases u <;> cases t <;> exact ⟨.inl rfl, (by first | exact .inl rfl | exact .inr ⟨_, _, _, rfl⟩), (by first | exact .inl rfl | exact .inr ⟨_, _, _, rfl⟩)⟩
  | ihu tx iv => exact ⟨.inr ⟨iv, rfl⟩, .inl rfl, .inl rfl⟩
  | _ => exact ⟨.inl rfl, .inl rfl, .inl rfl⟩

section
variable {Node : Type} [DecidableEq Node]

/-- What router `a` may know of its neighbour `n`, after the states `H`. -/
structure Known (N : DNet Node) (H : List (Node → Talk)) (a : Node) (n : NeighId) (l : Nbr) : Prop where
  tx : l.txcost = INFINITY ∨ ∃ T ∈ H, ∃ m y, (T (N.peer a n)).d.nbr m = some y ∧
    ifUp (T (N.peer a n)).d.st ((N.cfg (N.peer a n)).node.ifOf m) = true ∧
    (N.cfg (N.peer a n)).addr m ∈ ((N.cfg a).ifs ((N.cfg a).node.ifOf n)).ll ∧
    l.txcost = receiveCost N T (N.peer a n) m y % 65536
  hello : l.hello.reach ≠ 0 → ∃ T ∈ H, HasSaidHello T (N.peer a n) (penvOf (N.cfg a) n) false
  uhello : l.uhello.reach ≠ 0 → ∃ T ∈ H, HasSaidHello T (N.peer a n) (penvOf (N.cfg a) n) true

theorem Known.mono {N : DNet Node} {H : List (Node → Talk)} {a : Node} {n : NeighId} {l : Nbr} (h : Known N H a n l) (T : Node → Talk) : Known N (T :: H) a n l := by
  refine ⟨h.tx.imp_right ?_, fun g => ?_, fun g => ?_⟩
  · rintro ⟨T', h1, h2⟩
    exact ⟨T', List.mem_cons_of_mem _ h1, h2⟩
  · obtain ⟨T', h1, h2⟩ := h.hello g
    exact ⟨T', List.mem_cons_of_mem _ h1, h2⟩
  · obtain ⟨T', h1, h2⟩ := h.uhello g
    exact ⟨T', List.mem_cons_of_mem _ h1, h2⟩

/-- What is true of all states of a network. -/
structure PastInv (N : DNet Node) (X : Node → PKey → Prop) (s0 : Node → St) (T : Node → Talk) (H : List (Node → Talk)) : Prop where
  inv : ∀ a, TInv (N.cfg a) (X a) (s0 a) (fun _ => True) (T a).d
  ihus : ∀ b (E : PEnv), linklocal E.sender = true → ∀ i j r, r ∈ ihusOn E ((T b).d.link i) j → ∃ T' ∈ H, ∃ m y, (T' b).d.nbr m = some y ∧
    ifUp (T' b).d.st ((N.cfg b).node.ifOf m) = true ∧ E.isOurs ((N.cfg b).addr m) = true ∧ r = ihuFor (N.cfg b) (T' b).d m y
  nbrs : ∀ a n x, (T a).d.nbr n = some x → Known N H a n x.link

/-- What is read in a packet received is what is read in the packet sent. -/
theorem accepted_heard {e : DCfg} {X : PKey → Prop} {s0 : St} {S : IfId → Prop} (he : DCfgOk e)
    (hX : ∀ a b, X a → X b → Proper ⟨a.prefix_, b.plen, b.srcPrefix, a.srcPlen⟩) {d d1 : Daemon} (h : TInv e X s0 S d) {n : NeighId} {buf dst : Bytes} {len : Nat}
    {eff : Effect} (hb : 4 ≤ buf.length) (hl : len ≤ buf.length) (hup : ifUp d.st (e.node.ifOf n) = true)
    (ha : d.accept e n buf len dst = some (d1, eff)) {it : Item} (hit : it ∈ eff.items) : untimed it ∈ heard (penvOf e n) (buf.take len) := by
  have hK := talkKit_ok he hX s0 S (Q0 := fun _ => True) fun _ _ => trivial
  obtain ⟨d1', eff', e1, _, _, _, hpp, _⟩ := h.inv.accept hK n dst hb hl hup
  have e1 : d.accept e n buf len dst = some (d1', eff') := e1
  rw [ha] at e1
  cases e1
  rcases hpp with hpp | ⟨st, hpp⟩
  · rw [hpp] at hit
    cases hit
  · have hpp : parsePacket (penvOf e n) buf len = some (st, eff.items) := hpp
    by_cases h4 : len < 4
    · rw [C07_short_harmless _ _ _ hb h4] at hpp
      injection hpp with hpp
      rw [← (Prod.mk.inj hpp).2] at hit
      cases hit
    · have hlen : (buf.take len).length = len := by rw [List.length_take]; omega
      have hst := C07_stale (penvOf e n) (buf.take len) (buf.drop len) (by omega)
      rw [List.take_append_drop, hlen, hpp] at hst
      unfold heard
      rw [hlen, ← hst]
      exact List.mem_map.2 ⟨it, hit, rfl⟩

theorem mem_ihus {E : PEnv} {l : Link} {p : Nat × Bytes} (hp : p ∈ l.out) {r iv : Nat} (h : Item.ihu r iv ∈ heard E p.2) : (r, iv) ∈ ihusOn E l p.1 := by
  unfold ihusOn wholly
  refine List.mem_filterMap.2 ⟨.ihu r iv, List.mem_append_left _ (List.mem_flatMap.2 ⟨p.2, ?_, h⟩), rfl⟩
  unfold sentOn
  exact List.mem_map.2 ⟨p, List.mem_filter.2 ⟨hp, by simp⟩, rfl⟩

variable {N : DNet Node} {X : Node → PKey → Prop} (hN : DNetOk N X) (hA : ∀ a n, ((N.cfg a).addr n).length = 16)

/-- What happens to what is known of a neighbour, at an event. -/
structure Grows (N : DNet Node) (T : Node → Talk) (H : List (Node → Talk)) (b : Node) (y : DEv) : Prop where
  fresh : ∀ n now, Known N (T :: H) b n (Nbr.fresh now)
  rtt : ∀ n now i l rtt, Known N (T :: H) b n l → Known N (T :: H) b n (l.addRtt now i rtt).1
  check : ∀ n now l l' c, Known N (T :: H) b n l → l.check now = some (l', c) → Known N (T :: H) b n l'
  items : ∀ n buf len dst d1 eff, y = .packet n buf len dst → ifUp (T b).d.st ((N.cfg b).node.ifOf n) = true →
    (T b).d.accept (N.cfg b) n buf len dst = some (d1, eff) → ∀ it ∈ eff.items, ∀ now (x : DNbr), Known N (T :: H) b n x.link →
    Known N (T :: H) b n (noted now x it).link

include hN in
theorem PastInv.grows {s0 : Node → St} {T : Node → Talk} {H : List (Node → Talk)} (ih : PastInv N X s0 T H) {b : Node} {y : DEv}
    (ho : Overheard N X T b (.ev y)) : Grows N T H b y := by
  obtain ⟨hev, hst, hpk⟩ := ho
  refine ⟨?_, ?_, ?_, ?_⟩
  · exact fun n now => ⟨.inl rfl, fun h => absurd rfl h, fun h => absurd rfl h⟩
  · exact fun n now i l rtt h => ⟨h.tx, h.hello, h.uhello⟩
  · intro n now l l' bb h hc
    obtain ⟨c1, c2, c3⟩ := check_link hc
    refine ⟨?_, fun g => h.hello (check_reach (by rw [← c2]; exact g)), fun g => h.uhello (check_reach (by rw [← c3]; exact g))⟩
    rcases c1 with c1 | c1
    · exact .inl c1
    · rw [c1]
      exact h.tx
  · rintro n buf len dst d1 eff rfl hup ha it hit now x h
    obtain ⟨hb, hl, _⟩ := hev
    rcases hpk n buf len dst rfl with hu | ⟨i, p, hp, hpe⟩
    · rw [accept_unsigned hb hl (ih.inv b).inv.time hu] at ha
      cases ha
      cases hit
    · have hh := accepted_heard (hN.cfg b) (hN.mix b) (ih.inv b) hb hl hup ha hit
      rw [← hpe] at hh
      have said : ∀ u q v t, it = .hello u q v t → ∃ T' ∈ T :: H, HasSaidHello T' (N.peer b n) (penvOf (N.cfg b) n) u := by
        rintro u q v t rfl
        exact ⟨T, List.mem_cons_self .., i, p, q, v, hp, hh⟩
      obtain ⟨n1, n2, n3⟩ := noted_link now x it
      refine ⟨?_, fun g => ?_, fun g => ?_⟩
      · rcases n1 with n1 | ⟨iv, n1⟩
        · rw [n1]
          exact h.tx
        · rw [n1] at hh
          obtain ⟨T', t1, m, y, t2, t3, t4, t5⟩ := ih.ihus (N.peer b n) (penvOf (N.cfg b) n) (hN.addr b n) i p.1 _ (mem_ihus hp hh)
          refine .inr ⟨T', List.mem_cons_of_mem _ t1, m, y, t2, t3, ?_, congrArg Prod.fst t5⟩
          exact List.contains_iff_mem.1 t4
      · rcases n2 with n2 | ⟨q, v, t, n2⟩
        · rw [n2] at g
          exact h.hello g
        · exact said _ _ _ _ n2
      · rcases n3 with n3 | ⟨q, v, t, n3⟩
        · rw [n3] at g
          exact h.uhello g
        · exact said _ _ _ _ n3

include hN hA in
theorem history_inv {L : List (Node → Talk)} (h : History N X L) : ∃ s0 T H, L = T :: H ∧ PastInv N X s0 T H := by
  induction h with
  | init T hT =>
    refine ⟨fun a => (T a).d.st, T, [], rfl, fun a => talk_start (hT a), fun b E hE i j r hr => ?_, fun a n x hx => ?_⟩
    · rw [start_ihus (hT b) hE] at hr
      cases hr
    · unfold Daemon.nbr at hx
      rw [(hT a).nbrs] at hx
      cases hx
  | @step T H a ev t _ ho hk ih =>
    obtain ⟨s0, T0, H0, hL, ih⟩ := ih
    cases hL
    obtain ⟨hev, hst, hpk⟩ := ho
    obtain ⟨t', e1, r1⟩ := tstep_did (hN.cfg a) (hN.mix a) (hA a) (ih.inv a) hev (fun i _ => hst i)
    rw [hk] at e1
    cases e1
    refine ⟨s0, _, T :: H, rfl, ?_, ?_, ?_⟩
    · intro b
      by_cases hb : b = a
      · subst hb
        show TInv _ _ _ _ (if b = b then t else T b).d
        rw [if_pos rfl]
        exact r1.inv
      · show TInv _ _ _ _ (if b = a then t else T b).d
        rw [if_neg hb]
        exact ih.inv b
    · intro b E hE i j r hr
      have old : ∀ {r}, r ∈ ihusOn E ((T b).d.link i) j → ∃ T' ∈ T :: H, ∃ m y, (T' b).d.nbr m = some y ∧
          ifUp (T' b).d.st ((N.cfg b).node.ifOf m) = true ∧ E.isOurs ((N.cfg b).addr m) = true ∧ r = ihuFor (N.cfg b) (T' b).d m y := by
        intro r hr
        obtain ⟨T', h1, h2⟩ := ih.ihus b E hE i j r hr
        exact ⟨T', List.mem_cons_of_mem _ h1, h2⟩
      by_cases hb : b = a
      · subst hb
        have hr : r ∈ ihusOn E ((if b = b then t else T b).d.link i) j := hr
        rw [if_pos rfl] at hr
        rcases tstep_ihus (hN.cfg b) (hN.mix b) (hA b) (fun _ => trivial) (ih.inv b) hev hst hk hE hr with hr | ⟨m, y, h1, h2, h3, h4⟩
        · exact old hr
        · exact ⟨T, List.mem_cons_self .., m, y, h1, h2, h3, h4⟩
      · have hr : r ∈ ihusOn E ((if b = a then t else T b).d.link i) j := hr
        rw [if_neg hb] at hr
        exact old hr
    · intro b n x hx
      by_cases hb : b = a
      rotate_left
      · have hx : (if b = a then t else T b).d.nbr n = some x := hx
        rw [if_neg hb] at hx
        exact (ih.nbrs b n x hx).mono T
      subst hb
      have hx : (if b = b then t else T b).d.nbr n = some x := hx
      rw [if_pos rfl] at hx
      by_cases hxe : ∃ y, ev = .ev y
      rotate_left
      · rw [nbr_of_nbrs (chat_nbrs (hN.cfg b) (hN.mix b) (hA b) (ih.inv b) (fun y hy => hxe ⟨y, hy⟩) hk)] at hx
        exact (ih.nbrs b n x hx).mono T
      obtain ⟨y, rfl⟩ := hxe
      have hk : (if isOther y = true then (dstep (N.cfg b) (T b).d y).bind (fun d => some _) else some (T b)) = some t := hk
      by_cases ho : isOther y = true
      rotate_left
      · rw [if_neg ho] at hk
        cases hk
        exact (ih.nbrs b n x hx).mono T
      rw [if_pos ho] at hk
      obtain ⟨d', h1, h2⟩ := Option.bind_eq_some_iff.1 hk
      cases h2
      have hx : d'.nbr n = some x := hx
      have gk := ih.grows hN ⟨hev, hst, hpk⟩
      refine dstep_nbrs (P := fun n l => Known N (T :: H) b n l) (hN.cfg b) (ih.inv b).sane h1 ?_ (fun m x hx => (ih.nbrs b m x hx).mono T) ?_ ?_ ?_ ?_ n x hx
      · rintro n buf len dst rfl
        exact hev.2.1
      · exact gk.fresh
      · exact gk.rtt
      · exact gk.check
      · exact fun n buf len dst d1 eff hy hup ha it hit x h => gk.items n buf len dst d1 eff hy hup ha it hit _ x h

end

end Babel
