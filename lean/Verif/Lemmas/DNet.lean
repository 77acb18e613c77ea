import Verif.Lemmas.Daemon3
import Verif.Spec.DNet
/-
Networks of daemons that exchange packets are networks of routing processes that exchange updates.
-/
set_option linter.unusedSimpArgs false
set_option linter.unusedVariables false
set_option linter.unusedSectionVars false
namespace Babel
open Spec

/-- Requests are for proper destinations, receive costs are not 0. -/
def Polite : Snd → Prop
  | .request k => ∀ k', k = some k' → Proper k'
  | .seqnoRequest k _ _ _ => Proper k
  | .ihu r _ _ _ => 1 ≤ r
  | _ => True

variable {Node : Type} [DecidableEq Node]

/-- The state of one router is replaced. -/
def putSt (S : Node → St) (a : Node) (s : St) : Node → St := fun x => if x = a then s else S x

/-- The events that may happen at the router `a`. -/
def netG (N : DNet Node) (o : Bytes) (k : PKey) (b : UInt16) (S : Node → St) (a : Node) (s : St) (ev : Ev) : Prop :=
  Genuine N.net o k b (putSt S a s) a ev ∧ NoRevival o k (putSt S a s) a ev

def netKit (N : DNet Node) (o : Bytes) (k : PKey) (b : UInt16) (X : Node → PKey → Prop) (s0 : Node → St) (S : Node → St) (a : Node) : Kit :=
  ⟨N.cfg a, Proper, X a, fun op => SndOk op ∧ Polite op, 1, netG N o k b S a, s0 a, fun _ => True, fun _ b => Unprimed b,
    fun i b done _ l => MeanL (N.cfg a) (s0 a) (fun op => SndOk op ∧ Polite op) i b done l⟩

theorem netKit_ok {N : DNet Node} {X : Node → PKey → Prop} (hN : DNetOk N X) (o : Bytes) (k : PKey) (b : UInt16) (s0 S : Node → St)
    (a : Node) : (netKit N o k b X s0 S a).Ok :=
  have h := properKit_ok (hN.cfg a) (hN.mix a) (s0 a) fun i => meanL_ok (hN.cfg a) (s0 a) i (fun _ h => h.1) True (C := Unprimed) (fun _ h => h)
  { nonces := h.nonces
    penalty := h.penalty
    rules := h.rules
    matched := h.matched
    upd := fun id k q m hk hi hq hm => ⟨(h.upd id k q m hk hi hq hm).1, trivial⟩
    req := fun k hk => ⟨(h.req k hk).1, hk⟩
    seq := fun k q id n hk hq hi hh => ⟨(h.seq k q id n hk hq hi hh).1, hk⟩
    ack := fun n i h1 h2 => ⟨(h.ack n i h1 h2).1, trivial⟩
    challenge := fun x hx => ⟨(h.challenge x hx).1, trivial⟩
    reply := fun x hx => ⟨(h.reply x hx).1, trivial⟩
    links := fun i => meanL_ok (hN.cfg a) (s0 a) i (fun _ h => h.1) _ (fun _ h => h)
    t1 := Nat.le_refl 1
    cost := fun s n v hv => ⟨hv, trivial⟩
    free := fun s ev hev => by
      cases ev with
      | tick => cases hev
      | setCost => cases hev
      | update => cases hev
      | _ => exact ⟨trivial, trivial⟩ }

theorem path_net {N : DNet Node} {o : Bytes} {k : PKey} {b : UInt16} {S : Node → St} {a : Node} {s' : St}
    (h : NetReachable N.net o k b (NoRevival o k) S) (hp : Path (N.cfg a).node (netG N o k b S a) (S a) s') :
    NetReachable N.net o k b (NoRevival o k) (putSt S a s') := by
  induction hp with
  | refl =>
    have : putSt S a (S a) = S := by
      funext x
      unfold putSt
      split
      · next hx => rw [hx]
      · rfl
    rw [this]
    exact h
  | step ev _ hg ih =>
    next s1 _ =>
    have := ih.step a ev hg.1 hg.2
    have he : N.net.step (putSt S a s1) a ev = putSt S a (Babel.step (N.cfg a).node s1 ev) := by
      funext x
      unfold Net.step putSt
      by_cases hx : x = a
      · rw [if_pos hx, if_pos hx, if_pos rfl]
        rfl
      · rw [if_neg hx, if_neg hx, if_neg hx]
    rw [he] at this
    exact this

/-- What is told comes from some operation. -/
theorem toldOn_mem {oc : Orc} {E : PEnv} {j : Nat} {it : Item} : ∀ (acts : List Act) (l : Link), it ∈ toldOn oc E j l acts →
    ∃ x ∈ acts, ∃ p, it ∈ told E x.c p x.op := by
  intro acts
  induction acts with
  | nil => intro l h; cases h
  | cons x xs ih =>
    intro l h
    unfold toldOn at h
    rcases List.mem_append.1 h with h | h
    · split at h
      · exact ⟨x, List.mem_cons_self .., _, h⟩
      · cases h
    · split at h
      · obtain ⟨y, hy, p, hp⟩ := ih _ h
        exact ⟨y, List.mem_cons_of_mem _ hy, p, hp⟩
      · cases h

/-- A message that is in agreement with what a router has announced on an interface. -/
def Heard (i : IfId) (out : List Out) : Item → Prop
  | .update id k q m _ _ => ∃ id' q', id = some id' ∧ q = UInt16.toNat q' ∧ Out.update i id' k q' m ∈ out
  | .ihu r _ => 1 ≤ r
  | .request k => Proper k
  | .seqnoRequest k _ _ _ => Proper k
  | _ => True

/-- What a neighbour reads in a packet: updates that have been announced, requests for proper destinations, and costs
that are not 0. -/
theorem heard_net {N : DNet Node} {X : Node → PKey → Prop} (hN : DNetOk N X) {o : Bytes} {k : PKey} {b : UInt16} {s0 S : Node → St}
    {a : Node} {d : Daemon} (h : DInv (netKit N o k b X s0 S a) d) {i : IfId} {p : Nat × Bytes} (hp : p ∈ (d.link i).out)
    {E : PEnv} (hE : linklocal E.sender = true) {it : Item} (hit : it ∈ heard E p.2) :
    Heard i d.st.out it := by
  have hl : MeanL (N.cfg a) (s0 a) (fun op => SndOk op ∧ Polite op) i (ifUp d.st i) d.st.out (d.link i) := h.links i
  obtain ⟨op, bb, pd, a2, a4, ht⟩ := hl.sent p hp E hE it hit
  cases hop : op with
  | update id k0 q m =>
    rw [hop] at ht a4
    obtain ⟨q', hq, ho⟩ := a4
    obtain ⟨o1, o2, o3⟩ := h.keys.out _ ho
    have o1 : Proper k0 := o1
    simp only [told] at ht
    split at ht
    · rw [List.mem_singleton] at ht
      subst ht
      refine ⟨id, q', rfl, hq, ?_⟩
      have hm : min (m + (sifAt (N.cfg a) (s0 a) i bb).filter id k0) 65535 = m := by
        show min (m + 0) 65535 = m
        have : (INFINITY : Nat) = 65535 := rfl
        omega
      rw [hm, o1.2]
      exact ho
    · cases ht
  | retraction q => rw [hop] at a4; cases a4
  | hello s i u f =>
    rw [hop] at ht
    simp only [told] at ht
    split at ht
    · cases ht
    · rw [List.mem_singleton] at ht; subst ht; trivial
  | ihu r i ad t =>
    rw [hop] at ht a2
    simp only [told] at ht
    split at ht
    · rw [List.mem_singleton] at ht; subst ht; exact a2.2
    · cases ht
  | request kk =>
    rw [hop] at ht a2
    cases kk with
    | none =>
      simp only [told, List.mem_singleton] at ht
      subst ht
      trivial
    | some k0 =>
      have hk := a2.2 k0 rfl
      simp only [told] at ht
      split at ht
      · rw [List.mem_singleton] at ht; subst ht; show Proper _; rw [hk.2]; exact hk
      · cases ht
  | seqnoRequest k0 s id hp =>
    rw [hop] at ht a2
    have hk : Proper k0 := a2.2
    simp only [told] at ht
    split at ht
    · rw [List.mem_singleton] at ht; subst ht; show Proper _; rw [hk.2]; exact hk
    · cases ht
  | _ => rw [hop] at ht; simp only [told] at ht; cases ht

/-- The invariant does not depend on the events considered. -/
theorem DInv.other {N : DNet Node} {o : Bytes} {k : PKey} {b : UInt16} {X : Node → PKey → Prop} {s0 S S' : Node → St} {a : Node} {d : Daemon}
    (h : DInv (netKit N o k b X s0 S a) d) : DInv (netKit N o k b X s0 S' a) d :=
  ⟨h.keys, h.time, h.ifs, h.links, h.bufs, h.pos, h.dead⟩

/-- What has to be known of an event follows from what is assumed. -/
theorem arrives_good {N : DNet Node} {X : Node → PKey → Prop} (hN : DNetOk N X) {o : Bytes} {k : PKey} {b : UInt16} {s0 : Node → St}
    {D : Node → Daemon} (hD : ∀ a S, DInv (netKit N o k b X s0 S a) (D a))
    (hw : ∀ x i q m, Out.update i o k q m ∈ (D x).st.out → (q - b).toNat < 32768) {a : Node} {ev : DEv}
    (ha : Arrives N o k X (NoneRevived o k) D a ev) : DEvGood (netKit N o k b X s0 (fun x => (D x).st) a) (D a) ev := by
  have hK := netKit_ok hN o k b s0 (fun x => (D x).st) a
  cases ev with
  | checkNbr n => trivial
  | down i => exact ⟨trivial, ha.2, ha.1⟩
  | up i mtu fi full => exact ⟨trivial, ha⟩
  | say i j op =>
    intro hc
    refine ⟨ha.1, ?_⟩
    cases op with
    | ihu r i x t => exact ha.2 r i x t rfl
    | request => cases hc
    | seqnoRequest => cases hc
    | _ => trivial
  | node ev =>
    intro hi
    cases ev with
    | tick t =>
      refine ⟨trivial, fun nc => ⟨?_, trivial⟩, fun t' h => by cases h; exact ⟨ha.1, ha.2.1⟩⟩
      show ∀ x ∈ (putSt _ a { (D a).st with ncost := nc } a).sources, _
      unfold putSt
      rw [if_pos rfl]
      exact ha.2.2
    | kernelRoute bb kr => exact ⟨ha, fun _ => ⟨trivial, trivial⟩, nofun⟩
    | checkXroutes krs bb => exact ⟨ha, fun _ => ⟨trivial, trivial⟩, nofun⟩
    | update => cases hi
    | routeRequest => cases hi
    | seqnoRequest => cases hi
    | setCost => cases hi
    | _ => exact ⟨trivial, fun _ => ⟨trivial, trivial⟩, nofun⟩
  | packet n buf len dst =>
    obtain ⟨hb, hl, ha⟩ := ha
    refine ⟨hb, hl, fun hup d1 eff hacc => ?_⟩
    rcases ha with ha | ⟨⟨i, p, hp, hpe⟩, hnr⟩
    · have := accept_unsigned hb hl (hD a (fun _ => s0 a)).time ha
      have hacc : (D a).accept (N.cfg a) n buf len dst = some (d1, eff) := hacc
      rw [this] at hacc
      cases hacc
      trivial
    · obtain ⟨d1', eff', e1, i1, s1, o1, hpp, _⟩ := (hD a (fun x => (D x).st)).accept hK n dst hb hl hup
      rw [hacc] at e1
      cases e1
      have hacc : (D a).accept (N.cfg a) n buf len dst = some (d1, eff) := hacc
      have hmem : ∀ it ∈ eff.items, (∀ x, untimed it = x → x = it) → it ∈ heard (penvOf (N.cfg a) n) p.2 := by
        intro it hit hun
        rcases hpp with hpp | ⟨st, hpp⟩
        · rw [hpp] at hit; cases hit
        · have hpp : parsePacket (penvOf (N.cfg a) n) buf len = some (st, eff.items) := hpp
          by_cases h4 : len < 4
          · rw [C07_short_harmless _ _ _ hb h4] at hpp
            injection hpp with hpp
            rw [← (Prod.mk.inj hpp).2] at hit
            cases hit
          · have hlen : (buf.take len).length = len := by rw [List.length_take]; omega
            have hst := C07_stale (penvOf (N.cfg a) n) (buf.take len) (buf.drop len) (by omega)
            rw [List.take_append_drop, hlen, hpp] at hst
            unfold heard
            rw [hpe, hlen, ← hst]
            exact List.mem_map.2 ⟨it, hit, hun _ rfl⟩
      have hfrom : ∀ it ∈ eff.items, (∀ x, untimed it = x → x = it) → Heard i (D (N.peer a n)).st.out it := fun it hit hun =>
        heard_net hN (hD (N.peer a n) (fun _ => s0 a)) hp (E := penvOf (N.cfg a) n) (hN.addr a n) (hmem it hit hun)
      have hone : ∀ pre it post d2, eff.items = pre ++ it :: post → d1.items (N.cfg a) n pre = some d2 →
          ItemGood (netKit N o k b X s0 (fun x => (D x).st) a) n d2 it := by
        intro pre it post d2 he hd2
        have hit : it ∈ eff.items := by rw [he]; simp
        cases it with
        | ihu tx iv => exact hfrom _ hit (fun x h => h.symm)
        | request k' => exact hfrom _ hit (fun x h => h.symm)
        | seqnoRequest k' hop q id => exact hfrom _ hit (fun x h => h.symm)
        | update id k' q m iv nh =>
          obtain ⟨id', q', rfl, hq, ho⟩ := hfrom _ hit (fun x h => h.symm)
          have hqq : UInt16.ofNat q = q' := by rw [hq]; exact UInt16.ofNat_toNat
          intro nc
          refine ⟨?_, ?_⟩
          · intro hid hk
            cases hid
            subst hk
            rw [hqq]
            refine ⟨hw _ _ _ _ ho, fun _ => ⟨i, ?_⟩⟩
            show Out.update i _ _ _ _ ∈ (putSt _ a _ (N.peer a n)).out
            unfold putSt
            rw [if_neg (hN.peer a n)]
            exact ho
          · have := hnr d1 eff pre (some id') k' q m iv nh post d2 hacc he hd2
            intro g1 g2 g3 ⟨r, hr, g4⟩
            unfold putSt at hr ⊢
            rw [if_pos rfl] at hr ⊢
            exact this g1 g2 g3 ⟨r, hr, g4⟩
        | _ => trivial
      have hall : ∀ l pre d2, eff.items = pre ++ l → d1.items (N.cfg a) n pre = some d2 →
          ItemsGood (netKit N o k b X s0 (fun x => (D x).st) a) n l d2 := by
        intro l
        induction l with
        | nil => intro _ _ _ _; trivial
        | cons it l ih =>
          intro pre d2 he hd2
          refine ⟨hone pre it l d2 he hd2, fun d3 hd3 => ih (pre ++ [it]) d3 (by rw [he]; simp) ?_⟩
          unfold Daemon.items at hd2 ⊢
          rw [List.foldlM_append, hd2]
          show List.foldlM _ d2 [it] = some d3
          rw [List.foldlM_cons, show d2.item (N.cfg a) n it = some d3 from hd3]
          rfl
      exact hall eff.items [] d1 rfl rfl

/-- Nothing bad happens. -/
theorem dnet_inv {N : DNet Node} {X : Node → PKey → Prop} (hN : DNetOk N X) {o : Bytes} {k : PKey} {b : UInt16} {D : Node → Daemon}
    (h : DNetReachable N o k b X (NoneRevived o k) D) : ∃ s0, (∀ a S, DInv (netKit N o k b X s0 S a) (D a)) ∧
      NetReachable N.net o k b (NoRevival o k) (fun x => (D x).st) := by
  induction h with
  | init D hD hc hf =>
    refine ⟨fun x => (D x).st, fun a S => start_inv (Nat.le_refl 1) (hD a) rfl fun _ _ h => meanL_start h, ?_⟩
    have he : ∀ a, (D a).st = St.init (D a).st.now (D a).st.myseqno (D a).st.ifaces (D a).st.ncost (D a).st.rand (D a).st.kres := by
      intro a
      obtain ⟨⟨now, q, ifs, nc, rand, kres, h1, _⟩, _⟩ := hD a
      rw [h1]
      rfl
    have h1 := NetReachable.init (N := N.net) (o := o) (k := k) (b := b) (X := NoRevival o k) (fun a => (D a).st.now)
      (fun a => (D a).st.myseqno) (fun a => (D a).st.ifaces) (fun a => (D a).st.ncost) (fun a => (D a).st.rand)
      (fun a => (D a).st.kres) hc hf
    have h2 : (fun x => (D x).st) = _ := funext he
    rw [h2]
    exact h1
  | step a ev d hr hw ha hs ih =>
    next D =>
    obtain ⟨s0, hD, hn⟩ := ih
    obtain ⟨d', e1, i1, p1⟩ := (hD a (fun x => (D x).st)).dstep (netKit_ok hN o k b s0 (fun x => (D x).st) a) ev
      (arrives_good hN hD hw ha)
    have e1 : dstep (N.cfg a) (D a) ev = some d' := e1
    rw [hs] at e1
    cases e1
    refine ⟨s0, fun x S => ?_, ?_⟩
    · show DInv _ (if x = a then d else D x)
      by_cases hx : x = a
      · rw [if_pos hx, hx]
        exact i1.other
      · rw [if_neg hx]
        exact hD x S
    · have := path_net (S := fun x => (D x).st) hn p1.1
      have he : (fun x => (if x = a then d else D x).st) = putSt (fun x => (D x).st) a d.st := by
        funext x
        unfold putSt
        by_cases hx : x = a
        · rw [if_pos hx, if_pos hx]
        · rw [if_neg hx, if_neg hx]
      rw [he]
      exact this

/-- The next event is processed. -/
theorem dnet_step {N : DNet Node} {X : Node → PKey → Prop} (hN : DNetOk N X) {o : Bytes} {k : PKey} {b : UInt16} {D : Node → Daemon}
    (h : DNetReachable N o k b X (NoneRevived o k) D) (hw : ∀ x i q m, Out.update i o k q m ∈ (D x).st.out → (q - b).toNat < 32768) {a : Node} {ev : DEv}
    (ha : Arrives N o k X (NoneRevived o k) D a ev) : ∃ d, dstep (N.cfg a) (D a) ev = some d := by
  obtain ⟨s0, hD, _⟩ := dnet_inv hN h
  obtain ⟨d', e1, _⟩ := (hD a (fun x => (D x).st)).dstep (netKit_ok hN o k b s0 (fun x => (D x).st) a) ev
    (arrives_good hN hD hw ha)
  exact ⟨d', e1⟩

end Babel
