import Verif.Lemmas.Daemon1
/-
Every event keeps what is true of the whole daemon.
-/
set_option linter.unusedSimpArgs false
set_option linter.unusedVariables false
set_option linter.unusedSectionVars false
namespace Babel
open Spec

attribute [local irreducible] rttSample rttcost

/-! ### Neighbours -/

theorem tx_setDst {l : Link} {i j : Nat} {a : Bytes} (h : i ≠ j) : (l.setDst j a).tx i = l.tx i := by
  unfold Link.tx Link.setDst
  simp only [if_neg h]

theorem step_setDst {o : Orc} {c : SIf} {now : Timeval} {i j : Nat} {op : Snd} {a : Bytes} {l l' : Link} (h : i ≠ j)
    (hs : l.step o c now i op = some l') : (l.setDst j a).step o c now i op = some (l'.setDst j a) := by
  unfold Link.step at hs ⊢
  rw [tx_setDst h]
  cases hr : op.run o c now (l.tx i) with
  | none => rw [hr] at hs; cases hs
  | some t =>
    rw [hr] at hs
    cases hs
    show some (Link.mk _ _ _ _ _ _) = some (Link.mk _ _ _ _ _ _)
    congr 2
    funext x
    show (if x = i then t.buf else if x = j then { l.bufs x with dst := a } else l.bufs x) =
      if x = j then { (if x = i then t.buf else l.bufs x) with dst := a } else if x = i then t.buf else l.bufs x
    by_cases hx : x = i
    · subst hx; rw [if_pos rfl, if_neg h, if_pos rfl]
    · rw [if_neg hx, if_neg hx]

theorem run_setDst {o : Orc} {j : Nat} {a : Bytes} (acts : List Act) : ∀ {l l' : Link}, (∀ x ∈ acts, x.i ≠ j) →
    l.run o acts = some l' → (l.setDst j a).run o acts = some (l'.setDst j a) := by
  induction acts with
  | nil => intro l l' _ h; cases h; rfl
  | cons x xs ih =>
    intro l l' hx h
    unfold Link.run at h ⊢
    simp only [Option.bind_eq_bind] at h ⊢
    obtain ⟨l1, h1, h2⟩ := Option.bind_eq_some_iff.1 h
    rw [step_setDst (hx x (List.mem_cons_self ..)) h1, Option.bind_some]
    exact ih (fun y hy => hx y (List.mem_cons_of_mem _ hy)) h2

theorem freshLink_setDst {l : Link} (h : FreshLink l) (j : Nat) (a : Bytes) : FreshLink (l.setDst j a) := by
  obtain ⟨h1, h2⟩ := h
  refine ⟨fun i => ?_, h2⟩
  unfold Link.setDst
  by_cases hi : i = j
  · simp only [if_pos hi]; exact h1 i
  · simp only [if_neg hi]; exact h1 i

section
variable {K : Kit} (hK : K.Ok)
include hK

theorem InvAt.addNbr {done : List Out} {d : Daemon} (h : InvAt K done d) (n : NeighId) (hup : ifUp d.st (K.e.node.ifOf n) = true) :
    InvAt K done (d.addNbr K.e n) := by
  refine ⟨h.keys, h.time, h.ifs, fun i => ?_, ?_, fun i => ?_, fun i hu => ?_⟩
  · have hl := h.links i
    show K.L i (ifUp d.st i) done (if i = K.e.node.ifOf n then d.fresh (K.e.node.ifOf n) + 1 else d.fresh i)
      (if i = K.e.node.ifOf n then (d.link (K.e.node.ifOf n)).setDst (d.fresh (K.e.node.ifOf n)) (K.e.addr n) else d.link i)
    by_cases hi : i = K.e.node.ifOf n
    · rw [if_pos hi, if_pos hi, ← hi]
      rw [← hi] at hup
      rw [hup] at hl ⊢
      exact (hK.links i).laddr _ _ _ _ hl (h.pos i)
    · rw [if_neg hi, if_neg hi]
      exact hl
  · intro p hp
    show (p.2.buf < (if K.e.node.ifOf p.1 = K.e.node.ifOf n then d.fresh (K.e.node.ifOf n) + 1 else d.fresh (K.e.node.ifOf p.1)) ∧ _) ∧ _
    rcases List.mem_cons.1 hp with rfl | hp
    · rw [if_pos rfl]
      refine ⟨⟨Nat.lt_succ_self _, ?_⟩, Nat.pos_iff_ne_zero.1 (h.pos _)⟩
      have := hK.t1
      show K.t0 ≤ INFINITY
      have : (INFINITY : Nat) = 65535 := rfl
      omega
    · obtain ⟨⟨h1, h2⟩, h3⟩ := h.bufs p hp
      refine ⟨⟨?_, h2⟩, h3⟩
      split
      · next he => rw [he] at h1; omega
      · exact h1
  · show 0 < (if i = K.e.node.ifOf n then d.fresh (K.e.node.ifOf n) + 1 else d.fresh i)
    split
    · omega
    · exact h.pos i
  · show _ ∨ (if i = K.e.node.ifOf n then d.fresh (K.e.node.ifOf n) + 1 else d.fresh i) ≤ 1
    by_cases hi : i = K.e.node.ifOf n
    · have hu : ifUp d.st i = false := hu
      rw [hi, hup] at hu
      cases hu
    · rw [if_neg hi]
      exact h.dead i hu

theorem InvAt.ensureNbr {done : List Out} {d : Daemon} (h : InvAt K done d) (n : NeighId) (hup : ifUp d.st (K.e.node.ifOf n) = true) :
    InvAt K done (d.ensureNbr K.e n) := by
  unfold Daemon.ensureNbr
  split
  · exact h.addNbr hK n hup
  · exact h

omit hK in
theorem ensureNbr_st (e : DCfg) (d : Daemon) (n : NeighId) : (d.ensureNbr e n).st = d.st := by
  unfold Daemon.ensureNbr
  split <;> rfl

omit hK in
theorem ensureNbr_calm {d : Daemon} {n : NeighId} (h : DInv K d) (h' : DInv K (d.ensureNbr K.e n)) : Calm K d (d.ensureNbr K.e n) := by
  unfold Daemon.ensureNbr at h' ⊢
  by_cases hc : (((d.auth (K.e.node.ifOf n)).tab (K.e.addr n)).isSome && (d.nbr n).isNone) = true
  · rw [if_pos hc] at h' ⊢
    rw [Bool.and_eq_true] at hc
    exact .one (l := .add n) h ⟨Option.isNone_iff_eq_none.1 hc.2, rfl⟩ h' rfl rfl
  · rw [if_neg hc]
    exact .refl h

omit hK in
theorem InvAt.setNbr {done : List Out} {d : Daemon} (h : InvAt K done d) (n : NeighId) (f : DNbr → DNbr)
    (hf : ∀ x, d.nbr n = some x ∨ (n, x) ∈ d.nbrs → (f x).buf = x.buf ∧ K.t0 ≤ (f x).link.txcost) : InvAt K done (d.setNbr n f) := by
  refine ⟨h.keys, h.time, h.ifs, h.links, ?_, h.pos, h.dead⟩
  intro p hp
  obtain ⟨q, hq, rfl⟩ := List.mem_map.1 hp
  obtain ⟨⟨h1, h2⟩, h3⟩ := h.bufs q hq
  split
  · next hn =>
    have hn : q.1 = n := by simpa using hn
    subst hn
    obtain ⟨f1, f2⟩ := hf q.2 (.inr hq)
    exact ⟨⟨f1 ▸ h1, f2⟩, f1 ▸ h3⟩
  · exact ⟨⟨h1, h2⟩, h3⟩

omit hK in
theorem InvAt.setAuth {done : List Out} {d : Daemon} (h : InvAt K done d) (a : IfId → AState) : InvAt K done { d with auth := a } :=
  ⟨h.keys, h.time, h.ifs, h.links, h.bufs, h.pos, h.dead⟩

omit hK in
theorem InvAt.filterNbr {done : List Out} {d : Daemon} (h : InvAt K done d) (f : NeighId × DNbr → Bool) (a : IfId → AState) :
    InvAt K done { d with nbrs := d.nbrs.filter f, auth := a } :=
  ⟨h.keys, h.time, h.ifs, h.links, fun p hp => h.bufs p (List.mem_filter.1 hp).1, h.pos, h.dead⟩

theorem DInv.recost {d : Daemon} (h : DInv K d) (n : NeighId) (b : Bool) : Does K d (d.recost K.e n b) := by
  unfold Daemon.recost
  split
  · exact h.node hK _ (fun nc => hK.free _ _ rfl) trivial nofun nofun fun _ => ⟨nofun, nofun⟩
  · exact .pure h

/-- A message that is not an update goes to a buffer of a neighbour. -/
theorem DInv.toNbr {d : Daemon} (h : DInv K d) {n : NeighId} {x : DNbr} (hx : d.nbr n = some x) (op : Snd) (hq : K.Q op)
    (hc : ∀ done i, Comes done i op) (hu : ∀ j, updAt j op = none) (ha : isAnswer op = true) :
    ∃ d', d.write K.e (K.e.node.ifOf n) x.buf op = some d' ∧ DInv K d' ∧ d'.st = d.st ∧ Micro K d (.to n op) d' := by
  obtain ⟨d', e1, i1, s1, _⟩ := InvAt.write hK h (K.e.node.ifOf n) x.buf op (h.bufs _ (nbr_mem hx)).1.1 (.inr (h.bufs _ (nbr_mem hx)).2) hq (fun o ho => ho) (hc _ _)
    (fun _ _ _ => rfl) (fun _ _ => by rw [hu]; simp)
  refine ⟨d', e1.eq, ?_, s1, ha, x, hx, e1⟩
  show InvAt K d'.st.out d'
  rw [s1]
  exact i1

omit hK in
theorem hearHello_tx (n : Nbr) (now : Timeval) (u : Bool) (q : UInt16) (iv : Nat) : (n.hearHello now u q iv).1.txcost = n.txcost := by
  unfold Nbr.hearHello
  split <;> rfl

omit hK in
theorem addRtt_tx (n : Nbr) (now : Timeval) (i : LinkCfg) (r : Nat) : (n.addRtt now i r).1.txcost = n.txcost := rfl

theorem check_tx {n n' : Nbr} {now : Timeval} {b : Bool} (h : n.check now = some (n', b)) (ht : K.t0 ≤ n.txcost) : K.t0 ≤ n'.txcost := by
  have := hK.t1
  have hinf : (INFINITY : Nat) = 65535 := rfl
  unfold Nbr.check at h
  simp only at h
  split at h
  · cases h
  · have h := Option.some.inj h
    have h := (Prod.mk.inj h).1
    rw [← h]
    unfold Nbr.resetTxcost
    simp only
    split
    · exact ht
    split
    · show K.t0 ≤ INFINITY
      omega
    · exact ht

omit hK in
theorem setNbr_quiet {d : Daemon} {n : NeighId} {f : DNbr → DNbr} (hf : ∀ x, (f x).buf = x.buf) : Hushed K d (d.setNbr n f) := by
  refine ⟨?_, rfl, fun _ _ _ => rfl, fun _ => rfl⟩
  unfold shape Daemon.setNbr
  rw [List.map_map]
  refine List.map_congr_left fun p _ => ?_
  show (fun p : NeighId × DNbr => (p.1, p.2.buf)) (if p.1 == n then (p.1, f p.2) else p) = _
  split
  · show (p.1, (f p.2).buf) = _
    rw [hf]
  · rfl

omit hK in
theorem Does.of {K : Kit} {d : Daemon} {x : Option Daemon} {n : NeighId} {f : DNbr → DNbr} (h : Does K (d.setNbr n f) x)
    (hd : DInv K d) (h0 : DInv K (d.setNbr n f)) (hf : ∀ x, (f x).buf = x.buf) : Does K d x := by
  obtain ⟨d', h1, h2, h3, h4⟩ := h
  exact ⟨d', h1, h2, h3, (Calm.one (l := .quiet) hd (setNbr_quiet hf) h0 rfl rfl).trans h4⟩

/-! ### Messages -/

/-- What has to be known of a message. -/
def ItemGood (K : Kit) (n : NeighId) (d : Daemon) : Item → Prop
  | .ihu tx _ => K.t0 ≤ tx
  | .request k => K.P k
  | .seqnoRequest k _ _ _ => K.P k
  | .update id k q m iv nh => ∀ nc, K.G { d.st with ncost := nc } (.update id k (UInt16.ofNat q) m iv n nh)
  | _ => True

/-- What has to be known of the messages of a packet. -/
def ItemsGood (K : Kit) (n : NeighId) : List Item → Daemon → Prop
  | [], _ => True
  | it :: l, d => ItemGood K n d it ∧ ∀ d', d.item K.e n it = some d' → ItemsGood K n l d'

theorem DInv.item {d : Daemon} (h : DInv K d) (n : NeighId) (it : Item) (hi : ItemOk it) (hg : ItemGood K n d it) :
    Does K d (d.item K.e n it) := by
  cases it with
  | ackReq nonce iv =>
    show Does K d (match d.nbr n with | none => some d | some x => d.write K.e (K.e.node.ifOf n) x.buf (.ack nonce iv))
    cases hx : d.nbr n with
    | none => exact .pure h
    | some x =>
      obtain ⟨d', e1, i1, s1, m1⟩ := h.toNbr hK hx _ (hK.ack nonce iv hi.1 hi.2) (fun _ _ => trivial) (fun _ => rfl) rfl
      exact ⟨d', e1, i1, s1 ▸ .refl, .one h m1 i1 s1 rfl⟩
  | hello u q iv ts =>
    unfold Daemon.item
    cases hx : d.nbr n with
    | none => exact .pure h
    | some x =>
      simp only
      obtain ⟨r, hr⟩ : ∃ r, r = x.link.hearHello d.st.now u (UInt16.ofNat q) iv := ⟨_, rfl⟩
      rw [← hr]
      have h1 : DInv K (d.setNbr n fun x => { x with link := r.1 }) := InvAt.setNbr h n _ fun y hy =>
        ⟨rfl, by
          show K.t0 ≤ r.1.txcost
          rw [hr, hearHello_tx]
          exact (h.bufs _ (nbr_mem hx)).1.2⟩
      refine Does.of (Does.bind (h1.recost hK n r.2) fun d' h' => ?_) h h1 fun _ => rfl
      cases ts with
      | none => exact .pure h'
      | some t =>
        have h2 : DInv K (d'.setNbr n fun x => { x with sendUs := t, recvTime := d'.st.now }) := InvAt.setNbr h' n _ fun y hy => ⟨rfl, by
          rcases hy with hy | hy
          · exact (h'.bufs _ (nbr_mem hy)).1.2
          · exact (h'.bufs _ hy).1.2⟩
        exact Does.of (.pure h2) h' h2 fun _ => rfl
  | ihu tx iv =>
    unfold Daemon.item
    cases hx : d.nbr n with
    | none => exact .pure h
    | some x =>
      simp only
      have h1 : DInv K (d.setNbr n fun y => { y with link := (x.link.hearIhu d.st.now tx iv).1 }) :=
        InvAt.setNbr h n _ fun y hy => ⟨rfl, hg⟩
      exact Does.of (h1.recost hK n _) h h1 fun _ => rfl
  | retractAll => exact h.node hK _ (fun nc => hK.free _ _ rfl) trivial nofun nofun fun _ => ⟨nofun, nofun⟩
  | update id k q m iv nh =>
    refine h.node hK _ hg ⟨fun hr => ?_, hi.1⟩ nofun nofun fun _ => ⟨nofun, nofun⟩
    refine hK.matched k ⟨hi.2.1, hi.2.2.1, ?_⟩
    unfold updateRefused at hr
    simp only [Bool.or_eq_false_iff] at hr
    simpa using hr.1.2
  | requestAll =>
    show Does K d (d.fullDump K.e (K.e.node.ifOf n))
    unfold Daemon.fullDump
    exact iteInduction (motive := fun x => Does K d x)
      (fun _ => h.node hK (.fullUpdate (K.e.node.ifOf n) false) (fun nc => hK.free _ _ rfl) trivial nofun nofun fun _ => ⟨nofun, nofun⟩)
      (fun _ => .pure h)
  | request k => exact h.node hK _ (fun nc => hK.free _ _ rfl) hg nofun nofun fun _ => ⟨nofun, nofun⟩
  | seqnoRequest k hop q id =>
    exact h.node hK _ (fun nc => hK.free _ _ rfl) ⟨hg, hi.2.2.1, hi.2.2.2.2⟩ nofun nofun fun _ => ⟨nofun, nofun⟩

theorem DInv.items (n : NeighId) (l : List Item) : ∀ {d : Daemon}, DInv K d → (∀ it ∈ l, ItemOk it) → ItemsGood K n l d →
    Does K d (d.items K.e n l) := by
  induction l with
  | nil => intro d h _ _; exact .pure h
  | cons it l ih =>
    intro d h hi hg
    obtain ⟨d1, e1, i1, p1, c1⟩ := h.item hK n it (hi it (List.mem_cons_self ..)) hg.1
    obtain ⟨d2, e2, i2, p2, c2⟩ := ih i1 (fun y hy => hi y (List.mem_cons_of_mem _ hy)) (hg.2 d1 e1)
    refine ⟨d2, ?_, i2, p1.trans p2, c1.trans c2⟩
    unfold Daemon.items at e2 ⊢
    rw [List.foldlM_cons, e1]
    exact e2

omit hK in
theorem rttcost_some {now : Timeval} {i : LinkCfg} (hp : i.maxRttPenalty < 2147483648) (n : Nbr) : ∃ c, rttcost now i n = some c := by
  delta rttcost
  split
  · exact ⟨_, rfl⟩
  split
  · exact ⟨_, rfl⟩
  split
  · have : i.maxRttPenalty * (n.rtt - i.rttMin) / (i.rttMax - i.rttMin) ≤ i.maxRttPenalty := by
      apply Nat.div_le_of_le_mul
      rw [Nat.mul_comm]
      exact Nat.mul_le_mul_right _ (by omega)
    simp only
    rw [if_pos (by omega)]
    exact ⟨_, rfl⟩
  · exact ⟨_, rfl⟩

theorem DInv.sampleRtt {d : Daemon} (h : DInv K d) (n : NeighId) (p : PState) : Does K d (d.sampleRtt K.e n p) := by
  unfold Daemon.sampleRtt
  cases hx : d.nbr n with
  | none => exact .pure h
  | some x =>
    refine iteInduction (motive := fun x => Does K d x) (fun _ => ?_) (fun _ => .pure h)
    generalize rttSample x.sendUs p.echo.2 (timeUs x.recvTime) p.echo.1 = r
    cases r with
    | none => exact .pure h
    | some rtt =>
      obtain ⟨c, hr⟩ := rttcost_some (now := d.st.now) (i := linkCfgOf K.e d.st (K.e.node.ifOf n)) (hK.penalty (K.e.node.ifOf n)) x.link
      show Does K d (match rttcost d.st.now (linkCfgOf K.e d.st (K.e.node.ifOf n)) x.link with | none => none | some _ => _)
      rw [hr]
      generalize hy : x.link.addRtt d.st.now (linkCfgOf K.e d.st (K.e.node.ifOf n)) rtt = y
      show Does K d (Daemon.recost K.e (d.setNbr n fun z => { z with link := y.1 }) n y.2)
      have h1 : DInv K (d.setNbr n fun z => { z with link := y.1 }) :=
        InvAt.setNbr h n _ fun z hz => ⟨rfl, by rw [← hy]; exact (h.bufs _ (nbr_mem hx)).1.2⟩
      exact Does.of (h1.recost hK n _) h h1 fun _ => rfl

theorem DInv.challenges (n : NeighId) (l : List Challenge) : ∀ {d : Daemon}, DInv K d → (∀ ch ∈ l, ChOk ch) →
    ∃ d', l.foldlM (fun d ch => d.challenge K.e n ch) d = some d' ∧ DInv K d' ∧ d'.st = d.st ∧ Calm K d d' := by
  induction l with
  | nil => intro d h _; exact ⟨d, rfl, h, rfl, .refl h⟩
  | cons ch l ih =>
    intro d h hl
    have h1 : ∃ d', d.challenge K.e n ch = some d' ∧ DInv K d' ∧ d'.st = d.st ∧ Calm K d d' := by
      unfold Daemon.challenge
      cases hx : d.nbr n with
      | none => exact ⟨d, rfl, h, rfl, .refl h⟩
      | some x =>
        have hc := hl ch (List.mem_cons_self ..)
        cases ch with
        | request b =>
          obtain ⟨d', e1, i1, s1, m1⟩ := h.toNbr hK hx _ (hK.challenge b hc) (fun _ _ => trivial) (fun _ => rfl) rfl
          exact ⟨d', e1, i1, s1, .one h m1 i1 s1 rfl⟩
        | reply b =>
          obtain ⟨d', e1, i1, s1, m1⟩ := h.toNbr hK hx _ (hK.reply b hc) (fun _ _ => trivial) (fun _ => rfl) rfl
          exact ⟨d', e1, i1, s1, .one h m1 i1 s1 rfl⟩
    obtain ⟨d1, e1, i1, s1, c1⟩ := h1
    obtain ⟨d2, e2, i2, s2, c2⟩ := ih i1 (fun y hy => hl y (List.mem_cons_of_mem _ hy))
    refine ⟨d2, ?_, i2, s2.trans s1, c1.trans c2⟩
    rw [List.foldlM_cons, e1]
    exact e2

/-! ### Packets -/

/-- Authentication and decoding. -/
theorem DInv.accept {d : Daemon} (h : DInv K d) (n : NeighId) {buf : Bytes} {len : Nat} (dst : Bytes) (hb : 4 ≤ buf.length)
    (hl : len ≤ buf.length) (hup : ifUp d.st (K.e.node.ifOf n) = true) :
    ∃ d1 eff, d.accept K.e n buf len dst = some (d1, eff) ∧ DInv K d1 ∧ d1.st = d.st ∧ (∀ it ∈ eff.items, ItemOk it) ∧
      (eff.items = [] ∨ ∃ st, parsePacket (penvOf K.e n) buf len = some (st, eff.items)) ∧ Calm K d d1 := by
  obtain ⟨a, eff, hr, _⟩ := astep_ok (K.e.nonces (K.e.node.ifOf n)) (d.auth (K.e.node.ifOf n))
    (.packet ⟨(K.e.ifs (K.e.node.ifOf n)).key, (K.e.ifs (K.e.node.ifOf n)).acceptBad⟩ ⟨penvOf K.e n, buf, len, dst, d.st.now⟩)
    ⟨hb, hl, h.time.1, h.time.2⟩
  have hr : receive (K.e.nonces (K.e.node.ifOf n)) ⟨(K.e.ifs (K.e.node.ifOf n)).key, (K.e.ifs (K.e.node.ifOf n)).acceptBad⟩
    ⟨penvOf K.e n, buf, len, dst, d.st.now⟩ (d.auth (K.e.node.ifOf n)) = some (a, eff) := hr
  obtain ⟨h1, h2, h3⟩ := receive_ok (hK.nonces _) hl hr
  have h4 := (InvAt.setAuth h (fun x => if x = K.e.node.ifOf n then a else d.auth x)).ensureNbr hK n hup
  have h5 : DInv K (Daemon.ensureNbr K.e { d with auth := fun x => if x = K.e.node.ifOf n then a else d.auth x } n) := by
    show InvAt K (Daemon.ensureNbr K.e _ n).st.out _
    rw [ensureNbr_st]
    exact h4
  obtain ⟨d1, e1, i1, s1, c1⟩ := h5.challenges hK n eff.challenges h1
  have h6 : DInv K { d with auth := fun x => if x = K.e.node.ifOf n then a else d.auth x } := InvAt.setAuth h _
  have c0 : Calm K d { d with auth := fun x => if x = K.e.node.ifOf n then a else d.auth x } :=
    .one (l := .quiet) h ⟨rfl, rfl, fun _ _ _ => rfl, fun _ => rfl⟩ h6 rfl rfl
  have c2 := ensureNbr_calm (n := n) h6 h5
  refine ⟨d1, eff, ?_, i1, ?_, h2, h3, (c0.trans c2).trans c1⟩
  · unfold Daemon.accept
    simp only [hr, Option.bind_eq_bind, Option.bind_some, e1]
    rfl
  · rw [s1, ensureNbr_st]

theorem DInv.packet {d : Daemon} (h : DInv K d) (n : NeighId) {buf : Bytes} {len : Nat} (dst : Bytes) (hb : 4 ≤ buf.length)
    (hl : len ≤ buf.length)
    (hg : ifUp d.st (K.e.node.ifOf n) = true → ∀ d1 eff, d.accept K.e n buf len dst = some (d1, eff) → ItemsGood K n eff.items d1) :
    Does K d (d.packet K.e n buf len dst) := by
  unfold Daemon.packet
  split
  · next hup =>
    obtain ⟨d1, eff, e1, i1, s1, o1, _, c1⟩ := h.accept hK n dst hb hl hup
    obtain ⟨d2, e2, i2, p2, c2⟩ := i1.items hK n eff.items o1 (hg hup d1 eff e1)
    obtain ⟨r, hr⟩ := Option.isSome_iff_exists.1 (C07_parse (penvOf K.e n) buf len hb hl)
    obtain ⟨d3, e3, i3, p3, c3⟩ := i2.sampleRtt hK n r.1
    rw [s1] at p2
    by_cases hv : eff.verdict = .dropped
    · refine ⟨d2, ?_, i2, p2, c1.trans c2⟩
      simp only [e1, e2, Option.bind_eq_bind, Option.bind_some, if_pos hv]
      rfl
    · refine ⟨d3, ?_, i3, p2.trans p3, (c1.trans c2).trans c3⟩
      simp only [e1, e2, Option.bind_eq_bind, Option.bind_some, if_neg hv, hr, e3]
  · exact .pure h

theorem DInv.checkNbr {d : Daemon} (h : DInv K d) (n : NeighId) : Does K d (d.checkNbr K.e n) := by
  unfold Daemon.checkNbr
  cases hx : d.nbr n with
  | none => exact .pure h
  | some x =>
    simp only
    cases hc : x.link.check d.st.now with
    | none =>
      simp only
      refine Does.bind (h.node hK (.flushNeigh n) (fun nc => hK.free _ _ rfl) trivial nofun nofun fun _ => ⟨nofun, nofun⟩) fun d' h' => ?_
      have h2 : DInv K { d' with
          nbrs := d'.nbrs.filter fun p => !(p.1 == n)
          auth := fun x => if x = K.e.node.ifOf n then (d'.auth (K.e.node.ifOf n)).set (K.e.addr n) none else d'.auth x } :=
        InvAt.filterNbr h' _ _
      exact ⟨_, rfl, h2, .refl, .one (l := .drop n) h' ⟨_, rfl⟩ h2 rfl rfl⟩
    | some r =>
      obtain ⟨l, b⟩ := r
      simp only
      have h1 : DInv K (d.setNbr n fun y => { y with link := l }) :=
        InvAt.setNbr h n _ fun y hy => ⟨rfl, check_tx hK hc (h.bufs _ (nbr_mem hx)).1.2⟩
      exact Does.of (h1.recost hK n _) h h1 fun _ => rfl

/-- What has to be known of an event. -/
def DEvGood (K : Kit) (d : Daemon) : DEv → Prop
  | .packet n buf len dst => 4 ≤ buf.length ∧ len ≤ buf.length ∧
      (ifUp d.st (K.e.node.ifOf n) = true → ∀ d1 eff, d.accept K.e n buf len dst = some (d1, eff) → ItemsGood K n eff.items d1)
  | .checkNbr _ => True
  | .node ev => isInternal ev = true → EvKeys K.e.node K.P K.X (fun b => b.length = 8) ev ∧
      (∀ nc, K.G { d.st with ncost := nc } ev) ∧ ∀ t, ev = .tick t → TvOk t ∧ 0 < micros t
  | .say _ _ op => isChatter op = true → K.Q op
  | .down i => K.F i ∧ (ifUp d.st i = true → K.C i ((d.link i).bufs 0)) ∧ (K.e.ifs i).key = none
  | .up i mtu _ _ => K.F i ∧ mtu ≤ 65536

/-- Events during which no interface goes down or comes up. -/
theorem DInv.dstep_calm {d : Daemon} (h : DInv K d) (ev : DEv) (hg : DEvGood K d ev)
    (hf : ∀ i, ev ≠ .down i ∧ ∀ mtu fi full, ev ≠ .up i mtu fi full) : Does K d (dstep K.e d ev) := by
  cases ev with
  | packet n buf len dst => exact h.packet hK n dst hg.1 hg.2.1 hg.2.2
  | checkNbr n => exact h.checkNbr hK n
  | node ev =>
    show Does K d (if isInternal ev then d.node K.e ev else some d)
    by_cases hi : isInternal ev = true
    · rw [if_pos hi]
      obtain ⟨g1, g2, g3⟩ := hg hi
      cases ev with
      | tick t => exact h.tick hK t g2 (g3 t rfl)
      | setCost n v => cases hi
      | ifDown i => cases hi
      | ifUp i b => cases hi
      | _ => exact h.node hK _ g2 g1 nofun nofun fun _ => ⟨nofun, nofun⟩
    · rw [if_neg hi]
      exact .pure h
  | say i j op =>
    show Does K d (if isChatter op ∧ j < d.fresh i ∧ (ifUp d.st i = true ∨ j ≠ 0) then d.write K.e i j op else some d)
    by_cases hi : isChatter op ∧ j < d.fresh i ∧ (ifUp d.st i = true ∨ j ≠ 0)
    · rw [if_pos hi]
      have hc : Comes d.st.out i op := by
        cases op with
        | update => cases hi.1
        | retraction => cases hi.1
        | _ => trivial
      have hu : updAt j op = none := by
        cases op with
        | update => cases hi.1
        | _ => rfl
      obtain ⟨d', e1, i1, s1, _⟩ := InvAt.write hK h i j op hi.2.1 hi.2.2 (hg hi.1) (fun o ho => ho) hc
        (fun _ _ _ => rfl) (fun _ _ => by rw [hu]; simp)
      have i2 : DInv K d' := by
        show InvAt K d'.st.out d'
        rw [s1]
        exact i1
      exact ⟨d', e1.eq, i2, s1 ▸ .refl, .one (l := .chat i j op) h ⟨hi.1, e1⟩ i2 s1 rfl⟩
    · rw [if_neg hi]
      exact .pure h
  | down i => exact absurd rfl (hf i).1
  | up i mtu fi full => exact absurd rfl ((hf i).2 mtu fi full)

theorem DInv.dstep {d : Daemon} (h : DInv K d) (ev : DEv) (hg : DEvGood K d ev) : Steps K d (dstep K.e d ev) := by
  cases ev with
  | down i => exact h.ifaceDown hK i hg.1 hg.2.1 hg.2.2
  | up i mtu fi full => exact h.ifaceUp hK i mtu fi full hg.1 hg.2
  | _ => exact (h.dstep_calm hK _ hg fun _ => ⟨fun h => (by cases h), fun _ _ _ h => (by cases h)⟩).steps

/-- Every event of a run is as it should be. -/
def RunGood (K : Kit) : List DEv → Daemon → Prop
  | [], _ => True
  | ev :: l, d => DEvGood K d ev ∧ ∀ d', Babel.dstep K.e d ev = some d' → RunGood K l d'

theorem DInv.drun (l : List DEv) : ∀ {d : Daemon}, DInv K d → RunGood K l d → Runs K d (drun K.e d l) := by
  induction l with
  | nil => intro d h _; exact .pure h
  | cons ev l ih =>
    intro d h hg
    obtain ⟨d1, e1, i1, p1, l1, c1, _⟩ := h.dstep hK ev hg.1
    obtain ⟨d2, e2, i2, p2, l2, c2⟩ := ih i1 (hg.2 d1 e1)
    refine ⟨d2, ?_, i2, p1.trans p2, _, c1.append c2⟩
    unfold Babel.drun at e2 ⊢
    rw [List.foldlM_cons, e1]
    exact e2

end
end Babel
