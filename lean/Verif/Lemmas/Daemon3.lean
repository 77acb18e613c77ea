import Verif.Lemmas.Daemon2
import Verif.Spec.Daemon
import Verif.Props.Buffer
/-
Runs of the whole daemon.
-/
set_option linter.unusedSimpArgs false
set_option linter.unusedVariables false
set_option linter.unusedSectionVars false
namespace Babel
open Spec

/-- An unsigned packet is not decoded. -/
theorem accept_unsigned {e : DCfg} {d : Daemon} {n : NeighId} {buf dst : Bytes} {len : Nat} (hb : 4 ≤ buf.length) (hl : len ≤ buf.length)
    (ht : TvOk d.st.now ∧ 0 < micros d.st.now) (hu : Unsigned e n buf len dst) :
    d.accept e n buf len dst = some (d.ensureNbr e n, {}) := by
  obtain ⟨k, h1, h2, h3⟩ := hu
  have hr := C14_unsigned (r := e.nonces (e.node.ifOf n)) (c := ⟨(e.ifs (e.node.ifOf n)).key, (e.ifs (e.node.ifOf n)).acceptBad⟩)
    (s := d.auth (e.node.ifOf n))
    (p := ⟨penvOf e n, buf, len, dst, d.st.now⟩) (k := k) ⟨hb, hl, ht.1, ht.2⟩ h1 h2 h3
  unfold Daemon.accept
  simp only [hr, Option.bind_eq_bind, Option.bind_some]
  have : (fun x => if x = e.node.ifOf n then d.auth (e.node.ifOf n) else d.auth x) = d.auth := by
    funext x
    split
    · next h => rw [h]
    · rfl
  rw [this]
  rfl

/-- Interfaces that go down may do so. -/
def FlapOk (K : Kit) (d : Daemon) : DEv → Prop
  | .down i => K.F i ∧ (ifUp d.st i = true → K.C i ((d.link i).bufs 0))
  | .up i _ _ _ => K.F i
  | _ => True

section
variable {K : Kit} (hK : K.Ok)
include hK

/-- What an event may be assumed to be, if nothing is asked of the routing part. -/
theorem good_of_ok (hG : ∀ s ev, K.G s ev) (h0 : K.t0 = 0) {Q : Snd → Prop} (hQ : ∀ op, isChatter op = true → Q op → K.Q op)
    {d : Daemon} (h : DInv K d) (ev : DEv) (he : DEvOk K.e K.P K.X Q ev) (hx : FlapOk K d ev) : DEvGood K d ev := by
  cases ev with
  | checkNbr n => trivial
  | say i j op => exact fun hc => hQ op hc he
  | down i => exact ⟨hx.1, hx.2, he⟩
  | up i mtu fi full => exact ⟨hx, he⟩
  | node ev =>
    intro hi
    cases ev with
    | tick t => exact ⟨trivial, fun _ => hG _ _, fun t' h => by cases h; exact he⟩
    | kernelRoute b kr => exact ⟨he, fun _ => hG _ _, nofun⟩
    | checkXroutes krs b => exact ⟨he, fun _ => hG _ _, nofun⟩
    | update => cases hi
    | routeRequest => cases hi
    | seqnoRequest => cases hi
    | _ => exact ⟨trivial, fun _ => hG _ _, nofun⟩
  | packet n buf len dst =>
    obtain ⟨hb, hl, he⟩ := he
    refine ⟨hb, hl, fun hup d1 eff ha => ?_⟩
    rcases he with he | he
    · rw [accept_unsigned hb hl h.time he] at ha
      cases ha
      trivial
    · obtain ⟨d1', eff', e1, i1, s1, o1, hp, _⟩ := h.accept hK n dst hb hl hup
      rw [ha] at e1
      cases e1
      have hall : ∀ it ∈ eff.items, ∀ d, ItemGood K n d it := by
        intro it hit d
        rcases hp with hp | ⟨st, hp⟩
        · rw [hp] at hit; cases hit
        · obtain ⟨r1, r2⟩ := he st _ hp
          cases it with
          | request k => exact r1 k hit
          | seqnoRequest k hop q id => exact r2 k hop q id hit
          | ihu tx iv => show K.t0 ≤ tx; omega
          | update => exact fun _ => hG _ _
          | _ => trivial
      clear hp ha o1
      generalize eff.items = l at hall
      induction l generalizing d1 with
      | nil => trivial
      | cons it l ih =>
        refine ⟨hall it (List.mem_cons_self ..) _, fun d' hd => ?_⟩
        clear i1 s1
        have key : ∀ (l : List Item), (∀ it ∈ l, ∀ d, ItemGood K n d it) → ∀ d, ItemsGood K n l d := by
          intro l
          induction l with
          | nil => intros; trivial
          | cons it l ih => exact fun h d => ⟨h it (List.mem_cons_self ..) d, fun d' _ => ih (fun x hx => h x (List.mem_cons_of_mem _ hx)) d'⟩
        exact key l (fun x hx => hall x (List.mem_cons_of_mem _ hx)) d'

theorem run_does (hG : ∀ s ev, K.G s ev) (h0 : K.t0 = 0) {Q : Snd → Prop} (hQ : ∀ op, isChatter op = true → Q op → K.Q op)
    (evs : List DEv) : ∀ {d : Daemon}, DInv K d → (∀ ev ∈ evs, DEvOk K.e K.P K.X Q ev) →
    (∀ pre ev post d1, evs = pre ++ ev :: post → drun K.e d pre = some d1 → FlapOk K d1 ev) → Runs K d (drun K.e d evs) := by
  induction evs with
  | nil => intro d h _ _; exact .pure h
  | cons ev l ih =>
    intro d h he hx
    obtain ⟨d1, e1, i1, p1, l1, c1, _⟩ := h.dstep hK ev
      (good_of_ok hK hG h0 hQ h ev (he ev (List.mem_cons_self ..)) (hx [] ev l d rfl rfl))
    obtain ⟨d2, e2, i2, p2, l2, c2⟩ := ih i1 (fun x hx => he x (List.mem_cons_of_mem _ hx)) (fun pre x post d2 hl hr =>
      hx (ev :: pre) x post d2 (by rw [hl]; rfl) (by
        unfold Babel.drun at hr ⊢
        rw [List.foldlM_cons, e1]
        exact hr))
    refine ⟨d2, ?_, i2, p1.trans p2, _, c1.append c2⟩
    unfold Babel.drun at e2 ⊢
    rw [List.foldlM_cons, e1]
    exact e2

end

/-- The invariant holds at the start. -/
theorem start_inv {K : Kit} (h1 : K.t0 ≤ 1) {d : Daemon} (hd : DStart d) (hs : K.s0 = d.st)
    (hl : ∀ i l, FreshLink l → K.L i (ifUp d.st i) [] 1 l) : DInv K d := by
  obtain ⟨now, q, ifs, nc, rand, kres, e1, t1, t2, hq⟩ := hd.st
  refine ⟨?_, ?_, by rw [hs], fun i => ?_, ?_, fun i => by rw [hd.fresh]; decide, fun i _ => .inr (by rw [hd.fresh]; decide)⟩
  · rw [e1]
    refine ⟨nofun, nofun, fun f hf k hk => ?_, nofun, nofun⟩
    rw [hq f hf] at hk
    cases hk
  · rw [e1]
    exact ⟨t1, t2⟩
  · have := hl i _ (hd.links i)
    rw [hd.fresh]
    have ho : d.st.out = [] := by rw [e1]; rfl
    rw [ho]
    exact this
  · rw [hd.nbrs]
    nofun

theorem circ_at {e : DCfg} (he : DCfgOk e) (s : St) (i : IfId) {b : Bool} (hb : b = true ∨ (e.ifs i).key = none) :
    Circ (e.ifs i).key.isSome (e.ifs i).timestamps (e.orc i) (sifAt e s i b) := by
  refine ⟨rfl, rfl, ?_, he.indices i, he.ipv4 i⟩
  rcases hb with rfl | hb
  · exact he.signs i
  · intro k hk
    have hk : (e.ifs i).key = some k := hk
    rw [hb] at hk
    cases hk

/-! ### Safety -/

/-- What keeps writing to the buffers of interface `i` safe. -/
structure SafeL (e : DCfg) (i : IfId) (b : Bool) (l : Link) : Prop where
  bufs : ∀ j, j ≠ 0 ∨ b = true → SafeB (e.ifs i).key.isSome (e.ifs i).timestamps (l.bufs j)
  idx : l.index.length = 8
  down : b = false → (l.bufs 0).bytes = []

theorem safeL_start {e : DCfg} {i : IfId} {b : Bool} {l : Link} (h : FreshLink l) : SafeL e i b l :=
  ⟨fun j _ => h.safe.1 j, h.2.2.1, fun _ => (h.1 0).2.2.1⟩

theorem safeL_ok {e : DCfg} (he : DCfgOk e) (s0 : St) (i : IfId) {Q : Snd → Prop} (hQ : ∀ op, Q op → SndFits op) (F : Prop) (C : Buf → Prop) :
    LinkOk e s0 Q i F C (fun b _ _ l => SafeL e i b l) where
  lstep := by
    intro b done done' fresh l now j op h hq hj hb hm hc hu
    have hc := circ_at he s0 i (b := b) (hb.imp_right (·.2))
    obtain ⟨t', r1, r2⟩ := op_safe hc now (t := l.tx j) op (hQ op hq) ⟨h.bufs j (hb.symm.imp_left (·.1)), h.idx⟩
    unfold Link.step
    rw [r1]
    refine ⟨_, rfl, ⟨fun x hx => ?_, r2.2, fun hb0 => ?_⟩⟩
    · show SafeB _ _ (if x = j then t'.buf else l.bufs x)
      by_cases hxj : x = j
      · rw [if_pos hxj]; exact r2.1
      · rw [if_neg hxj]; exact h.bufs x hx
    · show (if 0 = j then t'.buf else l.bufs 0).bytes = []
      rw [if_neg]
      · exact h.down hb0
      · rcases hb with hb | hb
        · rw [hb] at hb0; cases hb0
        · exact fun h => hb.1 h.symm
  lmono := fun b done done' fresh l h _ _ => h
  laddr := fun done fresh l a h hf => by
    refine ⟨fun x hx => ?_, h.idx, nofun⟩
    have := h.bufs x hx
    show SafeB _ _ (if x = fresh then { l.bufs x with dst := a } else l.bufs x)
    split
    · exact ⟨this.lo, this.hi, this.room, this.hello⟩
    · exact this
  ldown := fun done fresh l _ _ h => by
    refine ⟨fun x hx => ?_, h.idx, fun _ => rfl⟩
    rcases hx with hx | hx
    · show SafeB _ _ (if x = 0 then _ else l.bufs x)
      rw [if_neg hx]
      exact h.bufs x (.inl hx)
    · cases hx
  lup := fun done fresh l mtu fi _ hm h => by
    refine ⟨fun x hx => ?_, h.idx, nofun⟩
    show SafeB _ _ (if x = 0 then _ else l.bufs x)
    by_cases hx0 : x = 0
    · rw [if_pos hx0]
      have := reserve_le (e.ifs i).key.isSome
      refine ⟨?_, ?_, ?_, nofun⟩
      · show 256 ≤ (if mtu < 512 then 512 else mtu) - 4 - 48
        split <;> omega
      · show (if mtu < 512 then 512 else mtu) - 4 - 48 < 65536
        split <;> omega
      · show (l.bufs 0).bytes.length + _ ≤ (if mtu < 512 then 512 else mtu) - 4 - 48
        rw [h.down rfl]
        simp only [List.length_nil]
        split <;> omega
    · rw [if_neg hx0]
      exact h.bufs x (.inl hx0)

/-- Lengths only. -/
def safeKit (e : DCfg) (s0 : St) : Kit :=
  ⟨e, KeyFits, XFits, SndFits, 0, fun _ _ => True, s0, fun _ => True, fun _ _ => True, fun i b _ _ l => SafeL e i b l⟩

theorem matched_fits {k : PKey} (h : Matched k) : KeyFits k := by
  obtain ⟨h1, h2, h3⟩ := h
  refine ⟨h1.1, h1.2.1, h2.1, h2.2.1, fun hv hs => ?_⟩
  obtain ⟨h4, _⟩ := (Matched.ok ⟨h1, h2, h3⟩).1.2 hs |>.2 hv
  exact h4

theorem safeKit_ok {e : DCfg} (he : DCfgOk e) (s0 : St) : (safeKit e s0).Ok where
  nonces := he.nonces
  penalty := he.penalty
  rules :=
    { own := he.myid
      sub := fun k h => h.1
      mix := fun a b ha hb => ⟨ha.1.1, hb.1.2.1, hb.1.2.2.1, ha.1.2.2.2.1, fun hv _ => ha.2 hv.2⟩ }
  matched := fun k h => matched_fits h
  upd := fun id k q m hk hi _ _ => ⟨hi, hk⟩
  req := fun k h => h
  seq := fun k q id h hk _ hi _ => ⟨hk, hi⟩
  ack := fun _ _ _ _ => trivial
  challenge := fun b h => h
  reply := fun b h => h
  links := fun i => safeL_ok he s0 i (fun _ h => h) _ _
  t1 := Nat.zero_le 1
  cost := fun _ _ _ _ => trivial
  free := fun _ _ _ => trivial

/-! ### Meaning -/

theorem proper_fits {k : PKey} (h : Proper k) : KeyFits k := by
  obtain ⟨h1, h2⟩ := h
  by_cases hs : k.isSS = true
  · obtain ⟨h3, h4⟩ := h1.2 hs
    exact ⟨h1.1.1, h1.1.2.1, h3.1, h3.2.1, fun hv _ => (h4 hv).1⟩
  · refine ⟨h1.1.1, h1.1.2.1, ?_, ?_, fun _ h => absurd h hs⟩
    · rw [← h2]
      unfold canonical
      rw [if_neg hs]
      split <;> rfl
    · rw [← h2]
      unfold canonical
      rw [if_neg hs]
      split
      · exact (by decide : 96 ≤ 128)
      · exact (by decide : 0 ≤ 128)

/-- Messages that are well-formed in every respect. -/
def SndFine (op : Snd) : Prop := SndOk op ∧ SndFits op

theorem fine_of_ok (op : Snd) (hc : isChatter op = true) (h : SndOk op) : SndFine op := by
  refine ⟨h, ?_⟩
  cases op with
  | hello => trivial
  | ihu => exact h.2.2.1
  | ensure => exact h
  | flush => trivial
  | _ => cases hc

/-- Normalised destinations. -/
def properKit (e : DCfg) (X : PKey → Prop) (s0 : St) (F : IfId → Prop) (C : IfId → Buf → Prop) (L : IfId → Bool → List Out → Nat → Link → Prop) :
    Kit := ⟨e, Proper, X, SndFine, 0, fun _ _ => True, s0, F, C, L⟩

theorem properKit_ok {e : DCfg} (he : DCfgOk e) {X : PKey → Prop} (hX : ∀ a b, X a → X b → Proper ⟨a.prefix_, b.plen, b.srcPrefix, a.srcPlen⟩)
    (s0 : St) {F : IfId → Prop} {C : IfId → Buf → Prop} {L : IfId → Bool → List Out → Nat → Link → Prop}
    (hL : ∀ i, LinkOk e s0 SndFine i (F i) (C i) (L i)) : (properKit e X s0 F C L).Ok where
  nonces := he.nonces
  penalty := he.penalty
  rules :=
    { own := he.myid
      sub := fun k h => hX k k h h
      mix := hX }
  matched := fun k h => h.ok
  upd := fun id k q m hk hi hq hm => ⟨⟨hi, hk.1, hq, Nat.lt_of_le_of_lt hm (by decide)⟩, hi, proper_fits hk⟩
  req := fun k h => ⟨fun k' hk => (h k' hk).1, fun k' hk => proper_fits (h k' hk)⟩
  seq := fun k q id h hk hq hi hh => ⟨⟨hk.1, hq, hi, hh⟩, proper_fits hk, hi⟩
  ack := fun _ _ h1 h2 => ⟨⟨h1, h2⟩, trivial⟩
  challenge := fun b h => ⟨h, h⟩
  reply := fun b h => ⟨h, h⟩
  links := hL
  t1 := Nat.zero_le 1
  cost := fun _ _ _ _ => trivial
  free := fun _ _ _ => trivial

/-! ### An interface that stays up or down -/

/-- The buffers of the interface are the result of operations that make sense. -/
structure TraceL (e : DCfg) (s0 : St) (i : IfId) (b : Bool) (done : List Out) (fresh : Nat) (l : Link) : Prop where
  same : b = ifUp s0 i
  run : ∃ l0 acts, FreshLink l0 ∧ l0.run (e.orc i) acts = some l ∧
    (∀ x ∈ acts, x.c = sifOf e s0 i ∧ SndOk x.op ∧ x.i < fresh ∧ Comes done i x.op) ∧
    (acts ≠ [] → b = true ∨ (e.ifs i).key = none) ∧
    (b = true → (e.ifs i).unicast = false → acts.filterMap (fun x => updAt x.i x.op) = ups i done)

theorem traceL_start {e : DCfg} {s0 : St} {i : IfId} {l : Link} (h : FreshLink l) : TraceL e s0 i (ifUp s0 i) [] 1 l :=
  ⟨rfl, l, [], h, rfl, fun x hx => (by cases hx), fun h => absurd rfl h, fun _ _ => rfl⟩

theorem sif_self (e : DCfg) (s : St) (i : IfId) : sifOf e s i = sifAt e s i (ifUp s i) := rfl

theorem traceL_steady {e : DCfg} (he : DCfgOk e) {s0 : St} {i : IfId} {b : Bool} {acts : List Act} (hb : b = ifUp s0 i)
    (h1 : ∀ x ∈ acts, x.c = sifOf e s0 i ∧ SndOk x.op) (h2 : acts ≠ [] → b = true ∨ (e.ifs i).key = none) :
    Steady (e.ifs i).key.isSome (e.ifs i).timestamps (e.orc i) acts := by
  refine ⟨he.indices i, fun x hx => ?_⟩
  obtain ⟨a1, a2⟩ := h1 x hx
  have hne : acts ≠ [] := by rintro rfl; cases hx
  have hc := circ_at he s0 i (h2 hne)
  rw [a1, sif_self, ← hb]
  exact ⟨hc.key, hc.ts, hc.signs, hc.ip, a2⟩

theorem traceL_ok {e : DCfg} (he : DCfgOk e) (s0 : St) (i : IfId) {Q : Snd → Prop} (hQ : ∀ op, Q op → SndOk op) {F : Prop} (hF : ¬ F)
    (C : Buf → Prop) : LinkOk e s0 Q i F C (TraceL e s0 i) where
  lstep := by
    intro b done done' fresh l now j op h hq hj hb hm hc hu
    obtain ⟨l0, acts, hf, hr, ha, hk, hups⟩ := h.run
    have ha' : ∀ x ∈ acts ++ [⟨sifOf e s0 i, now, j, op⟩],
        x.c = sifOf e s0 i ∧ SndOk x.op ∧ x.i < fresh ∧ Comes done' i x.op := by
      intro x hx
      rcases List.mem_append.1 hx with hx | hx
      · obtain ⟨a1, a2, a3, a4⟩ := ha x hx
        exact ⟨a1, a2, a3, a4.mono hm⟩
      · rw [List.mem_singleton] at hx
        subst hx
        exact ⟨rfl, hQ op hq, hj, hc⟩
    have hk' : b = true ∨ (e.ifs i).key = none := hb.imp_right (·.2)
    obtain ⟨l', hl, _⟩ := C12_safe (traceL_steady he h.same (fun x hx => ⟨(ha' x hx).1, (ha' x hx).2.1⟩) fun _ => hk') hf
    have hs : l.step (e.orc i) (sifAt e s0 i b) now j op = some l' := by
      rw [h.same, ← sif_self, ← hl, run_snoc hr]
    refine ⟨l', hs, h.same, l0, _, hf, hl, ha', fun _ => hk', fun hb' hu' => ?_⟩
    rw [List.filterMap_append, hups hb' hu', hu hb' hu']
    cases hx : updAt j op <;> simp [hx]
  lmono := by
    intro b done done' fresh l h hm hu
    obtain ⟨l0, acts, hf, hr, ha, hk, hups⟩ := h.run
    exact ⟨h.same, l0, acts, hf, hr, fun x hx => ⟨(ha x hx).1, (ha x hx).2.1, (ha x hx).2.2.1, (ha x hx).2.2.2.mono hm⟩, hk,
      fun hb hu' => by rw [hups hb hu', hu hb hu']⟩
  laddr := by
    intro done fresh l a h hf0
    obtain ⟨l0, acts, hf, hr, ha, hk, hups⟩ := h.run
    refine ⟨h.same, l0.setDst fresh a, acts, freshLink_setDst hf _ _,
        run_setDst acts (fun x hx => by have := (ha x hx).2.2.1; omega) hr, fun x hx => ?_, hk, hups⟩
    obtain ⟨a1, a2, a3, a4⟩ := ha x hx
    exact ⟨a1, a2, by omega, a4⟩
  ldown := fun _ _ _ h => absurd h hF
  lup := fun _ _ _ _ _ h => absurd h hF

/-! ### An interface that goes down only when its buffer is not primed -/

/-- The item has been told by some operation. -/
def Said (e : DCfg) (s0 : St) (Q : Snd → Prop) (i : IfId) (done : List Out) (E : PEnv) (it : Item) : Prop :=
  ∃ op b pd, Q op ∧ Comes done i op ∧ it ∈ told E (sifAt e s0 i b) pd op

theorem Said.mono {e : DCfg} {s0 : St} {Q : Snd → Prop} {i : IfId} {done done' : List Out} {E : PEnv} {it : Item} (h : Said e s0 Q i done E it)
    (hm : ∀ o ∈ done, o ∈ done') : Said e s0 Q i done' E it := by
  obtain ⟨op, b, pd, h1, h2, h3⟩ := h
  exact ⟨op, b, pd, h1, h2.mono hm, h3⟩

/-- Everything the receivers read has been told by some operation. -/
structure MeanL (e : DCfg) (s0 : St) (Q : Snd → Prop) (i : IfId) (b : Bool) (done : List Out) (l : Link) : Prop where
  bufs : ∀ j, j ≠ 0 ∨ b = true → ∃ ts, Good (e.ifs i).key.isSome (e.ifs i).timestamps (l.bufs j) ts ∧
    ∀ E, linklocal E.sender = true → ∀ it ∈ its E {} ts, Said e s0 Q i done E it
  sent : ∀ p ∈ l.out, ∀ E, linklocal E.sender = true → ∀ it ∈ heard E p.2, Said e s0 Q i done E it
  idx : l.index.length = 8
  down : b = false → (l.bufs 0).bytes = [] ∧ Unprimed (l.bufs 0)

theorem good_empty {a tf : Bool} {b : Buf} (h1 : 256 ≤ b.size) (h2 : b.size < 65536) (h3 : b.bytes = []) (h4 : Unprimed b) (h5 : b.hello = none) :
    Good a tf b [] :=
  (Spec.FreshLink.good (l := ⟨fun _ => b, 0, [0, 0, 0, 0, 0, 0, 0, 0], 0, 0, []⟩)
    ⟨fun _ => ⟨h1, h2, h3, h4.1, h4.2.1, h4.2.2, h5⟩, rfl, rfl, rfl⟩).good 0

theorem meanL_start {e : DCfg} {s0 : St} {Q : Snd → Prop} {i : IfId} {b : Bool} {l : Link} (h : FreshLink l) : MeanL e s0 Q i b [] l := by
  refine ⟨fun j _ => ⟨[], (Spec.FreshLink.good h).good j, nofun⟩, ?_, h.2.2.1, fun _ => ⟨(h.1 0).2.2.1, (h.1 0).2.2.2.1, (h.1 0).2.2.2.2.1, (h.1 0).2.2.2.2.2.1⟩⟩
  rw [h.2.2.2]
  nofun

theorem meanL_mono {e : DCfg} {s0 : St} {Q : Snd → Prop} {i : IfId} {b : Bool} {done done' : List Out} {l : Link} (h : MeanL e s0 Q i b done l)
    (hm : ∀ o ∈ done, o ∈ done') : MeanL e s0 Q i b done' l :=
  ⟨fun j hj => by
    obtain ⟨ts, g1, g2⟩ := h.bufs j hj
    exact ⟨ts, g1, fun E hE it hit => (g2 E hE it hit).mono hm⟩,
   fun p hp E hE it hit => (h.sent p hp E hE it hit).mono hm, h.idx, h.down⟩

theorem good_dst {a tf : Bool} {b : Buf} {ts : List Tlv} (h : Good a tf b ts) (x : Bytes) : Good a tf { b with dst := x } ts := by
  obtain ⟨h1, h2, h3, h4, h5, h6, h7, h8, h9, h10, h11⟩ := h
  exact ⟨h1, h2, h3, h4, h5, h6, h7, h8, h9, h10, h11⟩

theorem meanL_ok {e : DCfg} (he : DCfgOk e) (s0 : St) (i : IfId) {Q : Snd → Prop} (hQ : ∀ op, Q op → SndOk op) (F : Prop) {C : Buf → Prop}
    (hC : ∀ b, C b → Unprimed b) : LinkOk e s0 Q i F C (fun b done _ l => MeanL e s0 Q i b done l) where
  lstep := by
    intro b done done' fresh l now j op h hq hj hb hm hcm hu
    have h' := meanL_mono h hm
    obtain ⟨ts, g1, g2⟩ := h'.bufs j (hb.symm.imp_left (·.1))
    have hc := circ_at he s0 i (b := b) (hb.imp_right (·.2))
    obtain ⟨l1, ts', ps, r1, r2, r3, _, _, _, r6⟩ := step_ok (l := { l with bufs := fun _ => l.bufs j }) (tss := fun _ => ts)
      ⟨sifAt e s0 i b, now, j, op⟩ ⟨hc.rand, fun x hx => by
        rw [List.mem_singleton] at hx
        subst hx
        exact ⟨hc.key, hc.ts, hc.signs, hc.ip, hQ op hq⟩⟩ ⟨fun _ => g1, h.idx⟩
    unfold Link.step at r1 ⊢
    have htx : Link.tx { l with bufs := fun _ => l.bufs j } j = l.tx j := rfl
    simp only [htx] at r1
    cases hr : op.run (e.orc i) (sifAt e s0 i b) now (l.tx j) with
    | none => rw [hr] at r1; cases r1
    | some t' =>
      rw [hr] at r1
      simp only [Option.bind_eq_bind, Option.bind_some, pure, Option.some.injEq] at r1
      subst r1
      have r6 : ∀ E, linklocal E.sender = true → ps.flatMap (heard E) ++ its E {} ts' =
        its E {} ts ++ told E (sifAt e s0 i b) (l.bufs j).hello.isSome op := r6
      have hsaid : ∀ E, linklocal E.sender = true → ∀ it ∈ ps.flatMap (heard E) ++ its E {} ts', Said e s0 Q i done' E it := by
        intro E hE it hit
        rw [r6 E hE] at hit
        rcases List.mem_append.1 hit with hit | hit
        · exact g2 E hE it hit
        · exact ⟨op, b, _, hq, hcm, hit⟩
      refine ⟨_, rfl, ⟨fun x hx => ?_, fun p hp E hE it hit => ?_, r2.idx, fun hb0 => ?_⟩⟩
      · show ∃ ts, Good _ _ (if x = j then t'.buf else l.bufs x) ts ∧ _
        by_cases hxj : x = j
        · rw [if_pos hxj]
          have := r2.good j
          simp only [if_pos] at this
          exact ⟨ts', this, fun E hE it hit => hsaid E hE it (List.mem_append_right _ hit)⟩
        · rw [if_neg hxj]
          exact h'.bufs x hx
      · have r3 : l.out ++ t'.out.map (fun p => (j, p)) = l.out ++ ps.map fun p => (j, p) := r3
        have hp : p ∈ l.out ++ t'.out.map (fun p => (j, p)) := hp
        rw [r3] at hp
        rcases List.mem_append.1 hp with hp | hp
        · exact h'.sent p hp E hE it hit
        · obtain ⟨q, hq', rfl⟩ := List.mem_map.1 hp
          exact hsaid E hE it (List.mem_append_left _ (List.mem_flatMap.2 ⟨q, hq', hit⟩))
      · show (if 0 = j then t'.buf else l.bufs 0).bytes = [] ∧ Unprimed (if 0 = j then t'.buf else l.bufs 0)
        rw [if_neg]
        · exact h.down hb0
        · rcases hb with hb | hb
          · rw [hb] at hb0; cases hb0
          · exact fun h => hb.1 h.symm
  lmono := fun b done done' fresh l h hm _ => meanL_mono h hm
  laddr := fun done fresh l a h hf => by
    refine ⟨fun x hx => ?_, h.sent, h.idx, nofun⟩
    obtain ⟨ts, g1, g2⟩ := h.bufs x hx
    show ∃ ts, Good _ _ (if x = fresh then { l.bufs x with dst := a } else l.bufs x) ts ∧ _
    split
    · exact ⟨ts, good_dst g1 a, g2⟩
    · exact ⟨ts, g1, g2⟩
  ldown := fun done fresh l _ hc h => by
    refine ⟨fun x hx => ?_, h.sent, h.idx, fun _ => ⟨rfl, (hC _ hc).1, (hC _ hc).2.1, (hC _ hc).2.2⟩⟩
    rcases hx with hx | hx
    · show ∃ ts, Good _ _ (if x = 0 then _ else l.bufs x) ts ∧ _
      rw [if_neg hx]
      exact h.bufs x (.inl hx)
    · cases hx
  lup := fun done fresh l mtu fi _ hm h => by
    refine ⟨fun x hx => ?_, h.sent, h.idx, nofun⟩
    show ∃ ts, Good _ _ (if x = 0 then _ else l.bufs x) ts ∧ _
    by_cases hx0 : x = 0
    · rw [if_pos hx0]
      refine ⟨[], good_empty ?_ ?_ (h.down rfl).1 (h.down rfl).2 rfl, nofun⟩
      · show 256 ≤ (if mtu < 512 then 512 else mtu) - 4 - 48
        split <;> omega
      · show (if mtu < 512 then 512 else mtu) - 4 - 48 < 65536
        split <;> omega
    · rw [if_neg hx0]
      exact h.bufs x (.inl hx0)

/-- The updates handed to a buffer, and those in the outputs. -/
theorem announcements_ups {E : PEnv} {i : IfId} {acts : List Act} {out : List Out} {c : SIf} (hc : ∀ x ∈ acts, x.c = c ∧ Comes out i x.op)
    (h : acts.filterMap (fun x => updAt x.i x.op) = ups i out) : announcements E 0 acts = toldBy E c i out := by
  have h1 : announcements E 0 acts = (acts.filterMap fun x => updAt x.i x.op).flatMap fun u => told E c false (.update u.1 u.2.1 u.2.2.1 u.2.2.2) := by
    clear h
    unfold announcements
    induction acts with
    | nil => rfl
    | cons x l ih =>
      have ih := ih fun y hy => hc y (List.mem_cons_of_mem _ hy)
      obtain ⟨hx, hk⟩ := hc x (List.mem_cons_self ..)
      rw [List.flatMap_cons, ih, List.filterMap_cons]
      cases hop : x.op with
      | update id k q m =>
        by_cases hi : x.i = 0
        · simp only [updAt, if_pos hi, hx, List.flatMap_cons]
        · simp only [updAt, if_neg hi, List.nil_append]
      | retraction q => rw [hop] at hk; cases hk
      | _ => simp [updAt]
  rw [h1, h]
  unfold ups toldBy
  rw [List.flatMap_def, List.map_filterMap, List.flatMap_def]
  clear h h1 hc
  induction out.reverse with
  | nil => rfl
  | cons o l ih =>
    rw [List.filterMap_cons, List.map_cons, List.flatten_cons, ← ih]
    cases o with
    | update i' id k q m =>
      by_cases hi : i' = i
      · subst hi
        simp [updOf]
      · simp [updOf, hi]
    | _ => simp [updOf]

theorem path_reachable {c : Cfg} {G : St → Ev → Prop} {s s' : St} (h : Path c G s s') (hs : Reachable c s) : Reachable c s' := by
  induction h with
  | refl => exact hs
  | step ev _ _ ih => exact .step ev ih

end Babel
