import Verif.Lemmas.Origin1
import Verif.Lemmas.DNet
import Verif.Spec.Origin
/-
Where the routes in a network of daemons come from.
-/
set_option linter.unusedSimpArgs false
set_option linter.unusedVariables false
set_option linter.unusedSectionVars false
namespace Babel
open Spec

variable {Node : Type} [DecidableEq Node]

/-- The events that may happen at a router: updates with a finite metric were announced by the neighbour. -/
def toldG (R : NeighId → Bytes → PKey → UInt16 → Nat → Prop) (_ : St) : Ev → Prop
  | .update id k q m _ n _ => ∀ o, id = some o → m < INFINITY → R n o k q m
  | .setCost _ v => 1 ≤ v
  | _ => True

/-- One event. -/
theorem step_origin {c : Cfg} {R : NeighId → Bytes → PKey → UInt16 → Nat → Prop} {s : St} (hi : Inv c s []) (h : OInv c R s) (ev : Ev)
    (hg : toldG R s ev) : OInv c R (step c s ev) := by
  have other : ¬ (allowEv ev).env → (∀ n id k q m, (allowEv ev).upd n id k q m → m < INFINITY → R n id k q m) → OInv c R (step c s ev) :=
    fun h1 h2 => (run_ms c hi ev).origin h1 h2 hi h
  cases ev with
  | update id k' q refm i n nh =>
    refine other (fun h => h) fun n' id' k1 q' m' h1 h2 => ?_
    obtain ⟨rfl, rfl, rfl, rfl, h3 | ⟨_, h3⟩⟩ := h1
    · exact hg _ h3 h2
    · exact absurd h2 (Nat.not_lt.2 h3)
  | tick t => exact ⟨h.routes, h.ncost, h.kres, h.xr, h.out⟩
  | setCost n v =>
    refine ⟨h.routes, ?_, h.kres, h.xr, h.out⟩
    intro m
    show 1 ≤ (if m = n then v else s.ncost m)
    split
    · exact hg
    · exact h.ncost m
  | _ => exact other (fun h => h) (fun _ _ _ _ _ h => h.elim)

theorem path_origin {c : Cfg} {R : NeighId → Bytes → PKey → UInt16 → Nat → Prop} {s s' : St} (hi : Inv c s []) (h : OInv c R s)
    (hp : Path c (toldG R) s s') : Inv c s' [] ∧ OInv c R s' := by
  induction hp with
  | refl => exact ⟨hi, h⟩
  | step ev _ hg ih => exact ⟨ih.1.step ev, step_origin ih.1 ih.2 ev hg⟩

def toldKit (N : DNet Node) (X : Node → PKey → Prop) (s0 : Node → St) (R : NeighId → Bytes → PKey → UInt16 → Nat → Prop) (a : Node) : Kit :=
  ⟨N.cfg a, Proper, X a, fun op => SndOk op ∧ Polite op, 1, toldG R, s0 a, fun _ => True, fun _ b => Unprimed b,
    fun i b done _ l => MeanL (N.cfg a) (s0 a) (fun op => SndOk op ∧ Polite op) i b done l⟩

theorem toldKit_ok {N : DNet Node} {X : Node → PKey → Prop} (hN : DNetOk N X) (s0 : Node → St) (R : NeighId → Bytes → PKey → UInt16 → Nat → Prop)
    (a : Node) : (toldKit N X s0 R a).Ok :=
  have h := netKit_ok hN [] default 0 s0 s0 a
  { nonces := h.nonces
    penalty := h.penalty
    rules := h.rules
    matched := h.matched
    upd := h.upd
    req := h.req
    seq := h.seq
    ack := h.ack
    challenge := h.challenge
    reply := h.reply
    links := h.links
    t1 := Nat.le_refl 1
    cost := fun s n v hv => hv
    free := fun s ev hev => by
      cases ev with
      | tick => cases hev
      | setCost => cases hev
      | update => cases hev
      | _ => trivial }

/-- The invariant does not depend on the events considered. -/
theorem DInv.untold {N : DNet Node} {X : Node → PKey → Prop} {s0 : Node → St} {R R' : NeighId → Bytes → PKey → UInt16 → Nat → Prop} {a : Node}
    {d : Daemon} (h : DInv (toldKit N X s0 R a) d) : DInv (toldKit N X s0 R' a) d :=
  ⟨h.keys, h.time, h.ifs, h.links, h.bufs, h.pos, h.dead⟩

theorem DInv.net {N : DNet Node} {X : Node → PKey → Prop} {s0 : Node → St} {R : NeighId → Bytes → PKey → UInt16 → Nat → Prop} {a : Node}
    {d : Daemon} (h : DInv (toldKit N X s0 R a) d) : DInv (netKit N [] default 0 X s0 s0 a) d :=
  ⟨h.keys, h.time, h.ifs, h.links, h.bufs, h.pos, h.dead⟩

/-- What the neighbours of `a` have announced. -/
def saidTo (N : DNet Node) (D : Node → Daemon) (a : Node) (n : NeighId) (o : Bytes) (k : PKey) (q : UInt16) (m : Nat) : Prop :=
  ∃ i, Out.update i o k q m ∈ (D (N.peer a n)).st.out

theorem delivers_good {N : DNet Node} {X : Node → PKey → Prop} (hN : DNetOk N X) {s0 : Node → St} {D : Node → Daemon}
    (hD : ∀ a R, DInv (toldKit N X s0 R a) (D a)) {a : Node} {ev : DEv} (ha : Delivers N X D a ev) :
    DEvGood (toldKit N X s0 (saidTo N D a) a) (D a) ev := by
  have hK := toldKit_ok hN s0 (saidTo N D a) a
  cases ev with
  | checkNbr n => trivial
  | down i => exact ⟨trivial, ha.2, ha.1⟩
  | up i mtu fi full => exact ⟨trivial, ha⟩
  | say i j op =>
    intro hc
    refine ⟨ha.1, ?_⟩
    cases op with
    | ihu r i x t => exact ha.2 r i x t rfl
    | request => cases hc
    | seqnoRequest => cases hc
    | _ => trivial
  | node ev =>
    intro hi
    cases ev with
    | tick t => exact ⟨trivial, fun nc => trivial, fun t' h => by cases h; exact ha⟩
    | kernelRoute bb kr => exact ⟨ha, fun _ => trivial, nofun⟩
    | checkXroutes krs bb => exact ⟨ha, fun _ => trivial, nofun⟩
    | update => cases hi
    | routeRequest => cases hi
    | seqnoRequest => cases hi
    | setCost => cases hi
    | _ => exact ⟨trivial, fun _ => trivial, nofun⟩
  | packet n buf len dst =>
    obtain ⟨hb, hl, ha⟩ := ha
    refine ⟨hb, hl, fun hup d1 eff hacc => ?_⟩
    rcases ha with ha | ⟨i, p, hp, hpe⟩
    · have := accept_unsigned hb hl (hD a (saidTo N D a)).time ha
      have hacc : (D a).accept (N.cfg a) n buf len dst = some (d1, eff) := hacc
      rw [this] at hacc
      cases hacc
      trivial
    · obtain ⟨d1', eff', e1, i1, s1, o1, hpp, _⟩ := (hD a (saidTo N D a)).accept hK n dst hb hl hup
      rw [hacc] at e1
      cases e1
      have hacc : (D a).accept (N.cfg a) n buf len dst = some (d1, eff) := hacc
      have hmem : ∀ it ∈ eff.items, (∀ x, untimed it = x → x = it) → it ∈ heard (penvOf (N.cfg a) n) p.2 := by
        intro it hit hun
        rcases hpp with hpp | ⟨st, hpp⟩
        · rw [hpp] at hit; cases hit
        · have hpp : parsePacket (penvOf (N.cfg a) n) buf len = some (st, eff.items) := hpp
          by_cases h4 : len < 4
          · rw [C07_short_harmless _ _ _ hb h4] at hpp
            injection hpp with hpp
            rw [← (Prod.mk.inj hpp).2] at hit
            cases hit
          · have hlen : (buf.take len).length = len := by rw [List.length_take]; omega
            have hst := C07_stale (penvOf (N.cfg a) n) (buf.take len) (buf.drop len) (by omega)
            rw [List.take_append_drop, hlen, hpp] at hst
            unfold heard
            rw [hpe, hlen, ← hst]
            exact List.mem_map.2 ⟨it, hit, hun _ rfl⟩
      have hfrom : ∀ it ∈ eff.items, (∀ x, untimed it = x → x = it) → Heard i (D (N.peer a n)).st.out it := fun it hit hun =>
        heard_net hN (hD (N.peer a n) (saidTo N D a)).net hp (E := penvOf (N.cfg a) n) (hN.addr a n) (hmem it hit hun)
      have hone : ∀ it ∈ eff.items, ∀ d2, ItemGood (toldKit N X s0 (saidTo N D a) a) n d2 it := by
        intro it hit d2
        cases it with
        | ihu tx iv => exact hfrom _ hit (fun x h => h.symm)
        | request k' => exact hfrom _ hit (fun x h => h.symm)
        | seqnoRequest k' hop q id => exact hfrom _ hit (fun x h => h.symm)
        | update id k' q m iv nh =>
          obtain ⟨id', q', rfl, hq, ho⟩ := hfrom _ hit (fun x h => h.symm)
          have hqq : UInt16.ofNat q = q' := by rw [hq]; exact UInt16.ofNat_toNat
          intro nc o hid _
          cases hid
          rw [hqq]
          exact ⟨i, ho⟩
        | _ => trivial
      have hall : ∀ l, (∀ it ∈ l, it ∈ eff.items) → ∀ d2, ItemsGood (toldKit N X s0 (saidTo N D a) a) n l d2 := by
        intro l
        induction l with
        | nil => intro _ _; trivial
        | cons it l ih =>
          intro hl d2
          exact ⟨hone it (hl it (List.mem_cons_self ..)) d2, fun d3 _ => ih (fun x hx => hl x (List.mem_cons_of_mem _ hx)) d3⟩
      exact hall eff.items (fun _ h => h) d1

theorem saidTo_mono {N : DNet Node} {D D' : Node → Daemon} (h : ∀ x o, o ∈ (D x).st.out → o ∈ (D' x).st.out) {a : Node} {n : NeighId} {o : Bytes}
    {k : PKey} {q : UInt16} {m : Nat} (hs : saidTo N D a n o k q m) : saidTo N D' a n o k q m := by
  obtain ⟨i, hi⟩ := hs
  exact ⟨i, h _ _ hi⟩

theorem OInv.mono {c : Cfg} {R R' : NeighId → Bytes → PKey → UInt16 → Nat → Prop} {s : St} (h : OInv c R s)
    (hR : ∀ n id k q m, R n id k q m → R' n id k q m) : OInv c R' s where
  routes r hr := ⟨(h.routes r hr).cost, (h.routes r hr).fam, fun hm => hR _ _ _ _ _ ((h.routes r hr).told hm)⟩
  ncost := h.ncost
  kres := h.kres
  xr := h.xr
  out i id k q m h1 h2 := by
    rcases h.out i id k q m h1 h2 with h3 | ⟨n, m', h3, h4⟩
    · exact .inl h3
    · exact .inr ⟨n, m', h3, hR _ _ _ _ _ h4⟩

/-- The invariant of the network. -/
structure ONet (N : DNet Node) (X : Node → PKey → Prop) (s0 : Node → St) (D : Node → Daemon) : Prop where
  inv : ∀ a R, DInv (toldKit N X s0 R a) (D a)
  sound : ∀ a, Inv (N.cfg a).node (D a).st []
  origin : ∀ a, OInv (N.cfg a).node (saidTo N D a) (D a).st

theorem onet_step {N : DNet Node} {X : Node → PKey → Prop} (hN : DNetOk N X) {s0 : Node → St} {D : Node → Daemon} (h : ONet N X s0 D) {a : Node}
    {ev : DEv} (ha : Delivers N X D a ev) : ∃ d, dstep (N.cfg a) (D a) ev = some d ∧ ONet N X s0 (fun x => if x = a then d else D x) := by
  obtain ⟨d, e1, i1, p1⟩ := (h.inv a (saidTo N D a)).dstep (toldKit_ok hN s0 (saidTo N D a) a) ev (delivers_good hN h.inv ha)
  refine ⟨d, e1, ?_⟩
  have hmono : ∀ x o, o ∈ (D x).st.out → o ∈ (if x = a then d else D x).st.out := by
    intro x o ho
    by_cases hx : x = a
    · rw [if_pos hx]
      subst hx
      obtain ⟨ls, h1, _⟩ := p1.2
      rw [h1.2]
      exact List.mem_append_right _ ho
    · rw [if_neg hx]; exact ho
  obtain ⟨q1, q2⟩ := path_origin (h.sound a) (h.origin a) p1.1
  refine ⟨fun x R => ?_, fun x => ?_, fun x => ?_⟩
  · show DInv _ (if x = a then d else D x)
    by_cases hx : x = a
    · rw [if_pos hx, hx]; exact i1.untold
    · rw [if_neg hx]; exact h.inv x R
  · show Inv _ (if x = a then d else D x).st []
    by_cases hx : x = a
    · rw [if_pos hx, hx]; exact q1
    · rw [if_neg hx]; exact h.sound x
  · show OInv _ _ (if x = a then d else D x).st
    by_cases hx : x = a
    · rw [if_pos hx, hx]; exact q2.mono fun _ _ _ _ _ => saidTo_mono hmono
    · rw [if_neg hx]; exact (h.origin x).mono fun _ _ _ _ _ => saidTo_mono hmono

theorem dnetAny_inv {N : DNet Node} {X : Node → PKey → Prop} (hN : DNetOk N X) {D : Node → Daemon} (h : DNetAny N X D) : ∃ s0, ONet N X s0 D := by
  induction h with
  | init D hD hc hf =>
    refine ⟨fun x => (D x).st, fun a R => start_inv (Nat.le_refl 1) (hD a) rfl fun _ _ h => meanL_start h, fun a => ?_, fun a => ?_⟩
    · obtain ⟨⟨now, q, ifs, nc, rand, kres, h1, _⟩, _⟩ := hD a
      rw [h1]
      exact Inv.init ..
    · have h2 := hc a
      have h3 := hf a
      obtain ⟨⟨now, q, ifs, nc, rand, kres, h1, _⟩, _⟩ := hD a
      rw [h1] at h2 h3 ⊢
      exact ⟨nofun, h2, h3, nofun, nofun⟩
  | step a ev d hr ha hs ih =>
    obtain ⟨s0, h⟩ := ih
    obtain ⟨d', e1, h1⟩ := onet_step hN h ha
    rw [hs] at e1
    cases e1
    exact ⟨s0, h1⟩

theorem ONet.traced {N : DNet Node} {X : Node → PKey → Prop} {s0 : Node → St} {D : Node → Daemon} (h : ONet N X s0 D) {o : Bytes} {k : PKey}
    {q : UInt16} : ∀ (m : Nat) {a : Node} {i : IfId}, m < INFINITY → Out.update i o k q m ∈ (D a).st.out → Traced N D o k q a m := by
  intro m
  induction m using Nat.strongRecOn with
  | _ m ih =>
    intro a i hm ho
    rcases (h.origin a).out i o k q m ho hm with ⟨h1, x, h2, h3⟩ | ⟨n, m', h1, j, h2⟩
    · exact .own ho h1.symm h3 h2
    · exact .via n ho (ih m' h1 (by omega) h2) h1

end Babel
