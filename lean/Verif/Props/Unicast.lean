import Verif.Lemmas.Unicast3
import Verif.Props.Packet
/-
C69: messages for one neighbour go to that neighbour.
-/
set_option linter.unusedVariables false
namespace Babel
open Spec

section
variable {e : DCfg} {d d1 d2 : Daemon}

theorem start_housed (hd : DStart d) : Housed e d := by
  have : shape d = [] := by unfold shape; rw [hd.nbrs]; rfl
  constructor <;> rw [this]
  · exact .nil
  · exact fun p hp => nomatch hp
  · exact fun p hp => nomatch hp

/-- C69: each neighbour has a buffer of its own, separate from that of the interface, which has the neighbour's address. -/
theorem C69_addresses (he : DCfgOk e) (hd : DStart d) {evs : List DEv} (h : ∀ ev ∈ evs, DEvOk e KeyFits XFits SndFits ev)
    (hr : drun e d evs = some d1) {n : NeighId} {x : DNbr} (hx : d1.nbr n = some x) :
    x.buf ≠ 0 ∧ ((d1.link (e.node.ifOf n)).bufs x.buf).dst = e.addr n ∧
    ∀ m y, d1.nbr m = some y → e.node.ifOf m = e.node.ifOf n → y.buf = x.buf → m = n := by
  obtain ⟨d', h1, h2, _, ls, t, _⟩ := run_does (safeKit_ok he d.st) (fun _ _ => trivial) rfl (fun _ _ h => h) evs
    (start_inv (Nat.zero_le 1) hd rfl fun _ _ h => safeL_start h) h (fun _ ev _ _ _ _ => by cases ev <;> first | trivial | exact ⟨trivial, fun _ => trivial⟩)
  have h1 : drun e d evs = some d' := h1
  rw [hr] at h1
  cases h1
  have hh : Housed e d1 := trace_housed t (start_housed hd)
  exact ⟨(HoldsAt.buf ⟨_, h2⟩ (mem_shape hx)).2, hh.dst _ (mem_shape hx), fun m y hy hi hj => hh.apart _ (mem_shape hy) _ (mem_shape hx) hi hj⟩

variable {X : PKey → Prop}

theorem reached_own (he : DCfgOk e) (hd : DStart d) (hX : ∀ a b, X a → X b → Proper ⟨a.prefix_, b.plen, b.srcPrefix, a.srcPlen⟩)
    {evs : List DEv} (h : ∀ ev ∈ evs, DEvOk e Proper X SndOk ev) (hr : drun e d evs = some d1) :
    DInv (ownKit e X d.st) d1 ∧ Housed e d1 := by
  obtain ⟨d', h1, h2, _, ls, t, _⟩ := run_does (ownKit_ok he hX d.st) (fun _ _ => trivial) rfl fine_of_ok evs
    (start_inv (Nat.zero_le 1) hd rfl fun _ _ h => ownL_start h) h (fun _ ev _ _ _ _ => by cases ev <;> first | trivial | exact ⟨trivial, fun _ => trivial⟩)
  have h1 : drun e d evs = some d' := h1
  rw [hr] at h1
  cases h1
  exact ⟨h2, trace_housed t (start_housed hd)⟩

/-- C69: during an event, what a neighbour that is known afterwards is told apart from the others is exactly what the routing part
says to it in this event, in the same order: what is meant for this neighbour, and, if it is configured so, what is meant for
everyone on its interface. -/
theorem C69_said (he : DCfgOk e) (hd : DStart d) (hX : ∀ a b, X a → X b → Proper ⟨a.prefix_, b.plen, b.srcPrefix, a.srcPlen⟩)
    {evs : List DEv} (h : ∀ ev ∈ evs, DEvOk e Proper X SndOk ev) (hr : drun e d evs = some d1) {ev : DEv} (hev : DEvOk e Proper X SndOk ev)
    (hk : dstep e d1 ev = some d2) :
    ∃ new : List Out, d2.st.out = new.reverse ++ d1.st.out ∧
      ∀ n x, d2.nbr n = some x → ∀ E : PEnv, linklocal E.sender = true →
        privately E (d2.link (e.node.ifOf n)) x.buf = privately E (d1.link (e.node.ifOf n)) x.buf ++
          new.flatMap (saidTo e E (sifOf e d2.st (e.node.ifOf n)) n) := by
  obtain ⟨i1, hh⟩ := reached_own he hd hX h hr
  obtain ⟨_, _, _, new, o, r⟩ := said_step he hX i1 hh hev hk
  exact ⟨new, o, fun n x hx E hE => r E hE n x.buf (mem_shape hx)⟩

/-- C69: a neighbour that was not known gets a buffer to which nothing has been written before. -/
theorem C69_new (he : DCfgOk e) (hd : DStart d) (hX : ∀ a b, X a → X b → Proper ⟨a.prefix_, b.plen, b.srcPrefix, a.srcPlen⟩)
    {evs : List DEv} (h : ∀ ev ∈ evs, DEvOk e Proper X SndOk ev) (hr : drun e d evs = some d1) {ev : DEv} (hev : DEvOk e Proper X SndOk ev)
    (hk : dstep e d1 ev = some d2) {n : NeighId} {x : DNbr} (hn : d1.nbr n = none) (hx : d2.nbr n = some x) :
    sentOn (d1.link (e.node.ifOf n)) x.buf = [] ∧ ((d1.link (e.node.ifOf n)).bufs x.buf).bytes = [] := by
  obtain ⟨i1, hh⟩ := reached_own he hd hX h hr
  obtain ⟨_, _, ⟨ls, t⟩, _⟩ := said_step he hX i1 hh hev hk
  rcases (trace_known t).2 _ (mem_shape hx) with h | h
  · obtain ⟨y, hy, _⟩ := shape_mem hh.nodup h
    rw [hn] at hy
    cases hy
  · exact (HoldsAt.own (X := X) (s0 := d.st) ⟨_, i1⟩ (e.node.ifOf n)).new x.buf h

/-- C69: the same for any number of events, as long as the neighbour is not forgotten and its interface does not go down or come up. -/
theorem C69_run (he : DCfgOk e) (hd : DStart d) (hX : ∀ a b, X a → X b → Proper ⟨a.prefix_, b.plen, b.srcPrefix, a.srcPlen⟩)
    {evs : List DEv} (h : ∀ ev ∈ evs, DEvOk e Proper X SndOk ev) (hr : drun e d evs = some d1) {more : List DEv}
    (hm : ∀ ev ∈ more, DEvOk e Proper X SndOk ev) (hk : drun e d1 more = some d2) {n : NeighId} {x y : DNbr} (hx : d1.nbr n = some x)
    (hy : d2.nbr n = some y) (hb : y.buf = x.buf) (hf : ∀ ev ∈ more, ev ≠ .down (e.node.ifOf n) ∧ ∀ mtu fi full, ev ≠ .up (e.node.ifOf n) mtu fi full) :
    ∃ new : List Out, d2.st.out = new.reverse ++ d1.st.out ∧ ∀ E : PEnv, linklocal E.sender = true →
      privately E (d2.link (e.node.ifOf n)) x.buf = privately E (d1.link (e.node.ifOf n)) x.buf ++
        new.flatMap (saidTo e E (sifOf e d1.st (e.node.ifOf n)) n) := by
  obtain ⟨i1, hh⟩ := reached_own he hd hX h hr
  obtain ⟨_, _, _, new, o, r⟩ := said_run he hX (n := n) more i1 hh hm hk hf
  exact ⟨new, o, fun E hE => r E hE x.buf (hb ▸ mem_shape hy) (HoldsAt.buf ⟨_, i1⟩ (mem_shape hx)).1⟩

/-- C69: a request for an acknowledgment is answered: the acknowledgment with its nonce is then in the buffer of the sender, or in a
packet sent to it since. -/
theorem C69_ack (he : DCfgOk e) (hd : DStart d) (hX : ∀ a b, X a → X b → Proper ⟨a.prefix_, b.plen, b.srcPrefix, a.srcPlen⟩)
    {evs : List DEv} (h : ∀ ev ∈ evs, DEvOk e Proper X SndOk ev) (hr : drun e d evs = some d1) {n : NeighId} {buf dst : Bytes} {len : Nat}
    (hev : DEvOk e Proper X SndOk (.packet n buf len dst)) (hup : ifUp d1.st (e.node.ifOf n) = true) (hkey : (e.ifs (e.node.ifOf n)).key = none)
    (hll : linklocal (e.addr n) = true) (h42 : buf[0]? = some 42) (h2 : buf[1]? = some 2)
    {p : PState} {items : List Item} (hp : parsePacket (penvOf e n) buf len = some (p, items)) {nonce iv : Nat} (hi : .ackReq nonce iv ∈ items)
    (hk : dstep e d1 (.packet n buf len dst) = some d2) :
    ∃ x sent, d2.nbr n = some x ∧
      Waiting (.tlv 3 (be16 nonce)) x.buf (sentOn (d1.link (e.node.ifOf n)) x.buf ++ sent) (d2.link (e.node.ifOf n)) := by
  obtain ⟨i1, hh⟩ := reached_own he hd hX h hr
  obtain ⟨heard, _, _, _, _, _, _, h9⟩ := packet_spec he (keys_sane i1.keys) hev.2.1 hup hp hk
  have hx := h9 hkey hll h42 h2
  obtain ⟨d3, eff, e1, r1, _⟩ := packet_since he hX i1 hh hev hk hup (mem_shape hx)
  obtain ⟨a, E, _, _, _, _, _, hr⟩ := accept_parts (ownKit_ok he hX d.st) i1 n dst hev.1 hev.2.1 hup e1
  have := receive_plain hkey hr hp
  obtain ⟨more, hw⟩ := r1 nonce iv (this ▸ hi)
  exact ⟨_, more, hx, hw⟩

/-- C69: so are the challenges that arise from a packet, and the replies to those in it. -/
theorem C69_challenges (he : DCfgOk e) (hd : DStart d) (hX : ∀ a b, X a → X b → Proper ⟨a.prefix_, b.plen, b.srcPrefix, a.srcPlen⟩)
    {evs : List DEv} (h : ∀ ev ∈ evs, DEvOk e Proper X SndOk ev) (hr : drun e d evs = some d1) {n : NeighId} {buf dst : Bytes} {len : Nat}
    (hev : DEvOk e Proper X SndOk (.packet n buf len dst)) (hup : ifUp d1.st (e.node.ifOf n) = true) {a : AState} {eff : Effect}
    (hrec : receive (e.nonces (e.node.ifOf n)) ⟨(e.ifs (e.node.ifOf n)).key, (e.ifs (e.node.ifOf n)).acceptBad⟩
      ⟨penvOf e n, buf, len, dst, d1.st.now⟩ (d1.auth (e.node.ifOf n)) = some (a, eff)) {ch : Challenge} (hc : ch ∈ eff.challenges)
    (hk : dstep e d1 (.packet n buf len dst) = some d2) {x : DNbr} (hx : d2.nbr n = some x) :
    ∃ sent, Waiting (challengeTlv ch) x.buf (sentOn (d1.link (e.node.ifOf n)) x.buf ++ sent) (d2.link (e.node.ifOf n)) := by
  obtain ⟨i1, hh⟩ := reached_own he hd hX h hr
  obtain ⟨d3, eff', e1, _, r1⟩ := packet_since he hX i1 hh hev hk hup (mem_shape hx)
  obtain ⟨a', E, _, _, _, _, _, hr⟩ := accept_parts (ownKit_ok he hX d.st) i1 n dst hev.1 hev.2.1 hup e1
  have hr : receive (e.nonces (e.node.ifOf n)) ⟨(e.ifs (e.node.ifOf n)).key, (e.ifs (e.node.ifOf n)).acceptBad⟩
      ⟨penvOf e n, buf, len, dst, d1.st.now⟩ (d1.auth (e.node.ifOf n)) = some (a', eff') := hr
  rw [hrec] at hr
  cases hr
  exact r1 ch hc

/-- C69: what is waiting in the buffer of a neighbour stays there until it is sent, whatever happens. -/
theorem C69_kept (he : DCfgOk e) (hd : DStart d) (hX : ∀ a b, X a → X b → Proper ⟨a.prefix_, b.plen, b.srcPrefix, a.srcPlen⟩)
    {evs : List DEv} (h : ∀ ev ∈ evs, DEvOk e Proper X SndOk ev) (hr : drun e d evs = some d1) {more : List DEv}
    (hm : ∀ ev ∈ more, DEvOk e Proper X SndOk ev) (hk : drun e d1 more = some d2) {i : IfId} {j : Nat} (hj : j ≠ 0) {z : Tlv}
    (hz : ∀ b, z ≠ .tlv 4 b) {sent : List Bytes} (hw : Waiting z j sent (d1.link i)) : Waiting z j sent (d2.link i) := by
  obtain ⟨i1, hh⟩ := reached_own he hd hX h hr
  obtain ⟨d', h1, h2, _, ls, t, _⟩ := run_does (ownKit_ok he hX d.st) (fun _ _ => trivial) rfl fine_of_ok more i1 hm
    (fun _ ev _ _ _ _ => by cases ev <;> first | trivial | exact ⟨trivial, fun _ => trivial⟩)
  have h1 : drun e d1 more = some d' := h1
  rw [hk] at h1
  cases h1
  exact trace_keeps he t hj hz hw

end

namespace DDemo

/-- As `e`, but messages for everyone are sent to the neighbours one by one, and all neighbours are on interface 10. -/
def eOne : DCfg := { e with ifs := fun _ => { dif with unicast := true }, node := { Demo.cfg with ifOf := fun _ => 10 } }

theorem oneOk : DCfgOk eOne where
  myid := by decide
  nonces := fun _ _ => rfl
  indices := fun _ _ _ h => by cases h; rfl
  penalty := fun _ => (by decide : 0 < 2147483648)
  ipv4 := fun _ x h => by cases h; rfl
  signs := fun _ _ h => by cases h

/-- Neighbour 3 sends a packet. -/
def recv3 (b : Bytes) : DEv := .packet 3 b b.length [0xff]

/-- Two neighbours send packets, and a route is redistributed. -/
def two : List DEv := [recv news, recv3 news, .node (.kernelRoute true ⟨Demo.key 5, 0, 5, 3⟩)]

theorem two_ok : ∀ ev ∈ two, DEvOk eOne Proper (· = Demo.key 5) SndOk ev := by
  intro ev hev
  simp only [List.mem_cons, List.not_mem_nil, or_false, two] at hev
  have ha (n : NeighId) (hn : (parsePacket (penvOf eOne n) news news.length).all (fun x => x.2.all fun it => match it with
      | .request _ => false
      | .seqnoRequest .. => false
      | _ => true) = true) : Asks Proper (penvOf eOne n) news news.length := by
    intro st items h
    rw [h] at hn
    have hn := List.all_eq_true.1 hn
    exact ⟨fun k hk => absurd (hn _ hk) Bool.false_ne_true, fun _ _ _ _ hk => absurd (hn _ hk) Bool.false_ne_true⟩
  rcases hev with rfl | rfl | rfl
  · exact ⟨by decide +kernel, Nat.le_refl _, .inr (ha 1 (by decide +kernel))⟩
  · exact ⟨by decide +kernel, Nat.le_refl _, .inr (ha 3 (by decide +kernel))⟩
  · rfl

theorem key5_own : ∀ a b, a = Demo.key 5 → b = Demo.key 5 → Proper ⟨a.prefix_, b.plen, b.srcPrefix, a.srcPlen⟩ := by
  rintro a b rfl rfl
  exact ⟨⟨⟨by decide, by decide⟩, fun h => absurd h (by decide)⟩, by decide +kernel⟩

end DDemo

open DDemo in
/-- Both neighbours, on the same interface, have buffers of their own. -/
example : ((drun eOne d two).map fun d' => ((d'.nbr 1).map (·.buf), (d'.nbr 3).map (·.buf),
    ((d'.link 10).bufs 1).dst, ((d'.link 10).bufs 2).dst)) = some (some 1, some 2, Demo.ll 2, Demo.ll 4) := by decide +kernel

open DDemo in
example {d1 : Daemon} (h : drun eOne d two = some d1) {d2 : Daemon} (h2 : dstep eOne d1 (.node (.flushUpdates 10)) = some d2) :
    ∃ new : List Out, d2.st.out = new.reverse ++ d1.st.out ∧
      ∀ n x, d2.nbr n = some x → ∀ E : PEnv, linklocal E.sender = true →
        privately E (d2.link (eOne.node.ifOf n)) x.buf = privately E (d1.link (eOne.node.ifOf n)) x.buf ++
          new.flatMap (saidTo eOne E (sifOf eOne d2.st (eOne.node.ifOf n)) n) :=
  C69_said oneOk start key5_own two_ok h (ev := .node (.flushUpdates 10)) trivial h2

open DDemo in
/-- Both are told of the redistributed route and of the other one. -/
example : ((drun eOne d (two ++ [.node (.flushUpdates 10)])).map fun d' => (privately reader (d'.link 10) 1, privately reader (d'.link 10) 2, ((d'.link 10).bufs 0).bytes)) =
    (let told := [.update (some (Demo.rid 1)) (Demo.key 5) 5 0 1600 (some (Demo.ll 1)), .update (some (Demo.rid 9)) (Demo.key 1) 7 196 1600 (some (Demo.ll 1))]
     some (told, told, [])) := by decide +kernel

open DDemo in
/-- A request for an acknowledgment with nonce 0x1234 is answered. -/
example : ((parsePacket (penvOf e 1) (pkt [2, 6, 0, 0, 0x12, 0x34, 0, 100]) 12).map (·.2)) = some [.ackReq 0x1234 100] ∧
    ((drun e d [recv (pkt [2, 6, 0, 0, 0x12, 0x34, 0, 100])]).map fun d' => ((d'.nbr 1).map (·.buf), ((d'.link 10).bufs 1).bytes)) =
      some (some 1, [3, 2, 0x12, 0x34]) := by decide +kernel

end Babel
