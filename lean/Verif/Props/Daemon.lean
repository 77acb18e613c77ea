import Verif.Lemmas.Daemon3
import Verif.Lemmas.Demo
/-
C63, C64: the whole daemon, from the packets it receives to the packets it sends.
-/
set_option linter.unusedVariables false
namespace Babel
open Spec

namespace DDemo

/-- An interface with an IPv4 address and no key. -/
def dif : DIf where
  key := none
  acceptBad := false
  ll := [Demo.ll 1]
  timestamps := false
  probe := false
  unicast := false
  ipv4 := some [192, 0, 2, 1]
  lq := false
  cost := 96
  rttDecay := 42
  rttMin := 10000
  rttMax := 120000
  maxRttPenalty := 0

def e : DCfg where
  node := Demo.cfg
  ifs := fun _ => dif
  addr := fun n => Demo.ll (UInt8.ofNat n + 1)
  nonces := fun _ n => ([1, 2, 3, 4, 5, 6, 7, UInt8.ofNat n], true)
  orc := fun _ => ⟨fun n => some [1, 2, 3, 4, 5, 6, 7, UInt8.ofNat n], fun n => n⟩
  v4viav6 := true

/-- Interfaces 10 and 20 are up, no neighbours are known. -/
def d : Daemon where
  st := St.init ⟨1000, 0⟩ 5 [Demo.iface 10, Demo.iface 20] (fun _ => 65535) (fun i => i) (fun _ => .ok)
  nbrs := []
  auth := fun _ => {}
  lastUpdate := fun _ => 0
  link := fun _ => { bufs := fun _ => { dst := 0xff :: List.replicate 15 1, size := 460, flushInterval := 4000 } }
  fresh := fun _ => 1

theorem cfgOk : DCfgOk e where
  myid := by decide
  nonces := fun _ _ => rfl
  indices := fun _ _ _ h => by cases h; rfl
  penalty := fun _ => (by decide : 0 < 2147483648)
  ipv4 := fun _ x h => by cases h; rfl
  signs := fun _ _ h => by cases h

theorem start : DStart d where
  st := ⟨_, _, _, _, _, _, rfl, ⟨by decide, by decide⟩, by decide, by decide⟩
  nbrs := rfl
  links := fun i => ⟨fun j => ⟨(by decide : 256 ≤ 460), (by decide : 460 < 65536), rfl, rfl, rfl, rfl, rfl⟩, rfl, rfl, rfl⟩
  fresh := fun _ => rfl

/-- A packet with the given TLVs. -/
def pkt (b : Bytes) : Bytes := [42, 2, 0, UInt8.ofNat b.length] ++ b

/-- A neighbour that can use v4-via-v6 routes. -/
def reader : PEnv := ⟨Demo.ll 1, fun _ => true, true⟩

/-- Neighbour 1 sends a packet to the multicast group. -/
def recv (b : Bytes) : DEv := .packet 1 b b.length [0xff]

/-- Interface 10 announces what it has to, and its buffer is flushed. -/
def out10 : List DEv := [.node (.flushUpdates 10), .say 10 0 .flush]

/-- Two hellos, an IHU with cost 96 and an update for 2001:db8:1::/48 with router-id 2::9. -/
def news : Bytes := pkt ([4, 6, 0, 0, 0, 1, 1, 144] ++ [4, 6, 0, 0, 0, 2, 1, 144] ++ [5, 14, 3, 0, 0, 96, 4, 176, 0, 0, 0, 0, 0, 0, 0, 1] ++
  [6, 10, 0, 0, 2, 0, 0, 0, 0, 0, 0, 9] ++ [8, 16, 2, 0, 48, 0, 1, 144, 0, 7, 0, 100, 0x20, 1, 0xd, 0xb8, 0, 1])

end DDemo

/-! ### C63: memory safety -/

/-- Finding: a request for an IPv4 host given as an IPv4-mapped IPv6 address (address encoding 2), with
an IPv6 source prefix, makes a daemon with an IPv4 address (or v4-via-v6) copy with a negative length. -/
theorem C63_crash : ∃ (e : DCfg) (d : Daemon) (buf dst : Bytes), DCfgOk e ∧ DStart d ∧ 4 ≤ buf.length ∧
    (∃ n, drun e d [.packet n buf buf.length dst, .node (.flushUpdates (e.node.ifOf n))] = none) := by
  refine ⟨DDemo.e, DDemo.d, DDemo.pkt ([9, 25, 2, 128] ++ [0, 0, 0, 0, 0, 0, 0, 0, 0, 0, 0xff, 0xff, 10, 0, 0, 1] ++
    [128, 5, 32, 0x20, 1, 0xd, 0xb8]), [0xff], DDemo.cfgOk, DDemo.start, by decide, 1, ?_⟩
  rw [← Option.isNone_iff_eq_none]
  decide +kernel

/-- Whatever packets it receives, with any contents and in any order, and whenever its interfaces go down and
come up, a daemon does not read or write outside its buffers nor fail an assertion.  Missing: in packets that are not refused for want of a
signature, requests for IPv4 destinations whose source prefix is shorter than 96 bits. -/
theorem C63_partial {e : DCfg} {d : Daemon} (he : DCfgOk e) (hd : DStart d) (evs : List DEv)
    (h : ∀ ev ∈ evs, DEvOk e KeyFits XFits SndFits ev) : ∃ d', drun e d evs = some d' := by
  obtain ⟨d', h1, _⟩ := run_does (safeKit_ok he d.st) (fun _ _ => trivial) rfl (fun _ _ h => h) evs
    (start_inv (Nat.zero_le 1) hd rfl fun _ _ h => safeL_start h) h (fun _ ev _ _ _ _ => by cases ev <;> first | trivial | exact ⟨trivial, fun _ => trivial⟩)
  exact ⟨d', h1⟩

/-- On an interface with a key, packets that are not signed with it change nothing. -/
theorem C63_unsigned {e : DCfg} {d : Daemon} {n : NeighId} {buf dst : Bytes} {len : Nat} (hb : 4 ≤ buf.length) (hl : len ≤ buf.length)
    (ht : TvOk d.st.now ∧ 0 < micros d.st.now) (hn : ((d.auth (e.node.ifOf n)).tab (e.addr n)).isSome → (d.nbr n).isSome)
    (hu : Unsigned e n buf len dst) : dstep e d (.packet n buf len dst) = some d := by
  have h1 : d.ensureNbr e n = d := by
    unfold Daemon.ensureNbr
    split
    · next h =>
      rw [Bool.and_eq_true] at h
      have := hn h.1
      rw [Option.isNone_iff_eq_none] at h
      rw [h.2] at this
      cases this
    · rfl
  show d.packet e n buf len dst = some d
  unfold Daemon.packet
  rw [accept_unsigned hb hl ht hu, h1]
  split <;> rfl

namespace DDemo

/-- As `e`, with a key on every interface. -/
def e2 : DCfg := { e with ifs := fun _ => { dif with key := some ⟨false, fun s d h b => some (be16 (s ++ d ++ h ++ b).length ++ be16 7)⟩ } }

/-- `news` has no trailer. -/
theorem news_unsigned : Unsigned e2 1 news news.length [0xff] := by
  refine ⟨_, rfl, rfl, ?_⟩
  rintro ⟨body, tr, m, h1, h2, h3, pre, rest, h4, h5, h6⟩
  have h7 : news.length = 4 + body.length + tr.length := by
    rw [← List.take_length (l := news), h2]
    simp [packet, be16]
    omega
  have h8 : (be16 body.length) = [0, 62] := by
    have : ((news.take news.length).drop 2).take 2 = be16 body.length := by rw [h2]; simp [packet, be16]
    rw [← this]
    decide +kernel
  have h9 : body.length = 62 := by
    unfold be16 at h8
    have ha : (body.length / 256) % 256 = 0 := by
      have := congrArg UInt8.toNat (List.cons.inj h8).1
      simpa using this
    have hb : body.length % 256 = 62 := by
      have := congrArg UInt8.toNat (List.cons.inj (List.cons.inj h8).2).1
      simpa using this
    omega
  have h10 : news.length = 66 := by decide +kernel
  have : tr = [] := List.length_eq_zero_iff.1 (by omega)
  rw [this] at h6
  simp at h6

end DDemo

open DDemo in
example : dstep e2 d (.packet 1 news news.length [0xff]) = some d :=
  C63_unsigned (by decide +kernel) (Nat.le_refl _) ⟨⟨by decide, by decide⟩, by decide⟩ (fun h => by cases h) news_unsigned

open DDemo in
theorem news_asks (P : PKey → Prop) : Asks P (penvOf e 1) news news.length := by
  intro st items h
  have h1 : (parsePacket (penvOf e 1) news news.length).map (·.2) = some
    [.hello false 1 400 none, .hello false 2 400 none, .ihu 96 1200, .update (some [2, 0, 0, 0, 0, 0, 0, 9]) (Demo.key 1) 7 100 400 (some (Demo.ll 2))] := by
    decide +kernel
  rw [h] at h1
  cases h1
  constructor
  · intro k hk; simp at hk
  · intro k _ _ _ hk; simp at hk

namespace DDemo

/-- A route is redistributed, neighbour 1 sends `news`, and announcements are made on both interfaces. -/
def story : List DEv := [.node (.kernelRoute true ⟨Demo.key 5, 0, 5, 3⟩), recv news] ++ out10 ++
  [.node (.flushUpdates 20), .say 20 0 .flush]

theorem story_ok {P X : PKey → Prop} {Q : Snd → Prop} (hx : X (Demo.key 5)) (hq : Q .flush) : ∀ ev ∈ story, DEvOk e P X Q ev := by
  intro ev hev
  simp only [List.mem_append, List.mem_cons, List.not_mem_nil, or_false, out10, story] at hev
  rcases hev with ((rfl | rfl) | rfl | rfl) | rfl | rfl
  · exact hx
  · exact ⟨by decide +kernel, Nat.le_refl _, .inr (news_asks _)⟩
  · trivial
  · exact hq
  · trivial
  · exact hq

end DDemo

open DDemo in
/-- The daemon learns a route from a packet and announces it in another packet. -/
example : ∃ d', drun e d story = some d' := C63_partial cfgOk start _ (story_ok (by decide +kernel) trivial)

namespace DDemo

/-- Interface 10 goes down with an unsent update in its buffer and comes back, then interface 20 goes down and neighbour 1 sends
`news` again. -/
def flaps : List DEv := [.node (.kernelRoute true ⟨Demo.key 5, 0, 5, 3⟩), recv news, .node (.flushUpdates 10), .down 10, recv news,
  .up 10 1500 4000 true, .down 20, recv news] ++ out10

theorem flaps_ok {P X : PKey → Prop} {Q : Snd → Prop} (hx : X (Demo.key 5)) (hq : Q .flush) : ∀ ev ∈ flaps, DEvOk e P X Q ev := by
  intro ev hev
  simp only [List.mem_append, List.mem_cons, List.not_mem_nil, or_false, out10, flaps] at hev
  have hn : DEvOk e P X Q (recv news) := ⟨by decide +kernel, Nat.le_refl _, .inr (news_asks _)⟩
  rcases hev with (rfl | rfl | rfl | rfl | rfl | rfl | rfl | rfl) | rfl | rfl
  · exact hx
  · exact hn
  · trivial
  · rfl
  · exact hn
  · exact (by decide : 1500 ≤ 65536)
  · rfl
  · exact hn
  · trivial
  · exact hq

end DDemo

open DDemo in
example : ∃ d', drun e d flaps = some d' := C63_partial cfgOk start _ (flaps_ok (by decide +kernel) trivial)

open DDemo in
/-- While interface 10 is down nothing is written to its buffer, and the packet is not read. -/
example : (drun e d (flaps.take 5)).map (fun d' => (ifUp d'.st 10, ((d'.link 10).bufs 0).bytes, d'.st.routes.length)) = some (false, [], 0) := by
  decide +kernel

/-! ### C64: what is announced -/

/-- The state of the routing part is one it can get into by its own events. -/
theorem C64_reachable {e : DCfg} {d d' : Daemon} (he : DCfgOk e) (hd : DStart d) (evs : List DEv)
    (h : ∀ ev ∈ evs, DEvOk e KeyFits XFits SndFits ev) (hr : drun e d evs = some d') : Reachable e.node d'.st := by
  obtain ⟨d1, h1, _, h2, _⟩ := run_does (safeKit_ok he d.st) (fun _ _ => trivial) rfl (fun _ _ h => h) evs
    (start_inv (Nat.zero_le 1) hd rfl fun _ _ h => safeL_start h) h (fun _ ev _ _ _ _ => by cases ev <;> first | trivial | exact ⟨trivial, fun _ => trivial⟩)
  have h1 : drun e d evs = some d1 := h1
  rw [hr] at h1
  cases h1
  refine path_reachable h2 ?_
  obtain ⟨now, q, ifs, nc, rand, kres, e1, _⟩ := hd.st
  rw [e1]
  exact .init ..

/-- What the neighbours read in the packets sent to everyone on an interface, followed by what is still in the
buffer, is exactly what the routing part has announced on this interface, in the same order, as long as this interface
does not go down or come up.  Missing: requests received and routes redistributed must be for proper destinations, also
when those of two redistributed routes are mixed. -/
theorem C64_heard_partial {e : DCfg} {d d' : Daemon} (he : DCfgOk e) (hd : DStart d) {X : PKey → Prop}
    (hX : ∀ a b, X a → X b → Proper ⟨a.prefix_, b.plen, b.srcPrefix, a.srcPlen⟩) (evs : List DEv)
    (h : ∀ ev ∈ evs, DEvOk e Proper X SndOk ev) (hr : drun e d evs = some d') (i : IfId) (hu : (e.ifs i).unicast = false)
    (hi : ∀ ev ∈ evs, ev ≠ .down i ∧ ∀ mtu fi full, ev ≠ .up i mtu fi full)
    (E : PEnv) (hE : linklocal E.sender) :
    ((sentOn (d'.link i) 0).flatMap (heard E) ++ unsent E (d'.link i) 0).filter isUpdate = toldBy E (sifOf e d.st i) i d'.st.out := by
  obtain ⟨d1, h1, h2, _⟩ := run_does (properKit_ok he hX d.st (F := fun x => x ≠ i) (C := fun _ _ => True)
      (L := fun x => if x = i then TraceL e d.st x else fun b _ _ l => SafeL e x b l) (fun x => by
        by_cases hx : x = i
        · rw [if_pos hx]
          exact traceL_ok he d.st x (fun _ h => h.1) (fun h => h hx) _
        · rw [if_neg hx]
          exact safeL_ok he d.st x (fun _ h => h.2) _ _))
    (fun _ _ => trivial) rfl fine_of_ok evs (start_inv (Nat.zero_le 1) hd rfl (fun x l hl => by
        show (if x = i then TraceL e d.st x else fun b _ _ l => SafeL e x b l) _ _ _ _
        by_cases hx : x = i
        · rw [if_pos hx]
          exact traceL_start hl
        · rw [if_neg hx]
          exact safeL_start hl)) h (fun pre ev post d1 hev _ => by
        have hi := hi ev (by rw [hev]; simp)
        cases ev with
        | down x => exact ⟨fun hx => hi.1 (by rw [hx]), fun _ => trivial⟩
        | up x mtu fi full => exact fun hx => hi.2 mtu fi full (by rw [hx])
        | _ => trivial)
  have h1 : drun e d evs = some d1 := h1
  rw [hr] at h1
  cases h1
  have h3 : (if i = i then TraceL e d.st i else fun b _ _ l => SafeL e i b l) _ _ _ _ := h2.links i
  rw [if_pos rfl] at h3
  obtain ⟨l0, acts, hf, hrun, ha, hk, hups⟩ := h3.run
  have hs := traceL_steady he h3.same (fun x hx => ⟨(ha x hx).1, (ha x hx).2.1⟩) hk
  rw [C10_updates hs hf hrun E hE 0]
  cases hup : ifUp d'.st i with
  | true => exact announcements_ups (fun x hx => ⟨(ha x hx).1, (ha x hx).2.2.2⟩) (hups hup hu)
  | false =>
    have hsame : ifUp d.st i = false := by rw [← h3.same, hup]
    have hnone : ∀ id k q m, told E (sifOf e d.st i) false (.update id k q m) = [] := by
      intro id k q m
      simp only [told]
      rw [if_neg]
      intro ha
      have := ha.1
      have : ifUp d.st i = true := this
      rw [hsame] at this
      cases this
    have e1 : announcements E 0 acts = [] := by
      unfold announcements
      rw [List.flatMap_eq_nil_iff]
      intro x hx
      obtain ⟨a1, _, _, a4⟩ := ha x hx
      split
      · cases hop : x.op with
        | update id k q m => simp only [a1, hnone]
        | retraction q => rw [hop] at a4; cases a4
        | _ => rfl
      · rfl
    rw [e1]
    unfold toldBy
    symm
    rw [List.flatMap_eq_nil_iff]
    intro o ho
    cases o with
    | update i' id k q m =>
      simp only [hnone, ite_self]
    | _ => rfl

/-- Every update a neighbour reads in a packet sent on an interface, to everyone or to one neighbour, has been
announced on that interface by the routing part, provided that whenever the interface goes down no update has been written to its
buffer since it was last flushed. -/
theorem C64_source_partial {e : DCfg} {d d' : Daemon} (he : DCfgOk e) (hd : DStart d) {X : PKey → Prop}
    (hX : ∀ a b, X a → X b → Proper ⟨a.prefix_, b.plen, b.srcPrefix, a.srcPlen⟩) (evs : List DEv)
    (h : ∀ ev ∈ evs, DEvOk e Proper X SndOk ev) (hr : drun e d evs = some d') (i : IfId)
    (hi : ∀ pre post d1, evs = pre ++ .down i :: post → drun e d pre = some d1 → ifUp d1.st i = true → Unprimed ((d1.link i).bufs 0))
    (E : PEnv) (hE : linklocal E.sender) (p : Nat × Bytes) (hp : p ∈ (d'.link i).out) (it : Item) (hit : it ∈ heard E p.2)
    (hup : isUpdate it = true) :
    ∃ id k q m, Out.update i id k q m ∈ d'.st.out ∧
      told E { sifOf e d.st i with up := true } false (.update id k q.toNat m) = [it] := by
  obtain ⟨d1, h1, h2, _⟩ := run_does (properKit_ok he hX d.st (F := fun x => True) (C := fun x b => x = i → Unprimed b)
      (L := fun x => if x = i then fun b done _ l => MeanL e d.st SndFine x b done l else fun b _ _ l => SafeL e x b l) (fun x => by
        by_cases hx : x = i
        · rw [if_pos hx]
          exact meanL_ok he d.st x (fun _ h => h.1) _ (fun b hb => hb hx)
        · rw [if_neg hx]
          exact safeL_ok he d.st x (fun _ h => h.2) _ _))
    (fun _ _ => trivial) rfl fine_of_ok evs (start_inv (Nat.zero_le 1) hd rfl (fun x l hl => by
        show (if x = i then fun b done _ l => MeanL e d.st SndFine x b done l else fun b _ _ l => SafeL e x b l) _ _ _ _
        by_cases hx : x = i
        · rw [if_pos hx]
          exact meanL_start hl
        · rw [if_neg hx]
          exact safeL_start hl)) h (fun pre ev post d1 hev hrun => by
        cases ev with
        | down x =>
          refine ⟨trivial, fun hupx hx => ?_⟩
          subst hx
          exact hi pre post d1 hev hrun hupx
        | up x mtu fi full => trivial
        | _ => trivial)
  have h1 : drun e d evs = some d1 := h1
  rw [hr] at h1
  cases h1
  have h3 : (if i = i then fun b done _ l => MeanL e d.st SndFine i b done l else fun b _ _ l => SafeL e i b l) _ _ _ _ := h2.links i
  rw [if_pos rfl] at h3
  obtain ⟨op, b, pd, a2, a4, hm⟩ := h3.sent p hp E hE it hit
  cases op with
  | update id k q m =>
    obtain ⟨q', hq, ho⟩ := a4
    refine ⟨id, k, q', m, ho, ?_⟩
    subst hq
    by_cases hc : announced E (sifAt e d.st i b) id k
    · have hb : b = true := hc.1
      subst hb
      have hc' : announced E { sifOf e d.st i with up := true } id k := hc
      simp only [told, if_pos hc, if_pos hc', List.mem_singleton] at hm ⊢
      rw [hm]
      rfl
    · simp only [told, if_neg hc] at hm
      cases hm
  | retraction q => cases a4
  | hello s iv u f =>
    simp only [told] at hm
    split at hm
    · cases hm
    · rw [List.mem_singleton] at hm; subst hm; cases hup
  | ihu r iv a t =>
    simp only [told] at hm
    split at hm
    · rw [List.mem_singleton] at hm; subst hm; cases hup
    · cases hm
  | request kk =>
    cases kk with
    | none => simp only [told, List.mem_singleton] at hm; subst hm; cases hup
    | some k =>
      simp only [told] at hm
      split at hm
      · rw [List.mem_singleton] at hm; subst hm; cases hup
      · cases hm
  | seqnoRequest k s id hop =>
    simp only [told] at hm
    split at hm
    · rw [List.mem_singleton] at hm; subst hm; cases hup
    · cases hm
  | _ => simp only [told] at hm; cases hm

/-- What such an update says: the metric, router-id and sequence number that were announced, the update interval of the
interface, and a next hop, which is the IPv4 address of the interface for an IPv4 destination if it has one, and otherwise the
address of the sender.  On an interface for neighbours that only know RFC 6126 it is never for a source-specific destination, and on
one without an IPv4 address it is for an IPv4 destination only if v4-via-v6 is enabled there. -/
theorem C64_update_partial {e : DCfg} {d d' : Daemon} (he : DCfgOk e) (hd : DStart d) {X : PKey → Prop}
    (hX : ∀ a b, X a → X b → Proper ⟨a.prefix_, b.plen, b.srcPrefix, a.srcPlen⟩) (evs : List DEv)
    (h : ∀ ev ∈ evs, DEvOk e Proper X SndOk ev) (hr : drun e d evs = some d') (i : IfId) {x : Iface} (hx : getIf d.st i = some x)
    (hi : ∀ pre post d1, evs = pre ++ .down i :: post → drun e d pre = some d1 → ifUp d1.st i = true → Unprimed ((d1.link i).bufs 0))
    (E : PEnv) (hE : linklocal E.sender) (p : Nat × Bytes) (hp : p ∈ (d'.link i).out) (it : Item) (hit : it ∈ heard E p.2)
    (hup : isUpdate it = true) :
    ∃ id k q m, Out.update i id k q m ∈ d'.st.out ∧
      it = .update (some id) (canonical k) q.toNat (min m 65535) ((x.updateInterval + 5) / 10 % 65536)
        (some (if isV4 k then ((e.ifs i).ipv4.map v4tov6).getD E.sender else E.sender)) ∧
      (x.rfc6126 = true → k.isSS = false) ∧
      (isV4 k → (e.ifs i).ipv4.isSome = true ∨ (x.v4viav6 = true ∧ E.v4viav6 = true)) := by
  obtain ⟨id, k, q, m, ho, ht⟩ := C64_source_partial he hd hX evs h hr i hi E hE p hp it hit hup
  refine ⟨id, k, q, m, ho, ?_⟩
  simp only [told] at ht
  by_cases hc : announced E { sifOf e d.st i with up := true } id k
  · rw [if_pos hc] at ht
    obtain ⟨_, h2, _, h4⟩ := hc
    have hsif : (sifOf e d.st i).updateInterval = x.updateInterval ∧ (sifOf e d.st i).rfc6126 = x.rfc6126 ∧ (sifOf e d.st i).v4viav6 = x.v4viav6 := by
      unfold sifOf
      rw [hx]
      exact ⟨rfl, rfl, rfl⟩
    refine ⟨?_, ?_, ?_⟩
    · have ht := (List.cons.inj ht).1
      have hh : hopFor E { sifOf e d.st i with up := true } k = if isV4 k then ((e.ifs i).ipv4.map v4tov6).getD E.sender else E.sender := by
        unfold hopFor
        show (match (e.ifs i).ipv4 with | some ip => _ | none => _) = _
        cases (e.ifs i).ipv4 <;> simp
      rw [← hh, ← hsif.1, ← ht]
      rfl
    · intro hrfc
      cases hss : k.isSS with
      | false => rfl
      | true => exact absurd ⟨hss, hsif.2.1.trans hrfc⟩ h2
    · intro hv
      have := h4 hv
      rw [hsif.2.2] at this
      exact this
  · rw [if_neg hc] at ht
    cases ht

open DDemo in
/-- What is read on interface 20. -/
example : ∃ d', drun e d story = some d' ∧
    (sentOn (d'.link 20) 0).flatMap (heard reader) =
      [.update (some (Demo.rid 1)) (Demo.key 5) 5 0 1600 (some (Demo.ll 1)),
       .update (some (Demo.rid 9)) (Demo.key 1) 7 196 1600 (some (Demo.ll 1))] ∧
    toldBy reader (sifOf e d.st 20) 20 d'.st.out =
      [.update (some (Demo.rid 1)) (Demo.key 5) 5 0 1600 (some (Demo.ll 1)),
       .update (some (Demo.rid 9)) (Demo.key 1) 7 196 1600 (some (Demo.ll 1))] := by
  have h : (drun e d story).any (fun d' => (sentOn (d'.link 20) 0).flatMap (heard reader) =
      [.update (some (Demo.rid 1)) (Demo.key 5) 5 0 1600 (some (Demo.ll 1)),
       .update (some (Demo.rid 9)) (Demo.key 1) 7 196 1600 (some (Demo.ll 1))] ∧ unsent reader (d'.link 20) 0 = []) = true := by decide +kernel
  rw [Option.any_eq_true] at h
  obtain ⟨d', h1, h2⟩ := h
  have h2 := of_decide_eq_true h2
  refine ⟨d', h1, h2.1, ?_⟩
  rw [← C64_heard_partial cfgOk start (X := (· = Demo.key 5))
    (by rintro a b rfl rfl; unfold Proper Spec.KeyOk PrefixOk; decide +kernel) story (story_ok rfl trivial) h1 20 rfl (fun ev hev => by
      simp only [List.mem_append, List.mem_cons, List.not_mem_nil, or_false, out10, story] at hev
      rcases hev with ((rfl | rfl) | rfl | rfl) | rfl | rfl <;> exact ⟨nofun, nofun⟩) reader (by decide +kernel), h2.1, h2.2]
  rfl

namespace DDemo

/-- 10.0.0.0/8 -/
def ten : PKey := ⟨[0, 0, 0, 0, 0, 0, 0, 0, 0, 0, 0xff, 0xff, 10, 0, 0, 0], 104, v4prefix, 96⟩

/-- 2001:db8:0:1::/64 -/
def net1 : PKey := ⟨[0x20, 1, 0xd, 0xb8, 0, 0, 0, 1, 0, 0, 0, 0, 0, 0, 0, 0], 64, zeroes16, 0⟩

/-- 2001:db8:0:2:3:4:5:n -/
def host (n : UInt8) : PKey := ⟨[0x20, 1, 0xd, 0xb8, 0, 0, 0, 2, 0, 3, 0, 4, 0, 5, 0, n], 128, zeroes16, 0⟩

/-- What is read on interface 10. -/
def heard10 (d : Daemon) : List Item := ((sentOn (d.link 10) 0).flatMap (heard reader)).filter isUpdate

/-- What is read on interface 20. -/
def heard20 (d : Daemon) : List Item := ((sentOn (d.link 20) 0).flatMap (heard reader)).filter isUpdate

/-- Redistribution of a route. -/
def redist (b : Bool) (k : PKey) : DEv := .node (.kernelRoute b ⟨k, 0, 5, 3⟩)

end DDemo

open DDemo in
/-- Finding: a request for the IPv4-mapped IPv6 prefix ::ffff:10.0.0.0/104 is answered by a retraction of
10.0.0.0/8, although that route is redistributed and has just been announced. -/
theorem C64_withdrawn : ∃ d', drun e d ([redist true ten] ++ out10 ++
      [recv (pkt ([9, 15, 2, 104] ++ [0, 0, 0, 0, 0, 0, 0, 0, 0, 0, 0xff, 0xff, 10]))] ++ out10) = some d' ∧
    ten ∈ d'.st.xroutes.map (·.key) ∧
    heard10 d' = [.update (some (Demo.rid 1)) ten 5 0 1600 (some (v4tov6 [192, 0, 2, 1])),
      .update (some (Demo.rid 1)) ten 5 65535 1600 (some (v4tov6 [192, 0, 2, 1]))] := by
  have h : (drun e d ([redist true ten] ++ out10 ++
      [recv (pkt ([9, 15, 2, 104] ++ [0, 0, 0, 0, 0, 0, 0, 0, 0, 0, 0xff, 0xff, 10]))] ++ out10)).map
      (fun d' => (d'.st.xroutes.map (·.key), heard10 d')) = some ([ten],
        [.update (some (Demo.rid 1)) ten 5 0 1600 (some (v4tov6 [192, 0, 2, 1])),
          .update (some (Demo.rid 1)) ten 5 65535 1600 (some (v4tov6 [192, 0, 2, 1]))]) := by decide +kernel
  obtain ⟨d', h1, h2⟩ := Option.map_eq_some_iff.1 h
  obtain ⟨h2, h3⟩ := Prod.mk.inj h2
  exact ⟨d', h1, by rw [h2]; exact List.mem_singleton.2 rfl, h3⟩

open DDemo in
/-- Finding: when a redistributed host route goes away while another network is redistributed, and a host that
differs in the last byte appears, neighbours read a route to an address that is not redistributed. -/
theorem C64_misannounced : ∃ d', drun e d ([redist true net1, redist true (host 6)] ++ out10 ++
      [redist false (host 6), .node (.flushUpdates 10), redist true (host 7)] ++ out10) = some d' ∧
    (∀ x ∈ d'.st.xroutes.map (·.key), x = net1 ∨ x = host 7) ∧
    ∃ q nh, Item.update (some (Demo.rid 1)) ⟨[0x20, 1, 0xd, 0xb8, 0, 0, 0, 2, 0, 0, 0, 0, 0, 0, 0, 7], 128, zeroes16, 0⟩ q 0 1600 (some nh) ∈
      heard10 d' := by
  have h : (drun e d ([redist true net1, redist true (host 6)] ++ out10 ++
      [redist false (host 6), .node (.flushUpdates 10), redist true (host 7)] ++ out10)).any
      (fun d' => d'.st.xroutes.all (fun x => x.key = net1 || x.key = host 7) &&
        (heard10 d').contains (Item.update (some (Demo.rid 1)) ⟨[0x20, 1, 0xd, 0xb8, 0, 0, 0, 2, 0, 0, 0, 0, 0, 0, 0, 7], 128, zeroes16, 0⟩ 5 0 1600
          (some (Demo.ll 1)))) = true := by decide +kernel
  rw [Option.any_eq_true] at h
  obtain ⟨d', h1, h2⟩ := h
  rw [Bool.and_eq_true] at h2
  refine ⟨d', h1, ?_, 5, Demo.ll 1, ?_⟩
  · intro x hx
    obtain ⟨y, hy, rfl⟩ := List.mem_map.1 hx
    have := List.all_eq_true.1 h2.1 y hy
    simpa using this
  · simpa using h2.2

namespace DDemo

/-- Interface 20 goes down just after its buffer has been flushed, and comes back. -/
def clean : List DEv := story ++ [.down 20, .up 20 1500 4000 true, .say 20 0 .flush]

end DDemo

open DDemo in
/-- What is read in the packet sent after the interface has come back has been announced. -/
example : ∃ d', drun e d clean = some d' ∧
    (∃ p ∈ (d'.link 20).out, .update (some (Demo.rid 9)) (Demo.key 1) 7 196 1600 (some (Demo.ll 1)) ∈ heard reader p.2 ∧ (d'.link 20).out.length = 2) ∧
    ∃ id k q m, Out.update 20 id k q m ∈ d'.st.out ∧ told reader { sifOf e d.st 20 with up := true } false (.update id k q.toNat m) =
      [.update (some (Demo.rid 9)) (Demo.key 1) 7 196 1600 (some (Demo.ll 1))] := by
  have h : (drun e d clean).any (fun d' => (d'.link 20).out.length = 2 ∧ (d'.link 20).out.any fun p =>
      (heard reader p.2).contains (.update (some (Demo.rid 9)) (Demo.key 1) 7 196 1600 (some (Demo.ll 1)))) = true := by decide +kernel
  rw [Option.any_eq_true] at h
  obtain ⟨d', h1, h2⟩ := h
  have h2 := of_decide_eq_true h2
  obtain ⟨p, hp, h3⟩ := List.any_eq_true.1 h2.2
  have h3 : Item.update (some (Demo.rid 9)) (Demo.key 1) 7 196 1600 (some (Demo.ll 1)) ∈ heard reader p.2 := by simpa using h3
  refine ⟨d', h1, ⟨p, hp, h3, h2.1⟩, ?_⟩
  refine C64_source_partial cfgOk start (X := (· = Demo.key 5))
    (by rintro a b rfl rfl; unfold Proper Spec.KeyOk PrefixOk; decide +kernel) clean ?_ h1 20 ?_ reader (by decide +kernel) p hp _ h3 rfl
  · intro ev hev
    rcases List.mem_append.1 hev with hev | hev
    · exact story_ok (X := (· = Demo.key 5)) (Q := SndOk) rfl trivial ev hev
    · simp only [List.mem_cons, List.not_mem_nil, or_false] at hev
      rcases hev with rfl | rfl | rfl
      · rfl
      · exact (by decide : 1500 ≤ 65536)
      · exact (trivial : SndOk .flush)
  · intro pre post d1 hev hr _
    have hpre : pre = story := by
      have : ∀ (l l' a b : List DEv), DEv.down 20 ∉ l → DEv.down 20 ∉ l' → l ++ .down 20 :: a = l' ++ .down 20 :: b → l = l' := by
        intro l
        induction l with
        | nil =>
          intro l' a b _ h2 h3
          cases l' with
          | nil => rfl
          | cons x l' =>
            rw [List.nil_append, List.cons_append] at h3
            exact absurd (List.mem_cons.2 (.inl (List.cons.inj h3).1)) h2
        | cons x l ih =>
          intro l' a b h1 h2 h3
          cases l' with
          | nil =>
            rw [List.nil_append, List.cons_append] at h3
            exact absurd (List.mem_cons.2 (.inl (List.cons.inj h3).1.symm)) h1
          | cons y l' =>
            rw [List.cons_append, List.cons_append] at h3
            obtain ⟨h4, h5⟩ := List.cons.inj h3
            rw [h4, ih l' a b (fun h => h1 (List.mem_cons_of_mem _ h)) (fun h => h2 (List.mem_cons_of_mem _ h)) h5]
      have hn : DEv.down 20 ∉ story := by
        intro h
        simp [story, out10, recv] at h
      have hp : DEv.down 20 ∉ pre := by
        intro h
        have hc : clean.countP (fun ev => match ev with | .down _ => true | _ => false) = 1 := by decide +kernel
        rw [hev, List.countP_append, List.countP_cons] at hc
        have : 0 < pre.countP (fun ev => match ev with | .down _ => true | _ => false) := List.countP_pos_iff.2 ⟨_, h, rfl⟩
        simp only [if_true] at hc
        omega
      exact this pre story post _ hp hn hev.symm
    subst hpre
    have h4 : (drun e d story).all (fun d1 => ((d1.link 20).bufs 0).id = none ∧ ((d1.link 20).bufs 0).nh = none ∧ ((d1.link 20).bufs 0).prefix_ = none) = true := by
      decide +kernel
    rw [hr] at h4
    have h5 : ((d1.link 20).bufs 0).id = none ∧ ((d1.link 20).bufs 0).nh = none ∧ ((d1.link 20).bufs 0).prefix_ = none := of_decide_eq_true h4
    exact h5

namespace DDemo

/-- Two hellos, an IHU with cost 96 and updates for the host 2001:db8:0:1:200::9 and for 3000::/16 with router-id 2::9. -/
def news2 : Bytes := pkt ([4, 6, 0, 0, 0, 1, 1, 144] ++ [4, 6, 0, 0, 0, 2, 1, 144] ++ [5, 14, 3, 0, 0, 96, 4, 176, 0, 0, 0, 0, 0, 0, 0, 1] ++
  [6, 10, 0, 0, 2, 0, 0, 0, 0, 0, 0, 9] ++
  [8, 26, 2, 0, 128, 0, 1, 144, 0, 7, 0, 100, 0x20, 1, 0xd, 0xb8, 0, 0, 0, 1, 2, 0, 0, 0, 0, 0, 0, 9] ++
  [8, 12, 2, 0, 16, 0, 1, 144, 0, 7, 0, 100, 0x30, 0])

/-- 3000::/16 -/
def net2 : PKey := ⟨[0x30, 0, 0, 0, 0, 0, 0, 0, 0, 0, 0, 0, 0, 0, 0, 0], 16, zeroes16, 0⟩

/-- An IPv4 route is redistributed, neighbour 1 sends `news2`, and interface 20 goes down just after the announcements have
been written to its buffer, and comes back. -/
def dirty : List DEv := [redist true ten, recv news2, .node (.flushUpdates 20), .down 20, .up 20 1500 4000 true, .say 20 0 .flush]

end DDemo

open DDemo in
/-- Finding: when an interface goes down with updates in its buffer, what has been said about router-ids and prefixes is
not forgotten; in the first packet sent when it comes back, neighbours read that a route learnt from another router originates in
this one, which has never been announced. -/
theorem C64_flap : ∃ d', drun e d dirty = some d' ∧
    heard20 d' = [.update (some e.node.myid) net2 7 196 1600 (some (Demo.ll 1))] ∧
    (∀ id q m, Out.update 20 id net2 q m ∈ d'.st.out → id = Demo.rid 9 ∧ id ≠ e.node.myid) ∧
    ∃ q m, Out.update 20 (Demo.rid 9) net2 q m ∈ d'.st.out := by
  have h : (drun e d dirty).any (fun d' => heard20 d' = [.update (some e.node.myid) net2 7 196 1600 (some (Demo.ll 1))] ∧
      (d'.st.out.all fun o => match o with | .update i id k _ _ => !(i == 20 && k == net2) || id == Demo.rid 9 | _ => true) = true ∧
      d'.st.out.contains (.update 20 (Demo.rid 9) net2 7 196) = true) = true := by decide +kernel
  rw [Option.any_eq_true] at h
  obtain ⟨d', h1, h2⟩ := h
  obtain ⟨h2, h3, h4⟩ := of_decide_eq_true h2
  refine ⟨d', h1, h2, fun id q m ho => ?_, 7, 196, by simpa using h4⟩
  have := List.all_eq_true.1 h3 _ ho
  simp at this
  subst this
  exact ⟨rfl, by decide⟩

end Babel
