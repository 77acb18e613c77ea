import Verif.Lemmas.Packet
import Verif.Props.Daemon
import Verif.Props.Expiry
import Verif.Spec.Packet
/-
C68: a packet does what its messages say.
-/
set_option linter.unusedVariables false
namespace Babel
open Spec

section
variable {e : DCfg} {d d1 d2 : Daemon}

/-- What is known of any daemon. -/
theorem reached_ok (he : DCfgOk e) (hd : DStart d) {evs : List DEv} (h : ∀ ev ∈ evs, DEvOk e KeyFits XFits SndFits ev)
    (hr : drun e d evs = some d1) : Sane d1.st ∧ (d1.nbrs.map (·.1)).Nodup := by
  refine ⟨?_, nodup_drun evs (by rw [hd.nbrs]; exact .nil) hr⟩
  obtain ⟨d', h1, h2, _⟩ := run_does (safeKit_ok he d.st) (fun _ _ => trivial) rfl (fun _ _ h => h) evs
    (start_inv (Nat.zero_le 1) hd rfl fun _ _ h => safeL_start h) h (fun _ ev _ _ _ _ => by cases ev <;> first | trivial | exact ⟨trivial, fun _ => trivial⟩)
  have h1 : drun e d evs = some d' := h1
  rw [hr] at h1
  cases h1
  have hk := h2.keys
  refine ⟨fun r hr => ⟨trivial, trivial⟩, fun _ _ => trivial, fun _ _ _ _ => trivial, fun r hr => ⟨trivial, fun _ => trivial⟩, fun o ho => ?_⟩
  have := hk.out o ho
  cases o with
  | update i id k q m => exact ⟨trivial, trivial, this.2.2⟩
  | request i to k => exact fun _ _ => trivial
  | mhRequest i to k q id hh => exact ⟨trivial, trivial, this.2.2⟩
  | _ => trivial

/-- C68: a packet makes the routing part do exactly what its messages ask for, in order, apart from changes of link costs; on an
interface with a key, it may instead be ignored as a whole.  Everything is announced again only if asked for, and then only if
it has not been announced recently. -/
theorem C68_routing (he : DCfgOk e) (hd : DStart d) {evs : List DEv} (h : ∀ ev ∈ evs, DEvOk e KeyFits XFits SndFits ev)
    (hr : drun e d evs = some d1) {n : NeighId} {buf dst : Bytes} {len : Nat} (hl : len ≤ buf.length)
    (hup : ifUp d1.st (e.node.ifOf n) = true) {p : PState} {items : List Item} (hp : parsePacket (penvOf e n) buf len = some (p, items))
    (hk : dstep e d1 (.packet n buf len dst) = some d2) :
    ∃ heard done, (heard = items ∨ heard = [] ∧ (e.ifs (e.node.ifOf n)).key ≠ none) ∧ d2.st = run e.node d1.st done ∧
      done.filterMap deedOf = asked (e.node.ifOf n) n (due d1 (e.node.ifOf n)) heard ∧
      ∀ i, d2.lastUpdate i = if i = e.node.ifOf n ∧ due d1 i = true ∧ .requestAll ∈ heard then d1.st.now.sec else d1.lastUpdate i := by
  obtain ⟨hs, _⟩ := reached_ok he hd h hr
  obtain ⟨heard, h1, _, ⟨done, h3, _, h5, _⟩, h6, _, h8, _⟩ := packet_spec he hs hl hup hp hk
  refine ⟨heard, done, ?_, h3, h5, h6⟩
  rcases h1 with h1 | h1
  · by_cases hkey : (e.ifs (e.node.ifOf n)).key = none
    · exact .inl (h8 hkey)
    · exact .inr ⟨h1, hkey⟩
  · exact .inl h1

/-- C68: in a packet on an interface without a key, each message is handled with the costs the links have according to the
messages before it. -/
theorem C68_costs (he : DCfgOk e) (hd : DStart d) {evs : List DEv} (h : ∀ ev ∈ evs, DEvOk e KeyFits XFits SndFits ev)
    (hr : drun e d evs = some d1) {n : NeighId} {buf dst : Bytes} {len : Nat} (hl : len ≤ buf.length)
    (hup : ifUp d1.st (e.node.ifOf n) = true) (hkey : (e.ifs (e.node.ifOf n)).key = none) (hll : linklocal (e.addr n) = true)
    (h42 : buf[0]? = some 42) (h2 : buf[1]? = some 2) {p : PState} {items : List Item} (hp : parsePacket (penvOf e n) buf len = some (p, items))
    (hk : dstep e d1 (.packet n buf len dst) = some d2) :
    ∃ done, d2.st = run e.node d1.st done ∧ done.filterMap deedOf = asked (e.node.ifOf n) n (due d1 (e.node.ifOf n)) items ∧
      ∀ m x, (if m = n then some ((d1.nbr n).getD (unheard d1.st.now (d1.fresh (e.node.ifOf n)))) else d1.nbr m) = some x →
        (costsDuring e.node m d1.st done).map some = (asOf d1.st.now (m == n) (due d1 (e.node.ifOf n)) x items).map
          fun x => neighbourCost d1.st.now (linkCfgOf e d1.st (e.node.ifOf m)) x.link := by
  obtain ⟨hs, hn⟩ := reached_ok he hd h hr
  obtain ⟨heard, _, _, ⟨done, h3, _, h5, h6⟩, _, _, h8, _⟩ := packet_spec he hs hl hup hp hk
  have h8 := h8 hkey
  subst h8
  exact ⟨done, h3, h5, h6 hkey hll h42 h2 hn⟩

/-- C68: a packet tells about the link to its sender what the hellos and IHUs in it say, and nothing about any other. -/
theorem C68_links (he : DCfgOk e) (hd : DStart d) {evs : List DEv} (h : ∀ ev ∈ evs, DEvOk e KeyFits XFits SndFits ev)
    (hr : drun e d evs = some d1) {n : NeighId} {buf dst : Bytes} {len : Nat} (hl : len ≤ buf.length)
    (hup : ifUp d1.st (e.node.ifOf n) = true) (hkey : (e.ifs (e.node.ifOf n)).key = none) (hll : linklocal (e.addr n) = true)
    (h42 : buf[0]? = some 42) (h2 : buf[1]? = some 2) {p : PState} {items : List Item} (hp : parsePacket (penvOf e n) buf len = some (p, items))
    (hk : dstep e d1 (.packet n buf len dst) = some d2) (m : NeighId) :
    d2.nbr m = if m = n then some (measured d1.st.now (linkCfgOf e d1.st (e.node.ifOf n)) p
      (items.foldl (noted d1.st.now) ((d1.nbr n).getD (unheard d1.st.now (d1.fresh (e.node.ifOf n)))))) else d1.nbr m := by
  obtain ⟨hs, hn⟩ := reached_ok he hd h hr
  obtain ⟨heard, _, _, _, _, h7, _, h9⟩ := packet_spec he hs hl hup hp hk
  by_cases hm : m = n
  · rw [if_pos hm, hm]
    exact h9 hkey hll h42 h2
  · rw [if_neg hm]
    exact h7 m hm

/-- C68: whatever packet it is, it says nothing about the link to anyone but its sender. -/
theorem C68_others (he : DCfgOk e) (hd : DStart d) {evs : List DEv} (h : ∀ ev ∈ evs, DEvOk e KeyFits XFits SndFits ev)
    (hr : drun e d evs = some d1) {n : NeighId} {buf dst : Bytes} {len : Nat} (hl : len ≤ buf.length)
    {p : PState} {items : List Item} (hp : parsePacket (penvOf e n) buf len = some (p, items))
    (hk : dstep e d1 (.packet n buf len dst) = some d2) (m : NeighId) (hm : m ≠ n) : d2.nbr m = d1.nbr m := by
  obtain ⟨hs, hn⟩ := reached_ok he hd h hr
  by_cases hup : ifUp d1.st (e.node.ifOf n) = true
  · obtain ⟨heard, _, _, _, _, h7, _, h9⟩ := packet_spec he hs hl hup hp hk
    exact h7 m hm
  · have hk : (if ifUp d1.st (e.node.ifOf n) = true then _ else some d1) = some d2 := hk
    rw [if_neg hup] at hk
    cases hk
    rfl

/-- The first packet of neighbour 1 in `story`: the hellos and the IHU make the cost of the link 96, and then the update is
handled. -/
example : ifUp DDemo.d.st (DDemo.e.node.ifOf 1) = true ∧ (DDemo.e.ifs (DDemo.e.node.ifOf 1)).key = none ∧ linklocal (DDemo.e.addr 1) = true ∧ DDemo.news[0]? = some 42 ∧ DDemo.news[1]? = some 2 ∧
    ((parsePacket (penvOf DDemo.e 1) DDemo.news DDemo.news.length).map fun x =>
      (asked 10 1 (due DDemo.d 10) x.2, (asOf DDemo.d.st.now true (due DDemo.d 10) (unheard DDemo.d.st.now 1) x.2).map fun x =>
        neighbourCost DDemo.d.st.now (linkCfgOf DDemo.e DDemo.d.st 10) x.link)) =
      some ([.update 1 (some (Demo.rid 9)) ⟨[0x20, 1, 0xd, 0xb8, 0, 1, 0, 0, 0, 0, 0, 0, 0, 0, 0, 0], 48, zeroes16, 0⟩ 7 100 400 (some (Demo.ll 2))], [some 96]) ∧
    ((drun DDemo.e DDemo.d [DDemo.recv DDemo.news]).map fun d' => d'.st.routes.map fun r => (r.neigh, r.refmetric, r.cost)) = some [(1, 100, 96)] := by
  decide +kernel

/-- A request for everything, twice in the same packet: it is answered once. -/
example : due DDemo.d 10 = true ∧ ((parsePacket (penvOf DDemo.e 1) (DDemo.pkt ([9, 2, 0, 0] ++ [9, 2, 0, 0])) 12).map fun x =>
      (x.2, asked 10 1 (due DDemo.d 10) x.2)) = some ([.requestAll, .requestAll], [.dump 10]) ∧
    ((drun DDemo.e DDemo.d [DDemo.recv (DDemo.pkt ([9, 2, 0, 0] ++ [9, 2, 0, 0]))]).map fun d' => (d'.lastUpdate 10, d'.lastUpdate 20, due d' 10)) = some (1000, 0, false) := by
  decide +kernel

/-- C68: a packet on an interface that is down is not read. -/
theorem C68_down {n : NeighId} {buf dst : Bytes} {len : Nat} (hup : ifUp d1.st (e.node.ifOf n) = false) :
    dstep e d1 (.packet n buf len dst) = some d1 := by
  show d1.packet e n buf len dst = _
  unfold Daemon.packet
  rw [hup]
  rfl

/-- C68: what the daemon does of its own accord is done with the costs the links have; nothing is learnt about the links.  The time of
the last announcement of everything is only changed by such an announcement. -/
theorem C68_internal (he : DCfgOk e) (hd : DStart d) {evs : List DEv} (h : ∀ ev ∈ evs, DEvOk e KeyFits XFits SndFits ev)
    (hr : drun e d evs = some d1) {ev : Ev} (hi : isInternal ev = true) (hk : dstep e d1 (.node ev) = some d2) :
    (∃ nc, Current e d1 nc ∧ d2.st = step e.node { d1.st with ncost := nc } ev) ∧ (∀ m, d2.nbr m = d1.nbr m) ∧
    (∀ i, (∃ b, ev = .fullUpdate i b) → ifUp d1.st i = true → d2.lastUpdate i = d1.st.now.sec) ∧
    (∀ i, (∀ b, ev ≠ .fullUpdate i b) → d2.lastUpdate i = d1.lastUpdate i) := by
  obtain ⟨hs, hn⟩ := reached_ok he hd h hr
  have hk : (if isInternal ev = true then d1.node e ev else some d1) = some d2 := hk
  rw [if_pos hi] at hk
  obtain ⟨costs, nc, l, h1, h2, h3, h4⟩ := nodeAs_spec hk
  subst h1
  refine ⟨⟨nc, fun m x hx => h4 hn _ (mem_of_nbr hx), ?_⟩, fun m => rfl, ?_, ?_⟩
  · show run e.node d1.st (costs ++ [ev]) = _
    unfold run at h3 ⊢
    rw [List.foldl_append, h3]
    rfl
  · rintro i ⟨b, rfl⟩ hup
    show (if i = i ∧ ifUp d1.st i = true then _ else _) = _
    rw [if_pos ⟨rfl, hup⟩]
  · intro i hb
    show dumped d1 ev i = _
    unfold dumped
    split
    · next _ j b _ =>
      show (if i = j ∧ ifUp d1.st j = true then _ else _) = _
      rw [if_neg]
      rintro ⟨hx, _⟩
      subst hx
      exact hb b rfl
    · cases hi
    · rfl

/-- C68: when an interface comes up, everything counts as announced if its IPv4 address is new. -/
theorem C68_up {i : IfId} {mtu fi : Nat} {full : Bool} (hi : (getIf d1.st i).isSome = true) (hup : ifUp d1.st i = false)
    (hk : dstep e d1 (.up i mtu fi full) = some d2) (j : IfId) :
    d2.lastUpdate j = if j = i ∧ full = true then d1.st.now.sec else d1.lastUpdate j := by
  have hk : (if (getIf d1.st i).isSome ∧ ifUp d1.st i = false then
      d1.nodeAs e (ownBuf i fun b => b.up b.dst mtu fi) (.ifUp i full) else some d1) = some d2 := hk
  rw [if_pos ⟨hi, hup⟩] at hk
  obtain ⟨costs, nc, l, h1, _⟩ := nodeAs_spec hk
  rw [h1]
  rfl

/-- C68: a neighbour that has not been heard of for too long is forgotten, with its routes and what is known of its sequence
numbers; the others stay as they are. -/
theorem C68_lost (he : DCfgOk e) (hd : DStart d) {evs : List DEv} (h : ∀ ev ∈ evs, DEvOk e KeyFits XFits SndFits ev)
    (hr : drun e d evs = some d1) {n : NeighId} {x : DNbr} (hx : d1.nbr n = some x) (hc : x.link.check d1.st.now = none)
    (hk : dstep e d1 (.checkNbr n) = some d2) :
    (∀ m, d2.nbr m = if m = n then none else d1.nbr m) ∧
    Removed (fun r => r.neigh = n) d1.st.routes d2.st.routes ∧
    (∀ i a, (d2.auth i).tab a = if i = e.node.ifOf n ∧ a = e.addr n then none else (d1.auth i).tab a) ∧
    ∃ nc, Current e d1 nc ∧ d2.st = step e.node { d1.st with ncost := nc } (.flushNeigh n) := by
  obtain ⟨hs, hn⟩ := reached_ok he hd h hr
  have hreach := C64_reachable he hd evs h hr
  have hk : d1.checkNbr e n = some d2 := hk
  unfold Daemon.checkNbr at hk
  rw [hx] at hk
  simp only [hc, Option.bind_eq_bind] at hk
  obtain ⟨d3, hk3, hk⟩ := Option.bind_eq_some_iff.1 hk
  obtain ⟨costs, nc, l, h1, h2, h3, h4⟩ := nodeAs_spec hk3
  have hst : d3.st = step e.node { d1.st with ncost := nc } (.flushNeigh n) := by
    rw [h1]
    show run e.node d1.st (costs ++ [.flushNeigh n]) = _
    unfold run at h3 ⊢
    rw [List.foldl_append, h3]
    rfl
  cases hk
  refine ⟨fun m => ?_, ?_, fun i a => ?_, nc, fun m x hx => h4 hn _ (mem_of_nbr hx), hst⟩
  · show ((d3.nbrs.filter _).find? _).map _ = _
    rw [nbr_filter, h1]
    split
    · rfl
    · rfl
  · show Removed _ _ d3.st.routes
    rw [hst]
    have hre : Reachable e.node (run e.node d1.st costs) := Demo.reachable_run hreach costs
    rw [h3] at hre
    exact C30_neighbour hre n
  · show ((if i = e.node.ifOf n then _ else _ : AState).tab a) = _
    have ha : d3.auth = d1.auth := by rw [h1]
    by_cases hi : i = e.node.ifOf n
    · subst hi
      rw [if_pos rfl, ha]
      show (if a = e.addr n then none else _) = _
      by_cases hea : a = e.addr n
      · rw [if_pos hea, if_pos ⟨rfl, hea⟩]
      · rw [if_neg hea, if_neg fun h => hea h.2]
    · rw [if_neg hi, if_neg fun h => hi h.1, ha]

/-- C68: a neighbour that has been heard of recently is kept; if its link has changed, the routes through it get their new costs. -/
theorem C68_checked (he : DCfgOk e) (hd : DStart d) {evs : List DEv} (h : ∀ ev ∈ evs, DEvOk e KeyFits XFits SndFits ev)
    (hr : drun e d evs = some d1) {n : NeighId} {x : DNbr} {l : Nbr} {b : Bool} (hx : d1.nbr n = some x) (hc : x.link.check d1.st.now = some (l, b))
    (hk : dstep e d1 (.checkNbr n) = some d2) :
    (∀ m, d2.nbr m = if m = n then some { x with link := l } else d1.nbr m) ∧ d2.auth = d1.auth ∧
    (b = false → d2.st = d1.st) ∧
    (b = true → ∃ nc, Current e (d1.setNbr n fun x => { x with link := l }) nc ∧
      d2.st = step e.node { d1.st with ncost := nc } (.updNeigh (d1.st.routes.length + 1) n)) := by
  obtain ⟨hs, hn⟩ := reached_ok he hd h hr
  have hk : d1.checkNbr e n = some d2 := hk
  unfold Daemon.checkNbr at hk
  rw [hx] at hk
  simp only [hc] at hk
  have hnbr : ∀ m, (d1.setNbr n fun x => { x with link := l }).nbr m = if m = n then some { x with link := l } else d1.nbr m := by
    intro m
    rw [nbr_setNbr]
    by_cases hm : m = n
    · rw [if_pos hm, if_pos hm, hx]
      rfl
    · rw [if_neg hm, if_neg hm]
  unfold Daemon.recost at hk
  cases b with
  | false =>
    cases hk
    exact ⟨hnbr, rfl, fun _ => rfl, nofun⟩
  | true =>
    rw [if_pos rfl] at hk
    obtain ⟨costs, nc, lk, h1, h2, h3, h4⟩ := nodeAs_spec hk
    refine ⟨?_, ?_, nofun, fun _ => ⟨nc, fun m x hx => h4 (by rw [keys_setNbr]; exact hn) _ (mem_of_nbr hx), ?_⟩⟩
    · rw [h1]
      exact hnbr
    · rw [h1]
      rfl
    · rw [h1]
      show run e.node (d1.setNbr n _).st (costs ++ [.updNeigh _ n]) = _
      unfold run at h3 ⊢
      rw [List.foldl_append, h3]
      rfl

/-- Neighbour 1 is heard of, and then no longer. -/
example : ((drun DDemo.e DDemo.d [DDemo.recv DDemo.news, .node (.tick ⟨1350, 0⟩)]).map fun d' => ((d'.nbr 1).map fun x => (x.link.check d'.st.now).isNone, d'.st.routes.length)) =
      some (some true, 1) ∧
    ((drun DDemo.e DDemo.d [DDemo.recv DDemo.news, .node (.tick ⟨1350, 0⟩), .checkNbr 1]).map fun d' => ((d'.nbr 1).isNone, d'.st.routes.length)) = some (true, 0) ∧
    ((drun DDemo.e DDemo.d [DDemo.recv DDemo.news, .node (.tick ⟨1010, 0⟩)]).map fun d' => (d'.nbr 1).map fun x => (x.link.check d'.st.now).map (·.2)) =
      some (some (some true)) := by
  decide +kernel

end
end Babel
