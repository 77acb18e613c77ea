import Verif.Lemmas.Teardown
import Verif.Lemmas.Demo
/-
C48: removing neighbours and interfaces.
-/
set_option linter.unusedSimpArgs false
set_option linter.unusedVariables false
namespace Babel
open Spec

/-- **C48**: at all times every route refers to a known neighbour, whose interface exists and is up. -/
theorem C48_routes {c : Cfg} {w : World} (h : WReachable c w) {r : Route} (hr : r ∈ w.st.routes) :
    r.neigh ∈ w.neighs ∧ InTable w (c.ifOf r.neigh) ∧ ifUp w.st (c.ifOf r.neigh) = true :=
  ⟨h.winv.neigh r hr, ifUp_exists (h.winv.up r hr), h.winv.up r hr⟩

/-- **C48**: after a neighbour has been discarded, it is not in the table of neighbours and no route
refers to it; the other neighbours are kept. -/
theorem C48_neighbour {c : Cfg} {w : World} (h : WReachable c w) (n : NeighId) :
    ¬ RouteTo (w.step c (.silent n)) n ∧
    ∀ m, m ∈ (w.step c (.silent n)).neighs ↔ m ∈ w.neighs ∧ m ≠ n := by
  have hn : ∀ m, m ∈ (w.step c (.silent n)).neighs ↔ m ∈ w.neighs ∧ m ≠ n := by
    intro m
    show m ∈ (if w.neighs.contains n then _ else w : World).neighs ↔ _
    split
    · unfold flushNeighbour; simp [List.mem_filter]
    · next hc =>
      constructor
      · intro hm
        refine ⟨hm, ?_⟩
        rintro rfl
        simp at hc; exact hc hm
      · exact fun h => h.1
  refine ⟨?_, hn⟩
  rintro ⟨r, hr, e⟩
  have := (h.step (.silent n)).winv.neigh r hr
  rw [e] at this
  exact ((hn n).1 this).2 rfl

/-- **C48**: while an interface is down, no route goes through it. -/
theorem C48_down {c : Cfg} {w : World} (h : WReachable c w) {i : IfId} (hd : ifUp w.st i = false) {r : Route}
    (hr : r ∈ w.st.routes) : c.ifOf r.neigh ≠ i := by
  intro e
  have := h.winv.up r hr
  rw [e, hd] at this
  cases this

/-- **C48**: `interface_updown(ifp, 0)` takes the interface down, and its queue of updates is empty
afterwards; the other interfaces are not taken up or down. -/
theorem C48_updown {c : Cfg} {w : World} (h : WReachable c w) {i : IfId} (hi : InTable w i) (up full : Bool) :
    (∀ j, ifUp (w.step c (.updown i up full)).st j = if j = i then up else ifUp w.st j) ∧
    (∀ j, InTable (w.step c (.updown i up full)) j ↔ InTable w j) ∧
    (w.step c (.updown i up full)).neighs = w.neighs ∧
    (ifUp w.st i = true → up = false → ∀ x ∈ (w.step c (.updown i up full)).st.ifaces, x.ifindex = i → x.queue = []) := by
  obtain ⟨_, h2, h3, h4⟩ := h.winv.updown i up full
  refine ⟨h4 hi, h2, h3, ?_⟩
  intro hu hf x hx hxi
  subst hf
  have e : (w.step c (.updown i false full)).st = step c w.st (.ifDown i) := by
    show (interfaceUpdown c w i false full).st = _
    unfold interfaceUpdown
    rw [exists_iff] at hi
    cases hg : getIf w.st i with
    | none => rw [hg] at hi; simp at hi
    | some y => simp [hu]
  rw [e] at hx
  unfold step modIf at hx
  obtain ⟨y, _, hy⟩ := List.mem_map.1 hx
  split at hy
  · rw [← hy]
  · next hne => subst hy; simp [hxi] at hne

/-- **C48**: after an interface has been removed, it is not in the table of interfaces and no route goes
through it; the other interfaces are kept. -/
theorem C48_removed {c : Cfg} {w : World} (h : WReachable c w) (i : IfId) :
    (∀ r ∈ (w.step c (.remove i)).st.routes, c.ifOf r.neigh ≠ i) ∧
    ∀ j, InTable (w.step c (.remove i)) j ↔ InTable w j ∧ j ≠ i := by
  have hn : ∀ j, InTable (w.step c (.remove i)) j ↔ InTable w j ∧ j ≠ i := by
    intro j
    show InTable (tableFlushIf c w i) j ↔ _
    unfold tableFlushIf
    obtain ⟨_, h2, _, _⟩ := h.winv.updown i false false
    split
    · next hg =>
      constructor
      · intro hj
        refine ⟨hj, ?_⟩
        rintro rfl
        rw [exists_iff] at hj
        cases e : getIf w.st j with
        | none => rw [e] at hj; simp at hj
        | some y => rw [e] at hg; simp at hg
      · exact fun h => h.1
    · rw [← h2 j, exists_iff, exists_iff]
      simp only
      rw [getIf_remove]
      by_cases hj : j = i
      · rw [if_pos hj]; simp [hj]
      · rw [if_neg hj]; simp [hj]
  refine ⟨fun r hr e => ?_, hn⟩
  have := (C48_routes (h.step (.remove i)) hr).2.1
  rw [e] at this
  exact ((hn i).1 this).2 rfl

theorem step_careful {c : Cfg} {w : World} (h : WInv c w) (hn : ∀ n ∈ w.neighs, InTable w (c.ifOf n)) (ev : WEv)
    (hc : ∀ i, ev = .remove i → ¬ NeighbourOn c w i) : ∀ n ∈ (w.step c ev).neighs, InTable (w.step c ev) (c.ifOf n) := by
  have plain : ∀ e, Ev.updown e = false → ∀ n ∈ w.neighs, InTable (⟨Babel.step c w.st e, w.neighs⟩ : World) (c.ifOf n) := by
    intro e he n hm
    exact (exists_conf (w := w) (w' := ⟨Babel.step c w.st e, w.neighs⟩) (step_conf c w.st e he) _).2 (hn n hm)
  cases ev
  case packet n tlvs =>
    show ∀ m ∈ (tableReceive c w n tlvs).neighs, InTable (tableReceive c w n tlvs) (c.ifOf m)
    unfold tableReceive
    split
    · next hu =>
      obtain ⟨h1, h2⟩ := findNeighbour_neighs w n
      simp only
      rw [h2]
      intro m hm
      refine (exists_conf (w := w) (w' := ⟨Babel.run c w.st _, (findNeighbour w n).neighs⟩) (run_conf c _ w.st (tlv_updown n tlvs)) _).2 ?_
      rcases (h1 m).1 hm with rfl | hm
      · exact ifUp_exists hu
      · exact hn m hm
    · exact hn
  case check n v fuel =>
    show ∀ m ∈ (if w.neighs.contains n then _ else w : World).neighs, InTable (if w.neighs.contains n then _ else w : World) _
    split
    · intro m hm
      refine (exists_conf (w := w) (w' := ⟨Babel.run c w.st _, w.neighs⟩) (run_conf c _ w.st ?_) _).2 (hn m hm)
      intro ev he
      simp at he; rcases he with rfl | rfl <;> rfl
    · exact hn
  case silent n =>
    show ∀ m ∈ (if w.neighs.contains n then _ else w : World).neighs, InTable (if w.neighs.contains n then _ else w : World) _
    split
    · intro m hm
      unfold flushNeighbour at hm
      exact plain (.flushNeigh n) rfl m (List.mem_filter.1 hm).1
    · exact hn
  case updown i up full =>
    obtain ⟨_, h2, h3, _⟩ := h.updown i up full
    intro m hm
    have hm : m ∈ (interfaceUpdown c w i up full).neighs := hm
    rw [h3] at hm
    exact (h2 _).2 (hn m hm)
  case add x =>
    show ∀ m ∈ (tableAddIf w x).neighs, InTable (tableAddIf w x) _
    unfold tableAddIf
    split
    · exact hn
    · intro m hm
      obtain ⟨y, hy, e⟩ := hn m hm
      exact ⟨y, List.mem_append.2 (.inl hy), e⟩
  case remove i =>
    show ∀ m ∈ (tableFlushIf c w i).neighs, InTable (tableFlushIf c w i) _
    unfold tableFlushIf
    split
    · exact hn
    · obtain ⟨_, h2, h3, _⟩ := h.updown i false false
      intro m hm
      have hm : m ∈ (interfaceUpdown c w i false false).neighs := hm
      rw [h3] at hm
      obtain ⟨y, hy, e⟩ := (h2 _).2 (hn m hm)
      refine ⟨y, List.mem_filter.2 ⟨hy, ?_⟩, e⟩
      simp only [bne_iff_ne, ne_eq]
      intro e2
      exact hc i rfl ⟨m, hm, by rw [← e, e2]⟩
  all_goals exact plain _ rfl

/-- **C48** for neighbours, when interfaces are only removed at times when no neighbour is known on them:
every neighbour refers to an interface that exists.

Missing for the full property: `flush_interface` discards neither the neighbours on the interface nor the
pending requests that refer to it, see `C48_false`. -/
theorem C48_partial {c : Cfg} {w : World} (h : WReachable c w) (hn : w.neighs = []) (evs : List WEv)
    (hc : Careful c w evs) : ∀ n ∈ (w.run c evs).neighs, InTable (w.run c evs) (c.ifOf n) := by
  have key : ∀ (evs : List WEv) (w : World), WInv c w → (∀ n ∈ w.neighs, InTable w (c.ifOf n)) → Careful c w evs →
      ∀ n ∈ (w.run c evs).neighs, InTable (w.run c evs) (c.ifOf n) := by
    intro evs
    induction evs with
    | nil => intro w _ hn _; exact hn
    | cons ev l ih =>
      intro w hw hn hc
      exact ih (w.step c ev) (hw.step ev) (step_careful hw hn ev hc.1) hc.2
  exact key evs w h.winv (by rw [hn]; simp) hc

namespace TearDemo
open Demo

def start : World := World.init ⟨1000, 0⟩ 5 [iface 10, iface 20] (fun _ => 96) (fun i => i) (fun _ => .ok)

/-- Neighbour 2, on interface 20, announces a route; neighbour 1, on interface 10, asks for a newer
sequence number of it, which is forwarded to neighbour 2; interface 10 is removed. -/
def history : List WEv :=
  [.packet 2 [.update (some (rid 9)) (key 1) 7 150 400 (some (ll 2))],
   .packet 1 [.update (some (rid 9)) (key 2) 7 150 400 (some (ll 1)), .seqnoRequest (key 1) 64 8 (rid 9)],
   .remove 10]

theorem reachable (evs : List WEv) : WReachable cfg (start.run cfg evs) := by
  have : ∀ (evs : List WEv) (w : World), WReachable cfg w → WReachable cfg (w.run cfg evs) := by
    intro evs
    induction evs with
    | nil => exact fun _ h => h
    | cons e l ih => exact fun w h => ih _ (h.step e)
  exact this evs _ (.init ..)

/-- The routes of the removed interface are gone, the other one is kept; neighbours 1 and 2 are known. -/
example : (start.run cfg (history.take 2)).st.routes.map (fun r => (r.key, r.neigh)) = [(key 2, 1), (key 1, 2)] ∧
    (start.run cfg history).st.routes.map (fun r => (r.key, r.neigh)) = [(key 1, 2)] ∧
    (start.run cfg history).neighs = [1, 2] ∧
    (start.run cfg (history ++ [.silent 2])).st.routes = [] ∧
    (start.run cfg (history ++ [.silent 2])).neighs = [1] := by decide +kernel

/-- An interface is taken down, its neighbour is discarded, and it is removed. -/
def carefully : List WEv :=
  [.packet 1 [.update (some (rid 9)) (key 2) 7 150 400 (some (ll 1))], .packet 2 [], .updown 10 false false,
   .silent 1, .remove 10]

example : Careful cfg start carefully ∧ (start.run cfg carefully).neighs = [2] := by
  refine ⟨⟨?_, ?_, ?_, ?_, ?_, trivial⟩, by decide +kernel⟩
  all_goals intro i e
  all_goals first | cases e; done | skip
  cases e
  rintro ⟨n, hn, h⟩
  have : (start.run cfg (carefully.take 4)).neighs = [2] := by decide +kernel
  have hn : n ∈ (start.run cfg (carefully.take 4)).neighs := hn
  rw [this] at hn
  simp at hn
  subst hn
  revert h
  decide

end TearDemo

/-- **C48 is false of the code**: after an interface has been removed (`flush interface`), neighbours and
pending requests can still refer to it, i.e. to memory that has been freed. -/
theorem C48_false : ∃ c w i, WReachable c w ∧ InTable w i ∧ ¬ InTable (w.step c (.remove i)) i ∧
    NeighbourOn c (w.step c (.remove i)) i ∧ PendingOn (w.step c (.remove i)) i := by
  refine ⟨Demo.cfg, TearDemo.start.run Demo.cfg (TearDemo.history.take 2), 10, TearDemo.reachable _, ?_, ?_, ?_, ?_⟩
  · rw [exists_iff]; decide +kernel
  · rw [exists_iff]; decide +kernel
  · exact ⟨1, by decide +kernel, rfl⟩
  · have h : ((TearDemo.start.run Demo.cfg (TearDemo.history.take 2)).step Demo.cfg (.remove 10)).st.resends.any
        (fun r => r.ifp == some 10) = true := by decide +kernel
    obtain ⟨r, h1, h2⟩ := List.any_eq_true.1 h
    exact ⟨r, h1, by simpa using h2⟩

end Babel
