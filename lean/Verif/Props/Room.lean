import Verif.Lemmas.Room2
import Verif.Props.Queue
/-
C85: the queues of updates do not overflow.
-/
set_option linter.unusedSimpArgs false
set_option linter.unusedVariables false
namespace Babel
open Spec

/-- Whatever happens to a daemon that starts with empty queues, the queued updates fit in their arrays, and there is an array only if
something is queued. -/
theorem C85_room {c : Cfg} {s : St} (h : ∀ x ∈ s.ifaces, x.queue = [] ∧ x.queueCap = 0) (evs : List Ev) {i : IfId} {x : Iface}
    (hx : getIf (run c s evs) i = some x) : x.queue.length ≤ x.queueCap ∧ (x.queue = [] ↔ x.queueCap = 0) := by
  have h0 : Room s := by
    intro j y hy
    obtain ⟨h1, h2⟩ := h y (getIf_mem hy).2
    rw [h1, h2]
    exact ⟨Nat.zero_le _, fun _ => rfl⟩
  have h1 := h0.run (c := c) evs i x hx
  exact ⟨h1.1, h1.2, fun e => List.length_eq_zero_iff.1 (by omega)⟩

example : let s := run Demo.cfg Demo.start [.routeRequest 1 (Demo.key 1), .routeRequest 1 (Demo.key 2), .routeRequest 1 (Demo.key 1)]
    (∀ x ∈ Demo.start.ifaces, x.queue = [] ∧ x.queueCap = 0) ∧ (getIf s 10).map (fun x => (x.queue.length, x.queueCap)) = some (3, 87) := by
  decide +kernel

/-- Queuing an update, in any state where the queued updates fit.  If there is room in the array it is written after the others.
Otherwise there is no array, or what is in it is handed to the send buffers first; the new array has room for everything that the daemon
knows, and four more, and for as many updates as may fit in a packet. -/
theorem C85_write {c : Cfg} {s : St} (h : Room s) {i : IfId} {x : Iface} (hx : getIf s i = some x) (k : PKey) :
    Room (bufferUpdate c s i k) ∧
    (∀ j, j ≠ i → getIf (bufferUpdate c s i k) j = getIf s j) ∧
    ∃ y, getIf (bufferUpdate c s i k) i = some y ∧
      (x.queue.length < x.queueCap → y.queue = x.queue ++ [k] ∧ y.queueCap = x.queueCap ∧ (bufferUpdate c s i k).out = s.out) ∧
      (x.queue.length = x.queueCap → y.queue = [k] ∧
        y.queueCap = max ((s.routes.map (·.key)).eraseDups.length + s.xroutes.length + 4) (x.bufSize / 16) ∧
        (bufferUpdate c s i k).out = if x.queue = [] then s.out else (flushUpdates c s i).out) := by
  obtain ⟨h1, y, h2, h3, h4⟩ := bufferUpdate_queue (c := c) h hx k
  have ho : (bufferUpdate c s i k).out = if x.queue.length > 0 ∧ x.queue.length ≥ x.queueCap then (flushUpdates c s i).out else s.out := by
    unfold bufferUpdate
    rw [hx]
    show (if _ then flushUpdates c s i else s).out = _
    split <;> rfl
  refine ⟨h.buffer i k, h1, y, h2, fun hl => ⟨(h3 hl).1, (h3 hl).2, ?_⟩, fun he => ⟨(h4 he).1, (h4 he).2, ?_⟩⟩
  · rw [ho, if_neg (by omega)]
  · rw [ho]
    cases hq : x.queue with
    | nil => simp
    | cons a l => rw [← hq, if_pos ⟨by rw [hq]; simp, by omega⟩, if_neg (by rw [hq]; simp)]

/-- A full array of four updates: they are sent first. -/
example : let s := { Demo.start with ifaces := [{ Demo.iface 10 with queue := [Demo.key 1, Demo.key 2, Demo.key 3, Demo.key 4], queueCap := 4 }] }
    let t := bufferUpdate Demo.cfg s 10 (Demo.key 5)
    (getIf t 10).map (·.queue) = some [Demo.key 5] ∧ t.out.length = 4 := by
  decide +kernel

/-- An interface that is up, on which nothing is queued, in a state that the daemon reaches.  A wildcard update, of
the destinations with a source prefix (`ss`) or of those without, fits in the array: nothing is sent before everything is queued. -/
theorem C85_wild {c : Cfg} {now : Timeval} {q : UInt16} {ifs : List Iface} {nc : NeighId → Nat} {rnd : Nat → Nat} {kr : Nat → KRes}
    (h : ∀ x ∈ ifs, x.queue = [] ∧ x.queueCap = 0) (evs : List Ev) {s : St} (hs : s = run c (St.init now q ifs nc rnd kr) evs) {i : IfId} {x : Iface}
    (hx : getIf s i = some x) (hu : x.up = true) (hq : x.queue = []) (urgent ss : Bool) :
    (sendUpdateWild c s i urgent ss).out = s.out ∧
    (getIf (sendUpdateWild c s i urgent ss) i).map (·.queue) =
      some (s.xroutes.map (·.key) ++ (inUse s).filter (fun k => k.isSS == ss)) := by
  have hr : Room s := fun j y hy => by
    subst hs
    have := C85_room (s := St.init now q ifs nc rnd kr) h evs hy
    exact ⟨this.1, this.2.1⟩
  have hi : Inv c s [] := by rw [hs]; exact (Inv.init c now q ifs nc rnd kr).run evs
  have hf := Filling.wild hi.lst hx hu hr hq ((hr i x hx).2 hq) urgent ss
  obtain ⟨y, h1, -, -, h2, -⟩ := hf.here
  exact ⟨hf.out, by rw [h1, Option.map_some, h2]; rfl⟩

/-- A full update, in the same conditions.  If at most four routes are redistributed, or if what is queued fits in a packet, nothing is sent
before everything is queued.  The redistributed routes are queued twice. -/
theorem C85_full {c : Cfg} {now : Timeval} {q : UInt16} {ifs : List Iface} {nc : NeighId → Nat} {rnd : Nat → Nat} {kr : Nat → KRes}
    (h : ∀ x ∈ ifs, x.queue = [] ∧ x.queueCap = 0) (evs : List Ev) {s : St} (hs : s = run c (St.init now q ifs nc rnd kr) evs) {i : IfId} {x : Iface}
    (hx : getIf s i = some x) (hu : x.up = true) (hq : x.queue = []) (urgent : Bool)
    (hf : s.xroutes.length ≤ 4 ∨ 2 * s.xroutes.length + (inUse s).length ≤ x.bufSize / 16) :
    (step c s (.fullUpdate i urgent)).out = s.out ∧
    (getIf (step c s (.fullUpdate i urgent)) i).map (·.queue) =
      some (s.xroutes.map (·.key) ++ (inUse s).filter (fun k => !k.isSS) ++ s.xroutes.map (·.key) ++ (inUse s).filter (fun k => k.isSS)) := by
  have hr : Room s := fun j y hy => by
    subst hs
    have := C85_room (s := St.init now q ifs nc rnd kr) h evs hy
    exact ⟨this.1, this.2.1⟩
  have hi : Inv c s [] := by rw [hs]; exact (Inv.init c now q ifs nc rnd kr).run evs
  have hf := Filling.full hi.lst hx hu hr hq ((hr i x hx).2 hq) urgent hf
  obtain ⟨y, h1, -, -, h2, -⟩ := hf.here
  exact ⟨hf.out, (congrArg (Option.map (·.queue)) h1).trans (congrArg some h2)⟩

/-- `n` redistributed routes and a route of a neighbour, on an interface whose packets hold 448 octets. -/
def Demo.exporting (n : Nat) : St :=
  run Demo.cfg (St.init ⟨1000, 0⟩ 5 [{ Demo.iface 10 with bufSize := 448 }] (fun _ => 96) (fun i => i) (fun _ => .ok))
    ((List.range n).map (fun i => .kernelRoute true ⟨Demo.key (UInt8.ofNat i), 0, 30, 4⟩) ++
      [.update (some (Demo.rid 9)) (Demo.key 200) 7 200 400 2 (some (Demo.ll 1)), .flushUpdates 10])

example : let s := Demo.exporting 13
    (getIf s 10).map (fun x => (x.up, x.queue, x.queueCap, x.bufSize / 16)) = some (true, [], 0, 28) ∧
    s.xroutes.length = 13 ∧ inUse s = [Demo.key 200] ∧
    (getIf (step Demo.cfg s (.fullUpdate 10 false)) 10).map (·.queue.length) = some 27 := by decide +kernel

/-- With more redistributed routes, a full update is not held: since the redistributed routes are queued twice, the queue is full before the
routes with a source prefix are queued, and is sent at once. -/
theorem C85_full_false : let s := Demo.exporting 16
    (getIf s 10).map (fun x => (x.up, x.queue, x.queueCap)) = some (true, [], 0) ∧
    (inUse s).length = 1 ∧ s.xroutes.length = 16 ∧
    (step Demo.cfg s (.fullUpdate 10 false)).out.length = s.out.length + 17 := by
  decide +kernel

end Babel
