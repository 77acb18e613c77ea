import Verif.Lemmas.Pending
import Verif.Lemmas.Demo
/-
C86: no update waits for ever.
-/
set_option linter.unusedSimpArgs false
set_option linter.unusedVariables false
namespace Babel
open Spec

/-- Whatever happens to a daemon that starts with empty queues, if the clock does not go back: an interface on which updates wait is up, and
the timer at which they are sent is set, and at most 6250 ms ahead. -/
theorem C86_pending {c : Cfg} {s : St} (h : ∀ x ∈ s.ifaces, x.queue = [] ∧ TvOk x.updateFlush) (hn : TvOk s.now) (hp : 0 < s.now.sec)
    (evs : List Ev) (hf : Forward s.now evs) {i : IfId} {x : Iface} (hx : getIf (run c s evs) i = some x) :
    Pending (run c s evs).now x := by
  have h0 : Timely s.now nowhere nowhere s :=
    ⟨rfl, hn, hp, fun j y hy => ⟨(h y (getIf_mem hy).2).2, False.elim, fun _ hq => absurd (h y (getIf_mem hy).2).1 hq⟩⟩
  intro hq
  obtain ⟨h1, h2⟩ := ((h0.run (c := c) evs hf).on i x hx).2.2 id hq
  exact ⟨h1 id, h2⟩

/-- What `send_update` does to a timer that is set: it is left alone, or it is set anew, in which case what remains of it grows by a quarter
at most. -/
theorem C86_postponed {s : St} (hn : TvOk s.now) {x : Iface} (hx : getIf s x.ifindex = some x) (ht : TvOk x.updateFlush)
    (h0 : x.updateFlush.sec ≠ 0) (hl : micros s.now ≤ micros x.updateFlush) (urgent : Bool) :
    ∃ t, getIf (scheduleUpdateFlush s x.ifindex urgent) x.ifindex = some { x with updateFlush := t } ∧
      (t = x.updateFlush ∨ 4 * (micros t - micros s.now) < 5 * (micros x.updateFlush - micros s.now + 1000)) := by
  unfold scheduleUpdateFlush
  rw [hx]
  simp only
  split
  · exact ⟨x.updateFlush, by unfold getIf popRand; exact hx, .inl rfl⟩
  · next hk =>
    refine ⟨setTimeout s.now (popRand (popRand s).2).1 (updateJitter (popRand s).1 x.helloInterval urgent), ?_, .inr ?_⟩
    · rw [getIf_modIf _ _ _ (by intro; rfl), if_pos rfl, show getIf (popRand (popRand s).2).2 x.ifindex = some x from hx]
      rfl
    generalize (popRand (popRand s).2).1 = r'
    generalize (popRand s).1 = r at hk
    have hb := jitter_bound r x.helloInterval urgent
    generalize updateJitter r x.helloInterval urgent = j at hk hb
    have hr := roughly_nonneg r' j hb.1
    have ha := (C03_add_msec_exact s.now (roughly r' j) hn hr.2.2).1
    have hm := C03_minus_msec x.updateFlush s.now ht hn
    have hj : j ≤ timevalMinusMsec x.updateFlush s.now := by
      by_cases e : (timevalMinusMsec x.updateFlush s.now : Int) < j
      · exact absurd ⟨h0, e⟩ hk
      · omega
    have h5 : j ≤ 5000 := by
      have := hb.2.1
      cases urgent <;> simp at this <;> omega
    unfold setTimeout
    rw [ha]
    by_cases hs : x.updateFlush.sec - s.now.sec ≤ 2000000
    · have := (hm.2.1 hl hs).2
      omega
    · unfold micros TvOk at *
      omega

/-- Two requests, one of them a second after the other: the queue is not empty and its timer is that which was set at first. -/
def Demo.waiting : List Ev := [.routeRequest 1 (Demo.key 1), .tick ⟨1001, 0⟩, .routeRequest 1 (Demo.key 2)]

example : (∀ x ∈ Demo.start.ifaces, x.queue = [] ∧ x.updateFlush = ⟨0, 0⟩) ∧
    (getIf (run Demo.cfg Demo.start Demo.waiting) 10).map (fun x => (x.queue, x.updateFlush)) =
      (getIf (run Demo.cfg Demo.start (Demo.waiting.take 1)) 10).map (fun x => (x.queue ++ [Demo.key 2], x.updateFlush)) := by
  decide +kernel

example : Forward Demo.start.now Demo.waiting := ⟨⟨by decide, by decide⟩, by decide +kernel, trivial⟩


/-- Random numbers that are as bad as can be. -/
def Demo.unlucky : St := { Demo.start with rand := fun i => if i % 2 = 0 then 1999 else 2498 }

/-- A neighbour asks for the route every second. -/
def Demo.asking (n : Nat) : List Ev :=
  (List.range n).flatMap (fun i : Nat => [Ev.tick ⟨1000 + (i : Nat), 0⟩, .routeRequest 1 (Demo.key (if i = 0 then 1 else 2))])

/-- The hypotheses of `C86_postponed` are met: a second later the timer is set anew, a second later. -/
example : let s := run Demo.cfg Demo.unlucky (Demo.asking 1 ++ [.tick ⟨1001, 0⟩])
    (getIf s 10).map (fun x => (x.ifindex, x.updateFlush)) = some (10, ⟨1006, 247000⟩) ∧
    (getIf (scheduleUpdateFlush s 10 false) 10).map (·.updateFlush) = some ⟨1007, 247000⟩ := by decide +kernel

/-- This timer alone does not bound the time for which an update waits: the one that is queued at time 1000 is still in the queue a minute later, since the
timer is set anew each time that the neighbour asks for another route. -/
theorem C86_wait_false : Forward Demo.unlucky.now (Demo.asking 61) ∧
    (getIf (run Demo.cfg Demo.unlucky (Demo.asking 1)) 10).map (·.queue) = some [Demo.key 1] ∧
    (run Demo.cfg Demo.unlucky (Demo.asking 61)).now = ⟨1060, 0⟩ ∧
    (run Demo.cfg Demo.unlucky (Demo.asking 61)).out = Demo.unlucky.out ∧
    (getIf (run Demo.cfg Demo.unlucky (Demo.asking 61)) 10).map (fun x => (x.queue.head?, x.updateFlush)) =
      some (some (Demo.key 1), ⟨1066, 247000⟩) := by
  refine ⟨?_, by decide +kernel⟩
  have h : ∀ (l : List Nat) (k : Nat → PKey) (t : Timeval), l.Pairwise (· ≤ ·) → (∀ i ∈ l, micros t ≤ micros ⟨1000 + (i : Nat), 0⟩) →
      Forward t (l.flatMap (fun i : Nat => [Ev.tick ⟨1000 + (i : Nat), 0⟩, .routeRequest 1 (k i)])) := by
    intro l k
    induction l with
    | nil => intro _ _ _; trivial
    | cons i l ih =>
      intro t hp ht
      rw [List.pairwise_cons] at hp
      refine ⟨⟨Int.le_refl 0, show (0 : Int) < 1000000 by decide⟩, ht i (List.mem_cons_self ..), ih _ hp.2 (fun j hj => ?_)⟩
      have := hp.1 j hj
      unfold micros
      show (1000 + (i : Int)) * 1000000 + 0 ≤ (1000 + (j : Int)) * 1000000 + 0
      omega
  refine h _ (fun i => Demo.key (if i = 0 then 1 else 2)) _ (List.pairwise_le_range ..) (fun i _ => ?_)
  show (1000 : Int) * 1000000 + 0 ≤ (1000 + (i : Int)) * 1000000 + 0
  omega

end Babel
