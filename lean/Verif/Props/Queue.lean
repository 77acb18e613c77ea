import Verif.Lemmas.Queue
import Verif.Props.Util
/-
C40 queued updates, C47 split horizon.
-/
set_option linter.unusedSimpArgs false
set_option linter.unusedVariables false
namespace Babel
open Spec

theorem Reachable.linv_take {c : Cfg} {s : St} (h : Reachable c s) : LInv c ({ s with out := [] } : St).routes :=
  h.inv.lst

/-- C40: when the queue of an interface that is up is flushed, exactly the announcements of the queued
destinations are sent, each with the state at that time; a destination is announced at most as often as it
was queued, and only once unless it has neither a redistributed route nor a selected route that may be
announced on the interface. -/
theorem C40_flush {c : Cfg} {s : St} (h : Reachable c s) {i : IfId} {ifp : Iface} (hi : getIf s i = some ifp)
    (hup : ifp.up = true) :
    ∃ L : List PKey, (sent c s (.flushUpdates i)).reverse = L.filterMap (announcement c s ifp) ∧
      (∀ k, k ∈ L ↔ k ∈ ifp.queue) ∧ (∀ k, L.count k ≤ ifp.queue.count k) ∧
      (∀ k, Known c s ifp k → L.count k ≤ 1) := by
  have he := (getIf_mem hi).1
  subst he
  obtain ⟨-, -, -, L, h1, h2⟩ := flushUpdates_spec (c := c) (s := { s with out := [] }) h.inv.lst (ifp := ifp) hi
  refine ⟨L, ?_, h2⟩
  show (flushUpdates c { s with out := [] } ifp.ifindex).out.reverse = _
  rw [h1, hup]
  simp
  rfl

/-- C40: every queued destination about which something may be said on the interface is announced, and
nothing else is. -/
theorem C40_flush_iff {c : Cfg} {s : St} (h : Reachable c s) {i : IfId} {ifp : Iface} (hi : getIf s i = some ifp)
    (hup : ifp.up = true) (o : Out) :
    o ∈ sent c s (.flushUpdates i) ↔ ∃ k ∈ ifp.queue, announcement c s ifp k = some o := by
  obtain ⟨L, h1, h2, -⟩ := C40_flush h hi hup
  rw [← List.mem_reverse, h1, List.mem_filterMap]
  simp only [h2]

/-- C40: nothing is sent on an interface that is down. -/
theorem C40_down {c : Cfg} {s : St} (h : Reachable c s) {i : IfId} {ifp : Iface} (hi : getIf s i = some ifp)
    (hup : ifp.up = false) : sent c s (.flushUpdates i) = [] := by
  have he := (getIf_mem hi).1
  subst he
  obtain ⟨-, -, -, L, h1, h2⟩ := flushUpdates_spec (c := c) (s := { s with out := [] }) h.inv.lst (ifp := ifp) hi
  show (flushUpdates c { s with out := [] } ifp.ifindex).out = _
  rw [h1, hup]
  rfl

/-- C40: after a flush the queue is empty and no flush is scheduled; the other interfaces, the routes and the
redistributed routes are unchanged. -/
theorem C40_emptied {c : Cfg} {s : St} (h : Reachable c s) {i : IfId} {ifp : Iface} (hi : getIf s i = some ifp) :
    (∃ x, getIf (step c s (.flushUpdates i)) i = some x ∧ x.queue = [] ∧ x.updateFlush = ⟨0, 0⟩) ∧
    (∀ j, j ≠ i → getIf (step c s (.flushUpdates i)) j = getIf s j) ∧
    (step c s (.flushUpdates i)).routes = s.routes ∧ (step c s (.flushUpdates i)).xroutes = s.xroutes := by
  have he := (getIf_mem hi).1
  subst he
  obtain ⟨h1, h2, h3, -⟩ := flushUpdates_spec (c := c) (s := s) h.inv.lst (ifp := ifp) hi
  exact ⟨⟨_, h2, rfl, rfl⟩, h3, h1.routes, h1.xroutes⟩

/-- C40: asking for an update about `k` on an interface that is up queues it, and loses nothing that was queued
before: it is still queued, or it has been announced as it should be (the queue was full). -/
theorem C40_queued {c : Cfg} {s : St} (h : Reachable c s) {i : IfId} {ifp : Iface} (hi : getIf s i = some ifp)
    (hup : ifp.up = true) (urgent : Bool) (k : PKey) :
    ∃ x, getIf (sendUpdateIf c s i urgent k) i = some x ∧ k ∈ x.queue ∧
      ((∀ k' ∈ ifp.queue, k' ∈ x.queue) ∨
       (∀ k' ∈ ifp.queue, ∀ o, announcement c s ifp k' = some o → o ∈ (sendUpdateIf c s i urgent k).out)) ∧
      (∀ k' ∈ x.queue, k' = k ∨ k' ∈ ifp.queue) ∧
      (∀ j, j ≠ i → getIf (sendUpdateIf c s i urgent k) j = getIf s j) := by
  have he := (getIf_mem hi).1
  subst he
  have hu : ifUp s ifp.ifindex = true := by unfold ifUp; rw [hi]; exact hup
  unfold sendUpdateIf
  rw [hu]
  simp only [Bool.not_true, Bool.false_eq_true, if_false]
  obtain ⟨h1, h2, x, hx, hk, -, hxi, -, hcase⟩ := bufferUpdate_spec h.inv.lst hi k
  rw [← hxi] at hx
  have h5 := schedule_spec hx urgent
  rw [hxi] at h5
  obtain ⟨-, ho, h6, t, h7, -⟩ := h5
  refine ⟨_, h7, hk, ?_, ?_, fun j hj => (h6 j hj).trans (h2 j hj)⟩
  · rcases hcase with ⟨e, -, -⟩ | ⟨e, -, eo⟩
    · left
      intro k' hk'
      show k' ∈ x.queue
      rw [e]; simp [hk']
    · right
      intro k' hk' o ho'
      rw [ho, eo]
      obtain ⟨-, -, -, L, g1, g2, -⟩ := flushUpdates_spec (c := c) h.inv.lst hi
      rw [g1, hup]
      simp only [if_true, List.mem_append, List.mem_reverse, List.mem_filterMap]
      exact .inl ⟨k', (g2 k').2 hk', ho'⟩
  · intro k' hk'
    have : k' ∈ x.queue := hk'
    rcases hcase with ⟨e, -, -⟩ | ⟨e, -, -⟩ <;> rw [e] at this <;> simp at this
    · exact this.symm
    · exact .inl this

/-- `send_update` for one interface schedules the flush. -/
theorem sendIf_scheduled {c : Cfg} {s : St} (hl : LInv c s.routes) (hnow : TvOk s.now) {i : IfId} {ifp : Iface}
    (hi : getIf s i = some ifp) (hup : ifp.up = true) (urgent : Bool) (k : PKey) :
    ∃ x, getIf (sendUpdateIf c s i urgent k) i = some x ∧
      timevalMinusMsec x.updateFlush s.now ≤ if urgent then 157 else 6250 := by
  have he := (getIf_mem hi).1
  subst he
  have hu : ifUp s ifp.ifindex = true := by unfold ifUp; rw [hi]; exact hup
  unfold sendUpdateIf
  rw [hu]
  simp only [Bool.not_true, Bool.false_eq_true, if_false]
  obtain ⟨h1, h2, x, hx, hk, -, hxi, -, hcase⟩ := bufferUpdate_spec hl hi k
  rw [← hxi] at hx
  have h5 := schedule_spec hx urgent
  rw [hxi] at h5
  obtain ⟨-, ho, h6, t, h7, h8⟩ := h5
  refine ⟨_, h7, ?_⟩
  show timevalMinusMsec t s.now ≤ _
  generalize hj : updateJitter ((bufferUpdate c s ifp.ifindex k).rand 0) x.helloInterval urgent = j at h8
  have hb := jitter_bound ((bufferUpdate c s ifp.ifindex k).rand 0) x.helloInterval urgent
  rw [hj] at hb
  rw [h1.now] at h8
  rcases h8 with ⟨-, -, h8⟩ | h8
  · cases urgent <;> simp at hb ⊢ <;> omega
  · unfold setTimeout at h8
    generalize (bufferUpdate c s ifp.ifindex k).rand 1 = r at h8
    have hr := roughly_nonneg r j hb.1
    have hadd := C03_add_msec_exact s.now (roughly r j) hnow hr.2.2
    rw [← h8] at hadd
    have hm := C03_minus_msec t s.now hadd.2 hnow
    have hlt : roughly r j ≤ 6250 := by
      have := hb.2.1
      cases urgent <;> simp at this <;> omega
    have hsec : t.sec - s.now.sec ≤ 2000000 := by
      have h1 := hadd.1
      have h2 := hadd.2
      unfold micros TvOk at *
      omega
    have := (hm.2.1 (by rw [hadd.1]; omega) hsec).2
    rw [hadd.1] at this
    have h9 := hb.2.1
    cases urgent <;> simp at h9 ⊢ <;> omega

/-- C40: a requested update will be sent soon: the flush is scheduled at most 6250 ms later, at most 157 ms
later if it is urgent. -/
theorem C40_scheduled {c : Cfg} {s : St} (h : Reachable c s) (hnow : TvOk s.now) {i : IfId} {ifp : Iface}
    (hi : getIf s i = some ifp) (hup : ifp.up = true) (urgent : Bool) (k : PKey) :
    ∃ x, getIf (sendUpdateIf c s i urgent k) i = some x ∧
      timevalMinusMsec x.updateFlush s.now ≤ if urgent then 157 else 6250 :=
  sendIf_scheduled h.inv.lst hnow hi hup urgent k

/-- C40: the same destination may be announced several times if it has no route: it is queued twice and
retracted twice. -/
example : let s := run Demo.cfg Demo.start [.routeRequest 1 (Demo.key 1), .routeRequest 1 (Demo.key 2), .routeRequest 1 (Demo.key 1)]
    sent Demo.cfg s (.flushUpdates 10) =
      [.update 10 (Demo.rid 1) (Demo.key 2) 5 65535, .update 10 (Demo.rid 1) (Demo.key 1) 5 65535,
       .update 10 (Demo.rid 1) (Demo.key 1) 5 65535] := by
  decide +kernel

/-- A selected route queued three times is announced once. -/
example : let s := run Demo.cfg Demo.start (Demo.evs ++ [.routeRequest 1 (Demo.key 1), .routeRequest 1 (Demo.key 2), .routeRequest 1 (Demo.key 1)])
    sent Demo.cfg s (.flushUpdates 10) =
      [.update 10 (Demo.rid 9) (Demo.key 1) 7 246, .update 10 (Demo.rid 1) (Demo.key 2) 5 65535] := by
  decide +kernel

/-! ### C47 -/

/-- C47: an update sent on an interface with split horizon on, about a destination which is not redistributed
by this router, is a retraction, or the selected route goes through another interface. -/
theorem C47_on {c : Cfg} {s : St} (h : Reachable c s) {i : IfId} {ifp : Iface} (hi : getIf s i = some ifp)
    (hsh : ifp.splitHorizon = true) {id : Bytes} {k : PKey} {q : UInt16} {m : Nat}
    (hs : Out.update i id k q m ∈ sent c s (.flushUpdates i)) :
    (∃ x ∈ s.xroutes, x.key = k ∧ id = c.myid) ∨
    (∃ r ∈ s.routes, r.key = k ∧ r.installed = true ∧ c.ifOf r.neigh ≠ i) ∨
    ((∀ r ∈ s.routes, r.key = k → r.installed = false) ∧ id = c.myid ∧ m = INFINITY) := by
  cases hup : ifp.up with
  | false => rw [C40_down h hi hup] at hs; simp at hs
  | true =>
    obtain ⟨k', hk', ha⟩ := (C40_flush_iff h hi hup _).1 hs
    have he := (getIf_mem hi).1
    subst he
    unfold announcement at ha
    split at ha
    · simp at ha
    · next id' q' m' hn =>
      split at ha
      · simp at ha
      · simp only [Option.some.injEq, Out.update.injEq, true_and] at ha
        obtain ⟨rfl, rfl, rfl, rfl⟩ := ha
        unfold news at hn
        split at hn
        · next x hx =>
          left
          unfold ownRoute exported at hx
          have h1 := (Option.filter_eq_some_iff.1 hx).1
          have h2 := List.find?_some h1
          simp at hn h2
          exact ⟨x, List.mem_of_find?_eq_some h1, h2, hn.1.symm⟩
        · next r hx hr =>
          right; left
          have h3 := (findInstalled_iff h.inv.lst).1 (by rw [selected_eq h.inv.lst]; exact hr)
          split at hn
          · simp at hn
          · next hsp =>
            refine ⟨r, h3.1, h3.2.1, h3.2.2, ?_⟩
            unfold splitHorizon at hsp
            simpa [hsh] using hsp
        · next hx hr =>
          right; right
          simp at hn
          refine ⟨?_, hn.1.symm, ?_⟩
          · intro r hr' hk
            cases hri : r.installed with
            | false => rfl
            | true =>
              have := (findInstalled_iff h.inv.lst).2 ⟨hr', hk, hri⟩
              rw [selected_eq h.inv.lst, hr] at this
              simp at this
          · rw [← hn.2.2]; omega

/-- C47: with split horizon off, a queued selected route is announced on the interface it was learned from, unless
the announcement is barred. -/
theorem C47_off {c : Cfg} {s : St} (h : Reachable c s) {i : IfId} {ifp : Iface} (hi : getIf s i = some ifp)
    (hup : ifp.up = true) (hsh : ifp.splitHorizon = false) {r : Route} (hr : r ∈ s.routes) (hin : r.installed = true)
    (hx : ∀ x ∈ s.xroutes, x.key ≠ r.key) (hq : r.key ∈ ifp.queue) (hb : Barred c ifp r.id r.key = false) :
    Out.update i r.id r.key r.seqno (min (routeMetric r + c.outputFilter (some r.id) r.key i) INFINITY) ∈
      sent c s (.flushUpdates i) := by
  refine (C40_flush_iff h hi hup _).2 ⟨r.key, hq, ?_⟩
  have he := (getIf_mem hi).1
  subst he
  have h1 : ownRoute c s r.key = none := by
    unfold ownRoute exported
    rw [List.find?_eq_none.2]
    · rfl
    · intro x hx'; simpa using hx x hx'
  have h2 : selectedRoute s r.key = some r := by
    rw [← selected_eq h.inv.lst]
    exact (findInstalled_iff h.inv.lst).2 ⟨hr, rfl, hin⟩
  have hn := news_route (ifp := ifp) h1 h2
  have h3 : splitHorizon c ifp r = false := by unfold splitHorizon; rw [hsh]; rfl
  rw [h3] at hn
  simp at hn
  unfold announcement
  rw [hn]
  simp [hb]

/-- Split horizon on interface 20 only: the route through neighbour 2 is announced on interface 10 but not on
interface 20. -/
def shStart : St := { Demo.start with ifaces := [Demo.iface 10, { Demo.iface 20 with splitHorizon := true }] }

example : let s := run Demo.cfg shStart [.update (some (Demo.rid 9)) (Demo.key 1) 7 150 400 2 (some (Demo.ll 2))]
    sent Demo.cfg s (.flushUpdates 10) = [.update 10 (Demo.rid 9) (Demo.key 1) 7 246] ∧
    sent Demo.cfg s (.flushUpdates 20) = [] ∧ ((getIf s 20).map (·.queue)) = some [Demo.key 1] := by
  decide +kernel

end Babel
