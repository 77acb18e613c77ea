import Verif.Lemmas.Lost4
import Verif.Lemmas.Asked
import Verif.Lemmas.Trigger
import Verif.Lemmas.Demo
import Verif.Props.Choice
/-
C32: losing or changing a route is announced.
-/
set_option linter.unusedSimpArgs false
set_option linter.unusedVariables false
namespace Babel
open Spec

/-- C32: when a destination that could be reached cannot be reached after an event, then for every interface that is
up, the destination is queued for an update or was retracted during the event.  The destination is one that is not
redistributed and may be announced on the interface; the event is not an update about it on that interface itself
(if split horizon is used), the activation of the interface, a change of the redistributed routes or the shutdown. -/
theorem C32_lost {c : Cfg} {s : St} (h : Reachable c s) {i : IfId} {k : PKey} (hx : exported s k = none)
    (ha : Announceable c s i k) {ev : Ev} (hs : ¬ Ev.outOfScope i ev)
    (hh : ∀ ifp, getIf s i = some ifp → ifp.splitHorizon = true → ¬ Ev.heardOn c i k ev)
    (h0 : origin s k ≠ none) (h1 : origin (after c s ev) k = none)
    {ifp : Iface} (hi : getIf (after c s ev) i = some ifp) (hup : ifp.up = true) :
    k ∈ ifp.queue ∨ ∃ o, lastUpdate i k (sent c s ev) = some o ∧ originOf o = none := by
  have he : Env c i k { s with out := [] } := ⟨h.inv.lst, hx, ⟨ha.free, ha.horizon⟩⟩
  rcases j_step (v := fun _ => []) (e := False) he ev hs hh with ⟨-, -, h2⟩ | ⟨id', q, refm, int, n, nh, r, -, -, h3⟩
  · have hg := h2 (.inr fun hc => by
      cases ho : origin s k with
      | none => exact h0 ho
      | some a =>
        obtain ⟨b, hb, -⟩ := hc a ho
        rw [show step c { s with out := [] } ev = after c s ev from rfl, h1] at hb
        cases hb)
    rcases hg ifp hi hup with h3 | ⟨h3, h4⟩
    · exact .inl h3
    · right
      rcases h3 with h3 | h3
      · obtain ⟨o, ho⟩ := Option.isSome_iff_exists.1 h3
        refine ⟨o, ho, ?_⟩
        cases hoo : originOf o with
        | none => rfl
        | some a =>
          obtain ⟨b, hb, -⟩ := h4 a (by unfold advertised; rw [ho]; exact hoo)
          rw [show step c { s with out := [] } ev = after c s ev from rfl, h1] at hb
          cases hb
      · exact h3.elim
  · exact absurd rfl h3.2.2.1

/-- C32: the same for a change of originator; the last update that was sent during the event names the new
originator, or is a retraction.  This excludes one case: a neighbour gives the selected route the originator of
another route, to which the daemon switches during the same event (`C32_unannounced`). -/
theorem C32_origin {c : Cfg} {s : St} (h : Reachable c s) {i : IfId} {k : PKey} (hx : exported s k = none)
    (ha : Announceable c s i k) {ev : Ev} (hs : ¬ Ev.outOfScope i ev)
    (hh : ∀ ifp, getIf s i = some ifp → ifp.splitHorizon = true → ¬ Ev.heardOn c i k ev)
    (hsw : ∀ id q refm int n nh r x, ev = .update (some id) k q refm int n nh → r ∈ s.routes → r.key = k → r.neigh = n →
      r.installed = true → selectedRoute (after c s ev) k = some x → x.neigh ≠ n → x.id = id → id = r.id)
    {a : Bytes} (h0 : origin s k = some a) (h1 : origin (after c s ev) k ≠ some a)
    {ifp : Iface} (hi : getIf (after c s ev) i = some ifp) (hup : ifp.up = true) :
    k ∈ ifp.queue ∨ ∃ o, lastUpdate i k (sent c s ev) = some o ∧
      (originOf o = none ∨ originOf o = origin (after c s ev) k) := by
  have he : Env c i k { s with out := [] } := ⟨h.inv.lst, hx, ⟨ha.free, ha.horizon⟩⟩
  rcases j_step (v := id) (e := False) he ev hs hh with ⟨-, -, h2⟩ | ⟨id', q, refm, int, n, nh, r, h3, h4, h5⟩
  · have hg := h2 (.inr fun hc => by
      obtain ⟨b, hb, e⟩ := hc a h0
      cases e
      exact h1 hb)
    rcases hg ifp hi hup with h3 | ⟨h3, h4⟩
    · exact .inl h3
    · right
      rcases h3 with h3 | h3
      · obtain ⟨o, ho⟩ := Option.isSome_iff_exists.1 h3
        refine ⟨o, ho, ?_⟩
        cases hoo : originOf o with
        | none => exact .inl rfl
        | some a =>
          obtain ⟨b, hb, e⟩ := h4 a (by unfold advertised; rw [ho]; exact hoo)
          cases e
          exact .inr hb.symm
      · exact h3.elim
  · exfalso
    obtain ⟨hl, -, hne, hri, x, hx, hxn, hxid⟩ := h5
    obtain ⟨hrm, hrk, hrn⟩ := findRoute_mem h4
    rw [selected_eq hl] at hx
    exact hne (hsw id' q refm int n nh r x h3 hrm hrk hrn hri hx hxn hxid)

/-- C32: whatever happens, the neighbours on an interface are not left believing in a destination that cannot be
reached: if they were last told that it can be reached, then it can be, or an update is queued. -/
theorem C32_believed {c : Cfg} {s : St} (h : Reachable c s) {i : IfId} {k : PKey} (hx : exported s k = none)
    (ha : Announceable c s i k) (h0 : advertised i k s.out = none) (evs : List Ev) (hs : ∀ ev ∈ evs, ¬ Ev.outOfScope i ev)
    (hh : (∀ ifp, getIf s i = some ifp → ifp.splitHorizon = false) ∨ ∀ ev ∈ evs, ¬ Ev.heardOn c i k ev)
    {ifp : Iface} (hi : getIf (run c s evs) i = some ifp) (hup : ifp.up = true) :
    k ∈ ifp.queue ∨ advertised i k (run c s evs).out = none ∨ origin (run c s evs) k ≠ none := by
  have he : Env c i k s := ⟨h.inv.lst, hx, ha⟩
  have hg : GoodAt (fun _ => []) True i k s := fun ifp _ _ => .inr ⟨.inr trivial, fun a ha => by rw [h0] at ha; cases ha⟩
  clear h0 h hx ha
  have key : GoodAt (fun _ => []) True i k (run c s evs) := by
    unfold run
    induction evs generalizing s with
    | nil => exact hg
    | cons ev evs ih =>
      have hh' : ∀ ifp, getIf s i = some ifp → ifp.splitHorizon = true → ¬ Ev.heardOn c i k ev := by
        intro ifp hg hsp
        rcases hh with hh | hh
        · rw [hh ifp hg] at hsp; cases hsp
        · exact hh ev (.head _)
      rcases j_step (v := fun _ => []) (e := True) he ev (hs ev (.head _)) hh' with
        ⟨h1, hsh, h2⟩ | ⟨id', q, refm, int, n, nh, r, -, -, h3⟩
      · refine ih (fun ev h => hs ev (.tail _ h)) ?_ hi h1 (h2 (.inl hg))
        rcases hh with hh | hh
        · left
          intro x hx
          obtain ⟨y, hy, e⟩ := hsh x hx
          rw [e]; exact hh y hy
        · exact .inr fun ev h => hh ev (.tail _ h)
      · exact absurd rfl h3.2.2.1
  rcases key ifp hi hup with h1 | ⟨-, h1⟩
  · exact .inl h1
  · right
    cases ho : advertised i k (run c s evs).out with
    | none => exact .inl rfl
    | some a =>
      obtain ⟨b, hb, -⟩ := h1 a ho
      exact .inr (by rw [hb]; simp)

/-- C32: what the daemon does when the selected route to `k` has changed, and had metric `m` and source `src`
before: if the change is notable, then the neighbours on all interfaces have been told about it or will be when the
queue is flushed, which is within 157 ms if the change is pressing; otherwise nothing is done. -/
theorem C32_triggered {c : Cfg} {s : St} (h : Reachable c s) (hn : TvOk s.now) {r : Route} (hr : r ∈ s.routes)
    (hri : r.installed = true) (src : SKey) (m : Nat) :
    (Notable s r src m → ∀ i, UpToDate c (sendTriggeredUpdate c s r.key r.neigh src m) i r.key) ∧
    (Pressing s r src m → ∀ i, SoonSent (sendTriggeredUpdate c s r.key r.neigh src m) i r.key) ∧
    (¬ Notable s r src m → sendTriggeredUpdate c s r.key r.neigh src m = s) := by
  have hl := h.inv.lst
  obtain ⟨h1, h2, h3⟩ := triggerUrgency_iff s r src m
  have hf := findRoute_of_mem hl hr
  unfold sendTriggeredUpdate
  rw [hf]
  simp only [hri, Bool.not_true, Bool.false_eq_true, if_false]
  cases ht : triggerUrgency s r src m with
  | none =>
    rw [ht] at h1 h2
    refine ⟨fun h => absurd rfl (h1.1 h), fun h => ?_, fun _ => rfl⟩
    obtain ⟨u, hu, -⟩ := h2.1 h
    cases hu
  | some u =>
    rw [ht] at h1 h2
    have hu := h3 u ht
    simp only
    refine ⟨fun _ i => ?_, fun hp i => ?_, fun h => absurd (h1.2 (by simp)) h⟩
    · have key : ∀ s', Quiet c s s' → UpToDate c s' i r.key → UpToDate c
          (if m < INFINITY ∧ routeMetric r ≥ m + 288 then sendMulticastRequest c s' (some r.key) else s') i r.key := by
        intro s' hq h
        split
        · exact (quiet_mrequest (hq.linv hl) _).upToDate h
        · exact h
      by_cases hu2 : u ≥ 2
      · rw [if_pos hu2]; exact key _ (quiet_sendUpdateResend hl _).1 ((quiet_sendUpdateResend hl _).2 i)
      · rw [if_neg hu2]; exact key _ (quiet_sendUpdate hl _ _).1 ((quiet_sendUpdate hl _ _).2 i)
    · obtain ⟨v, hv, hv1⟩ := h2.1 hp
      cases hv
      have key : ∀ s', Quiet c s s' → SoonSent s' i r.key → SoonSent
          (if m < INFINITY ∧ routeMetric r ≥ m + 288 then sendMulticastRequest c s' (some r.key) else s') i r.key := by
        intro s' hq h
        split
        · exact soon_mrequest (hq.linv hl) _ h
        · exact h
      by_cases hu2 : u ≥ 2
      · rw [if_pos hu2]; exact key _ (quiet_sendUpdateResend hl _).1 (soon_resend hl hn i _)
      · rw [if_neg hu2]
        have : u = 1 := by omega
        subst this
        exact key _ (quiet_sendUpdate hl _ _).1 (soon_sendUpdate hl hn i _)

/-- C32: when the selected route to a destination is removed while its metric is at most 32767, and no other route
is usable, then a sequence number that makes a route feasible is asked for: a route that is usable except that it is
not feasible determines the neighbour that is asked; if there is none, all the interfaces are asked. -/
theorem C32_asked {c : Cfg} {s : St} (h : Reachable c s) {r : Route} (hr : r ∈ s.routes) (hri : r.installed = true)
    (hm : routeMetric r ≤ 32767)
    (hno : ∀ x ∈ s.routes, x.key = r.key → x.neigh ≠ r.neigh → ¬ Usable s true none x) :
    ∃ src, s.sources.find? (·.skey == r.skey) = some src ∧
      let q := if src.metric ≥ 65535 then src.seqno else src.seqno + 1
      let o := (flushRoute c s r.key r.neigh).out
      (∃ x ∈ s.routes, x.key = r.key ∧ x.neigh ≠ r.neigh ∧ Usable s false none x ∧
        ∀ ifp, getIf s (c.ifOf x.neigh) = some ifp → (r.key.isSS && ifp.rfc6126) = false →
        .mhRequest (c.ifOf x.neigh) (some x.neigh) r.key q r.id 127 ∈ o) ∨
      ((∀ x ∈ s.routes, x.key = r.key → x.neigh ≠ r.neigh → ¬ Usable s false none x) ∧
        ∀ i ifp, getIf s i = some ifp → ifp.up = true → (r.key.isSS && ifp.rfc6126) = false →
          .mhRequest i none r.key q r.id 127 ∈ o) := by
  obtain ⟨src, h1, h2⟩ := flushRoute_asked (c := c) h.inv hr hri hm (fun x hx hk hn => by
    cases hb : routeAcceptable s x true none with
    | false => rfl
    | true => exact absurd ((usable_iff ..).1 hb) (hno x hx hk hn))
  refine ⟨src, h1, ?_⟩
  have hq : requestSeqno src = if src.metric ≥ 65535 then src.seqno else src.seqno + 1 := by
    unfold requestSeqno INFINITY seqnoPlus
    split
    · rfl
    · apply UInt16.toNat.inj
      rw [UInt16.toNat_ofNat', UInt16.toNat_add]
      have := src.seqno.toNat_lt
      show _ = (src.seqno.toNat + 1) % 65536
      omega
  simp only
  rw [← hq]
  rcases h2 with ⟨x, hx, hk, hn, hu, ho⟩ | ⟨h3, h4⟩
  · exact .inl ⟨x, hx, hk, hn, (usable_iff ..).1 hu, ho⟩
  · refine .inr ⟨fun x hx hk hn hu => ?_, h4⟩
    have h5 := h3 x hx hk hn
    rw [(usable_iff ..).2 hu] at h5
    cases h5

/-! ### Cases -/

namespace Demo

/-- Neighbour 1 announces the prefix, originated by router 9; it is announced on both interfaces. -/
def told : St := run cfg start
  [.update (some (rid 9)) (key 1) 7 100 400 1 (some (ll 1)), .flushUpdates 10, .flushUpdates 20]

/-- As `told`, but neighbour 2 has a worse route to another originator. -/
def told2 : St := run cfg start
  [.update (some (rid 9)) (key 1) 7 100 400 1 (some (ll 1)),
   .update (some (rid 8)) (key 1) 7 300 400 2 (some (ll 2)), .flushUpdates 10, .flushUpdates 20]

/-- Neighbour 1 retracts its route. -/
def retraction : Ev := .update (some (rid 9)) (key 1) 7 65535 400 1 (some (ll 1))

/-- Neighbour 1 changes to the originator of the other route, with a larger metric. -/
def swap : Ev := .update (some (rid 8)) (key 1) 7 400 400 1 (some (ll 1))

example : exported told (key 1) = none ∧ origin told (key 1) = some (rid 9) ∧ advertised 20 (key 1) told.out = some (rid 9) ∧
    origin (after cfg told retraction) (key 1) = none ∧
    lastUpdate 20 (key 1) (sent cfg told retraction) = some (.update 20 (rid 9) (key 1) 7 65535) := by decide +kernel

/-- The hypotheses of `C32_lost` are met: `told` on interface 20. -/
theorem told_announceable : Announceable cfg told 20 (key 1) := by
  have e : (getIf told 20).map (fun x => (x.rfc6126, x.hasV4, x.v4viav6)) = some (false, true, false) := by decide +kernel
  have hr : told.routes.all (fun r => cfg.ifOf r.neigh != 20) = true := by decide +kernel
  refine ⟨fun ifp h id => ?_, fun ifp h hs r hr' hk => ?_⟩
  · rw [h] at e
    simp at e
    obtain ⟨e1, e2, e3⟩ := e
    unfold Barred
    simp [e1, e2, e3, cfg]
    decide
  · have := List.all_eq_true.1 hr r hr'
    simpa using this

example : ∃ o, lastUpdate 20 (key 1) (sent cfg told retraction) = some o ∧ originOf o = none := by
  cases hi : getIf (after cfg told retraction) 20 with
  | none => exact absurd hi (by decide +kernel)
  | some ifp =>
    have e : (getIf (after cfg told retraction) 20).map (fun x => (x.up, x.queue)) = some (true, []) := by decide +kernel
    rw [hi] at e
    simp at e
    have := C32_lost (c := cfg) (s := told) (reachable_run (.init ..) _) (i := 20) (k := key 1) (by decide +kernel)
      told_announceable (ev := retraction) (by simp [Ev.outOfScope, retraction])
      (fun _ _ _ h => absurd h.2 (by decide)) (by decide +kernel) (by decide +kernel) hi e.1
    rw [e.2] at this
    simpa using this

/-- Neighbours 1 and 2 announce the prefix; the route through neighbour 1 is selected, and announced with
metric 196; the route through neighbour 2, announced with metric 300, is not feasible. -/
def two : St := run cfg start
  [.update (some (rid 9)) (key 1) 7 100 400 1 (some (ll 1)), .flushUpdates 10, .flushUpdates 20,
   .update (some (rid 9)) (key 1) 7 300 400 2 (some (ll 2))]

/-- `C32_asked`: when the route through neighbour 1 is removed, neighbour 2 is asked for a newer sequence number. -/
example : two.routes.map (fun r => (r.neigh, r.installed, routeMetric r)) = [(1, true, 196), (2, false, 396)] ∧
    (.mhRequest 20 (some 2) (key 1) 8 (rid 9) 127) ∈ (flushRoute cfg two (key 1) 1).out ∧
    (two.routes.filter (fun x => x.neigh != 1)).all (fun x => !routeAcceptable two x true none) = true := by
  decide +kernel

/-- And if there is no other route, all the interfaces are asked. -/
example : (.mhRequest 20 none (key 1) 8 (rid 9) 127) ∈ (flushRoute cfg told (key 1) 1).out ∧
    (.mhRequest 10 none (key 1) 8 (rid 9) 127) ∈ (flushRoute cfg told (key 1) 1).out := by decide +kernel

/-- `C32_triggered`: a change that is not notable, and one that is pressing. -/
example (r : Route) (h : routeMetric r = 700) : (¬ Pressing told r r.skey 400 ∨ Answers told r) ∧ Pressing told r r.skey 100 := by
  unfold Pressing INFINITY
  rw [h]
  constructor
  · by_cases ha : Answers told r
    · exact .inr ha
    · left; rintro (h | h | h | h)
      · exact h rfl
      · omega
      · omega
      · exact ha h
  · exact .inr (.inr (.inl (by omega)))

end Demo

/-- C32: the case that is not announced: the selected route takes the originator of another route, the daemon
switches to that route, and the neighbours still believe in the old originator. -/
theorem C32_unannounced : ∃ (c : Cfg) (s : St) (ev : Ev) (i : IfId) (k : PKey) (a b : Bytes), Reachable c s ∧ a ≠ b ∧
    origin s k = some a ∧ advertised i k s.out = some a ∧ origin (step c s ev) k = some b ∧
    (∀ ifp, getIf (step c s ev) i = some ifp → ifp.up = true ∧ ifp.queue = []) ∧
    advertised i k (step c s ev).out = some a := by
  refine ⟨Demo.cfg, Demo.told2, Demo.swap, 20, Demo.key 1, Demo.rid 9, Demo.rid 8, Demo.reachable_run (.init ..) _,
    by decide, by decide +kernel, by decide +kernel, by decide +kernel, ?_, by decide +kernel⟩
  have : (getIf (step Demo.cfg Demo.told2 Demo.swap) 20).map (fun x => (x.up, x.queue)) = some (true, []) := by
    decide +kernel
  intro ifp h
  rw [h] at this
  simp at this
  exact this

end Babel
