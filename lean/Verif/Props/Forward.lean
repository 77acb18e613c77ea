import Verif.Props.Requests
import Verif.Props.Choice
import Verif.Props.Queue
/-
C36 forwarding of requests, C39 redundant requests.
-/
set_option linter.unusedSimpArgs false
set_option linter.unusedVariables false
namespace Babel
open Spec

/-! ### C39 -/

theorem redundant_iff (s : St) (i : IfId) (k : PKey) (q : UInt16) (id : Bytes) :
    requestRedundant s i k q id = true ↔ Redundant s i k q id := by
  unfold requestRedundant Redundant
  rw [pending_eq]
  cases hp : pending s .request k with
  | none => simp
  | some r =>
    have hk : r.kind = .request := by
      have := List.find?_some hp
      simp at this; exact this.1
    simp only [Option.some.injEq, exists_eq_left']
    have e1 : resendExpired s.now r = decide (¬ timevalMinusMsec s.now r.time < 65000) := by
      unfold resendExpired; rw [hk]; simp [REQUEST_TIMEOUT]
    rw [e1]
    have e3 : (r.id = id ∧ seqnoCompare r.seqno q > 0) ↔ (r.id = id ∧ NewerEq r.seqno q) := by rw [seqnoCompare_pos]
    unfold getIf
    by_cases h1 : timevalMinusMsec s.now r.time < 65000
    · simp only [h1, not_true_eq_false, decide_false, Bool.false_eq_true, if_false, true_and]
      by_cases h2 : r.id = id ∧ NewerEq r.seqno q
      · rw [if_pos (e3.2 h2)]; simp [h2]
      · rw [if_neg (fun g => h2 (e3.1 g))]
        by_cases h3 : r.ifp ≠ none ∧ r.ifp ≠ some i
        · rw [if_pos h3]
          simp only [Bool.false_eq_true, false_iff]
          intro h; rcases h.2.1 with h | h
          · exact h3.1 h
          · exact h3.2 h
        · rw [if_neg h3]
          have h4 : r.ifp = none ∨ r.ifp = some i := by
            by_cases e : r.ifp = none
            · exact .inl e
            · by_cases e' : r.ifp = some i
              · exact .inr e'
              · exact absurd ⟨e, e'⟩ h3
          by_cases h5 : r.max > 0
          · rw [if_pos h5]; simp [h2, h4]; omega
          · rw [if_neg h5]
            have : ¬ 0 < r.max := by omega
            simp only [decide_eq_true_eq, this, false_or, h2, h4, not_false_eq_true, true_and]
            rfl
    · simp [h1]

/-- What happens to a request that is neither answered nor implausible nor redundant. -/
theorem handle_eq {c : Cfg} {s : St} (h : LInv c s.routes) (n : NeighId) (k : PKey) (hop : Nat) (q : UInt16) (id : Bytes) :
    (Answerable c s k q id → (handleRequest c s n k hop q id = answerOwn c s n k hop q id ∨
        handleRequest c s n k hop q id = sendUpdateIf c s (c.ifOf n) true k)) ∧
    (¬ Answerable c s k q id → (hop ≤ 1 ∨ FarAhead s k q id ∨ Redundant s (c.ifOf n) k q id) →
        handleRequest c s n k hop q id = s) ∧
    (¬ Answerable c s k q id → ¬ (hop ≤ 1 ∨ FarAhead s k q id ∨ Redundant s (c.ifOf n) k q id) →
        handleRequest c s n k hop q id =
          forwardRequest c (chooseSuccessor c s n k (selectedRoute s k)).2 n k hop q id
            (chooseSuccessor c s n k (selectedRoute s k)).1) := by
  unfold handleRequest
  rw [preferred_eq h, selected_eq h]
  cases ho : ownRoute c s k with
  | some x =>
    have ha : Answerable c s k q id := .inl ⟨x, ho⟩
    exact ⟨fun _ => .inl rfl, fun g => absurd ha g, fun g => absurd ha g⟩
  | none =>
    simp only
    have e1 : answersRequest (selectedRoute s k) q id = true ↔ Answerable c s k q id := by
      unfold answersRequest Answerable
      rw [ho]
      cases hs : selectedRoute s k with
      | none => simp
      | some r =>
        simp only [Bool.or_eq_true, bne_iff_ne, decide_eq_true_eq, Option.some.injEq, exists_eq_left', reduceCtorEq,
          exists_false, false_or]
        rw [← seqnoCompare_pos]
        constructor
        · rintro (h | h)
          · exact .inl (Ne.symm h)
          · exact .inr (by omega)
        · rintro (h | h)
          · exact .inl (Ne.symm h)
          · exact .inr (by omega)
    have e2 : ¬ Answerable c s k q id → (requestTooFar (selectedRoute s k) q id = true ↔ FarAhead s k q id) := by
      intro hna
      unfold requestTooFar FarAhead
      cases hs : selectedRoute s k with
      | none => simp
      | some r =>
        have hne : r.id = id ∧ NewerEq q r.seqno := by
          have : ¬ (r.id ≠ id ∨ ¬ NewerEq q r.seqno) := fun g => hna (.inr ⟨r, hs, g⟩)
          simp only [not_or, Decidable.not_not] at this
          exact ⟨this.1, this.2⟩
        simp only [Bool.and_eq_true, beq_iff_eq, decide_eq_true_eq, Option.some.injEq, exists_eq_left', hne.1, true_and]
        have := hne.2
        unfold NewerEq at this
        unfold seqnoMinus toShort
        split <;> omega
    by_cases ha : Answerable c s k q id
    · rw [if_pos (e1.2 ha)]
      exact ⟨fun _ => .inr rfl, fun g => absurd ha g, fun g => absurd ha g⟩
    · rw [if_neg (fun g => ha (e1.1 g))]
      refine ⟨fun g => absurd g ha, fun _ hb => ?_, fun _ hb => ?_⟩
      · by_cases h1 : hop ≤ 1
        · rw [if_pos h1]
        · rw [if_neg h1]
          by_cases h2 : FarAhead s k q id
          · rw [if_pos ((e2 ha).2 h2)]
          · rw [if_neg (fun g => h2 ((e2 ha).1 g)), if_pos]
            rw [redundant_iff]
            rcases hb with hb | hb | hb
            · exact absurd hb h1
            · exact absurd hb h2
            · exact hb
      · simp only [not_or] at hb
        rw [if_neg hb.1, if_neg (fun g => hb.2.1 ((e2 ha).1 g)), if_neg]
        intro g
        exact hb.2.2 ((redundant_iff ..).1 g)

/-- C39: a seqno request is suppressed as redundant exactly in the situation described by `Redundant`; nothing
happens then. -/
theorem C39_redundant {c : Cfg} {s : St} (h : Reachable c s) (n : NeighId) (k : PKey) (hop : Nat) (q : UInt16) (id : Bytes)
    (ha : ¬ Answerable c s k q id) (hr : Redundant s (c.ifOf n) k q id) :
    step c s (.seqnoRequest n k hop q id) = s :=
  (handle_eq h.inv.lst n k hop q id).2.1 ha (.inr (.inr hr))

/-- C39: a request is suppressed only if a request for the same destination was recorded in the last 65 s, and not
by a request for a newer sequence number of the same origin. -/
theorem C39_only {s : St} {i : IfId} {k : PKey} {q : UInt16} {id : Bytes} (hr : Redundant s i k q id) :
    ∃ r ∈ s.resends, r.kind = .request ∧ r.key = k ∧ timevalMinusMsec s.now r.time < 65000 ∧ (r.id = id → ¬ NewerEq r.seqno q) := by
  obtain ⟨r, h1, h2, h3, -⟩ := hr
  have hm := List.mem_of_find?_eq_some h1
  have := List.find?_some h1
  simp at this
  exact ⟨r, hm, this.1, this.2, h2, fun e g => h3 ⟨e, g⟩⟩

/-! ### C36 -/

theorem Fines.no_mh {c : Cfg} {s t : St} (h : Fines c ⟨fun _ _ _ _ _ => False, True⟩ s t) {i : IfId} {to : Option NeighId}
    {k : PKey} {q : UInt16} {id : Bytes} {hop : Nat} (ho : Out.mhRequest i to k q id hop ∈ t.out) :
    Out.mhRequest i to k q id hop ∈ s.out := by
  obtain ⟨new, e, hn⟩ := h.mhs
  rw [e] at ho
  rcases List.mem_append.1 ho with ho | ho
  · exact (hn _ ho).elim
  · exact ho

theorem choose_frame (c : Cfg) (s : St) (n : NeighId) (k : PKey) (route : Option Route) :
    ∃ rs g, (chooseSuccessor c s n k route).2 = { s with routes := rs, rand := g } := by
  unfold chooseSuccessor
  have hp := C28_search_is_pure c s k false (some n)
  obtain ⟨rs, g, e, -⟩ := hp
  simp only
  split
  · split
    · next hb => rw [hb] at e; exact ⟨rs, g, e⟩
    · next hb => rw [hb] at e; split <;> exact ⟨rs, g, e⟩
  · exact ⟨s.routes, s.rand, rfl⟩

/-- The neighbour to which a request is forwarded has a finite route. -/
theorem choose_route {c : Cfg} {s : St} (h : Reachable c s) (n m : NeighId) (k : PKey)
    (hm : (chooseSuccessor c s n k (selectedRoute s k)).1 = some m) :
    ∃ r ∈ s.routes, r.key = k ∧ r.neigh = m ∧ routeMetric r < INFINITY ∧
      (selectedRoute s k = some r ∨
        (s.now.sec ≤ r.time + r.holdTime ∧ ∀ r', selectedRoute s k = some r' → routeMetric r' < INFINITY → r'.neigh = n)) := by
  have hsel : ∀ m, routeSuccessor (selectedRoute s k) = some m → ∃ r ∈ s.routes, r.key = k ∧ r.neigh = m ∧ routeMetric r < INFINITY ∧
      (selectedRoute s k = some r ∨
        (s.now.sec ≤ r.time + r.holdTime ∧ ∀ r', selectedRoute s k = some r' → routeMetric r' < INFINITY → r'.neigh = n)) := by
    intro m hm
    unfold routeSuccessor at hm
    cases hs : selectedRoute s k with
    | none => rw [hs] at hm; cases hm
    | some r =>
      rw [hs] at hm
      simp only at hm
      split at hm
      · next hl =>
        cases hm
        have h1 := List.mem_of_find?_eq_some hs
        have h2 := List.find?_some hs
        simp at h2
        exact ⟨r, h1, h2.1, rfl, hl, .inl rfl⟩
      · cases hm
  unfold chooseSuccessor at hm
  simp only at hm
  split at hm
  · next hc =>
    split at hm
    · exact hsel m hm
    · next b s1 hb =>
      split at hm
      · exact hsel m hm
      · next r hr =>
        split at hm
        · next hl =>
          simp only [Option.some.injEq] at hm
          obtain ⟨rb, hrb, hex, -⟩ := acceptable_spec (findBest_acceptable hb)
          rw [hr] at hrb
          cases hrb
          have hfr := findBest_frame hb
          obtain ⟨r', hr', e⟩ := hfr.route_inv hr
          obtain ⟨g1, g2, g3⟩ := findRoute_mem hr'
          have hn : r.neigh = r'.neigh := (congrArg (fun x : Route => x.neigh) e :)
          have ht : r.time = r'.time := (congrArg (fun x : Route => x.time) e :)
          have hh : r.holdTime = r'.holdTime := (congrArg (fun x : Route => x.holdTime) e :)
          have hm' : routeMetric r = routeMetric r' := (congrArg (fun x : Route => routeMetric x) e :)
          refine ⟨r', g1, g2, hn.symm.trans hm, hm' ▸ hl, .inr ⟨?_, ?_⟩⟩
          · rw [← ht, ← hh, ← hfr.now]
            unfold routeExpired at hex
            simp at hex
            omega
          · intro r2 h2 hl2
            unfold routeSuccessor at hc
            rw [h2] at hc
            simp only [if_pos hl2, reduceCtorEq, false_or, Option.some.injEq] at hc
            exact hc
        · exact hsel m hm
  · exact hsel m hm

/-- C36: a request is forwarded at most to one neighbour, not the one it came from, with the hop count reduced by
one but not to zero; and only if it cannot be answered, is plausible and not redundant, and the neighbour announces
a route to the destination. -/
theorem C36_forwarded_only {c : Cfg} {s : St} (h : Reachable c s) {n : NeighId} {k : PKey} {hop : Nat} {q : UInt16} {id : Bytes}
    {i : IfId} {to : Option NeighId} {k' : PKey} {q' : UInt16} {id' : Bytes} {hop' : Nat}
    (ho : Out.mhRequest i to k' q' id' hop' ∈ sent c s (.seqnoRequest n k hop q id)) :
    k' = k ∧ q' = q ∧ id' = id ∧ hop' + 1 = hop ∧ 1 ≤ hop' ∧
    ¬ Answerable c s k q id ∧ ¬ FarAhead s k q id ∧ ¬ Redundant s (c.ifOf n) k q id ∧
    ∃ m, to = some m ∧ m ≠ n ∧ i = c.ifOf m ∧
      ∃ r ∈ s.routes, r.key = k ∧ r.neigh = m ∧ routeMetric r < INFINITY ∧
      (selectedRoute s k = some r ∨
        (s.now.sec ≤ r.time + r.holdTime ∧ ∀ r', selectedRoute s k = some r' → routeMetric r' < INFINITY → r'.neigh = n)) := by
  have h0 : Reachable c { s with out := [] } := h.take
  obtain ⟨e1, e2, e3⟩ := handle_eq h0.inv.lst n k hop q id
  have ho : Out.mhRequest i to k' q' id' hop' ∈ (handleRequest c { s with out := [] } n k hop q id).out := ho
  have hq : ∀ s' : St, Softs c none ⟨fun _ _ _ _ _ => False, True⟩ { s with out := [] } s' →
      Out.mhRequest i to k' q' id' hop' ∈ s'.out → False := by
    intro s' hs hm
    have := hs.fine.no_mh hm
    cases this
  by_cases ha : Answerable c { s with out := [] } k q id
  · exfalso
    rcases e1 ha with e | e <;> rw [e] at ho
    · exact hq _ (soft_answerOwn ..) ho
    · exact hq _ (Soft.sendIf ..).one ho
  · by_cases hb : hop ≤ 1 ∨ FarAhead { s with out := [] } k q id ∨ Redundant { s with out := [] } (c.ifOf n) k q id
    · exfalso
      rw [e2 ha hb] at ho
      cases ho
    · rw [e3 ha hb] at ho
      simp only [not_or] at hb
      unfold forwardRequest at ho
      obtain ⟨rs, g, e⟩ := choose_frame c { s with out := [] } n k (selectedRoute { s with out := [] } k)
      cases hm : (chooseSuccessor c { s with out := [] } n k (selectedRoute { s with out := [] } k)).1 with
      | none => rw [hm] at ho; simp only at ho; rw [e] at ho; cases ho
      | some m =>
        rw [hm] at ho
        simp only at ho
        split at ho
        · rw [e] at ho; cases ho
        · next hmn =>
          rw [(record_fields ..).2.2] at ho
          unfold sendUnicastMh sendMh at ho
          have hfl : ∀ s' : St, s'.out = [] → Out.mhRequest i to k' q' id' hop' ∈ (flushUpdates c s' (c.ifOf m)).out → False := by
            intro s' e' h'
            have := (fine_flush (P := ⟨fun _ _ _ _ _ => False, True⟩) s' (c.ifOf m)).no_mh h'
            rw [e'] at this
            cases this
          split at ho
          · exact (hfl _ (by rw [e]) ho).elim
          · have : Out.mhRequest i to k' q' id' hop' ∈ Out.mhRequest (c.ifOf m) (some m) k q id (hop - 1) ::
                (flushUpdates c (chooseSuccessor c { s with out := [] } n k (selectedRoute { s with out := [] } k)).2 (c.ifOf m)).out := ho
            rcases List.mem_cons.1 this with e' | h'
            · simp only [Out.mhRequest.injEq] at e'
              obtain ⟨rfl, rfl, rfl, rfl, rfl, rfl⟩ := e'
              refine ⟨rfl, rfl, rfl, by omega, by omega, ha, hb.2.1, hb.2.2, m, rfl, hmn, rfl, ?_⟩
              exact choose_route h0 n m k' hm
            · exact (hfl _ (by rw [e]) h').elim

/-- C36: only one copy of a request is forwarded. -/
theorem C36_once {c : Cfg} {s : St} (h : Reachable c s) (n : NeighId) (k : PKey) (hop : Nat) (q : UInt16) (id : Bytes) :
    ((sent c s (.seqnoRequest n k hop q id)).filter (fun o => match o with | .mhRequest .. => true | _ => false)).length ≤ 1 := by
  have h0 : Reachable c { s with out := [] } := h.take
  obtain ⟨e1, e2, e3⟩ := handle_eq h0.inv.lst n k hop q id
  have hq : ∀ (s0 s' : St), s0.out = [] → Fines c ⟨fun _ _ _ _ _ => False, True⟩ s0 s' →
      s'.out.filter (fun o => match o with | .mhRequest .. => true | _ => false) = [] := by
    intro s0 s' e hs
    rw [List.filter_eq_nil_iff]
    intro o ho hm
    cases o <;> first | cases hm | skip
    have := hs.no_mh ho
    rw [e] at this
    cases this
  show ((handleRequest c { s with out := [] } n k hop q id).out.filter _).length ≤ 1
  by_cases ha : Answerable c { s with out := [] } k q id
  · rcases e1 ha with e | e <;> rw [e, hq _ _ _ _]
    · simp
    · exact { s with out := [] }
    · rfl
    · exact (soft_answerOwn (w := none) ..).fine
    · simp
    · exact { s with out := [] }
    · rfl
    · exact (Soft.sendIf (w := none) ..).one.fine
  · by_cases hb : hop ≤ 1 ∨ FarAhead { s with out := [] } k q id ∨ Redundant { s with out := [] } (c.ifOf n) k q id
    · rw [e2 ha hb]; simp
    · rw [e3 ha hb]
      unfold forwardRequest
      obtain ⟨rs, g, e⟩ := choose_frame c { s with out := [] } n k (selectedRoute { s with out := [] } k)
      rw [e]
      split
      · simp
      · split
        · simp
        · next m _ _ =>
          rw [(record_fields ..).2.2]
          unfold sendUnicastMh sendMh
          split
          · rw [hq { s with out := [], routes := rs, rand := g } _ rfl (fine_flush ..)]; simp
          · show ((_ :: (flushUpdates c _ (c.ifOf m)).out).filter _).length ≤ 1
            rw [List.filter_cons_of_pos rfl, hq { s with out := [], routes := rs, rand := g } _ rfl (fine_flush ..)]
            simp

/-- C36: a request that cannot be answered, is plausible and not redundant is forwarded to the next hop of the
selected route, unless it came from there or has no hops left. -/
theorem C36_forwarded {c : Cfg} {s : St} (h : Reachable c s) {n : NeighId} {k : PKey} {hop : Nat} {q : UInt16} {id : Bytes}
    (ha : ¬ Answerable c s k q id) (hf : ¬ FarAhead s k q id) (hr : ¬ Redundant s (c.ifOf n) k q id) (hh : 2 ≤ hop)
    {r : Route} (hs : selectedRoute s k = some r) (hm : routeMetric r < INFINITY) (hn : r.neigh ≠ n)
    (hb : ssBlocked s (c.ifOf r.neigh) k = false) :
    Out.mhRequest (c.ifOf r.neigh) (some r.neigh) k q id (hop - 1) ∈ sent c s (.seqnoRequest n k hop q id) := by
  have h0 : Reachable c { s with out := [] } := h.take
  obtain ⟨-, -, e3⟩ := handle_eq h0.inv.lst n k hop q id
  show _ ∈ (handleRequest c { s with out := [] } n k hop q id).out
  rw [e3 ha (by simp only [not_or]; exact ⟨by omega, hf, hr⟩)]
  have hs' : selectedRoute { s with out := [] } k = some r := hs
  have hc : chooseSuccessor c { s with out := [] } n k (selectedRoute { s with out := [] } k) = (some r.neigh, { s with out := [] }) := by
    unfold chooseSuccessor routeSuccessor
    rw [hs']
    simp only [if_pos hm, reduceCtorEq, Option.some.injEq, hn, false_or, if_false]
  rw [hc]
  unfold forwardRequest
  simp only
  rw [if_neg hn, (record_fields ..).2.2]
  unfold sendUnicastMh sendMh
  have hc := (fine_flush (c := c) (P := ⟨fun _ _ _ _ _ => True, True⟩) { s with out := [] } (c.ifOf r.neigh)).conf
  rw [conf_ss hc]
  have hb' : ssBlocked { s with out := [] } (c.ifOf r.neigh) k = false := hb
  rw [hb']
  exact List.mem_cons_self

/-- C36: no request ever leaves this router with another hop count than 127, except one that is forwarded, which has
one hop less than it had when received; a request received with hop count 0 or 1 goes no further. -/
theorem C36_hops {c : Cfg} {s : St} (h : Reachable c s) {ev : Ev} {i : IfId} {to : Option NeighId} {k : PKey} {q : UInt16}
    {id : Bytes} {hop : Nat} (ho : Out.mhRequest i to k q id hop ∈ sent c s ev) :
    hop = 127 ∨ ∃ n, ev = .seqnoRequest n k (hop + 1) q id ∧ 1 ≤ hop ∧ to ≠ some n := by
  by_cases e : ∃ n k' hop' q' id', ev = .seqnoRequest n k' hop' q' id'
  · obtain ⟨n, k', hop', q', id', rfl⟩ := e
    obtain ⟨rfl, rfl, rfl, rfl, h1, -, -, -, m, rfl, h2, -⟩ := C36_forwarded_only h ho
    exact .inr ⟨n, rfl, h1, by simpa using h2⟩
  · left
    have hF : ∀ s' : St, Fines c ⟨fun _ _ _ _ h => h = 127, True⟩ { s with out := [] } s' →
        Out.mhRequest i to k q id hop ∈ s'.out → hop = 127 := by
      intro s' hs hm
      obtain ⟨new, e, hn⟩ := hs.mhs
      rw [e, List.append_nil] at hm
      exact hn _ hm
    haveI : Perm.Full (⟨fun _ _ _ _ h => h = 127, True⟩ : Perm) := { mh := fun _ _ _ _ => rfl, recs := trivial }
    have ho : Out.mhRequest i to k q id hop ∈ (step c { s with out := [] } ev).out := ho
    cases hsp : Ev.special ev with
    | false =>
      refine hF _ (soft_step (P := ⟨fun _ _ _ _ h => h = 127, True⟩) { s with out := [] } ev hsp ?_).fine ho
      intro n k h q id e'
      exact absurd ⟨n, k, h, q, id, e'⟩ e
    | true =>
      cases ev <;> first | cases hsp | skip
      · cases ho
      · obtain ⟨new, e, hn⟩ := (ifDown_fines (P := ⟨fun _ _ _ _ h => h = 127, True⟩) c { s with out := [] } _).mhs
        rw [e] at ho
        rcases List.mem_append.1 ho with ho | ho
        · exact hn _ ho
        · cases ho
      · obtain ⟨new, e, hn⟩ := (ifUp_fines (P := ⟨fun _ _ _ _ h => h = 127, True⟩) c { s with out := [] } _ _).mhs
        rw [e] at ho
        rcases List.mem_append.1 ho with ho | ho
        · exact hn _ ho
        · cases ho
      · have : (expireResend { s with out := [] }).out = [] := by unfold expireResend; split <;> rfl
        have ho : Out.mhRequest i to k q id hop ∈ (expireResend { s with out := [] }).out := ho
        rw [this] at ho
        cases ho
      · obtain ⟨r, -, -, -, -, -, h127⟩ := C38_only_due h ho
        exact h127

/-- The journey of a forwarded request: each router in turn receives it with some hop count, in any state, and
sends it on. -/
inductive Journey (k : PKey) (q : UInt16) (id : Bytes) : Nat → List NeighId → Prop
  | done (hop) : Journey k q id hop []
  | hop {c : Cfg} {s : St} {n m : NeighId} {i : IfId} {hop hop' : Nat} {l} : Reachable c s →
      Out.mhRequest i (some m) k q id hop' ∈ sent c s (.seqnoRequest n k hop q id) → Journey k q id hop' l →
      Journey k q id hop (m :: l)

/-- C36: however the network looks like, a request travels at most as far as its hop count says. -/
theorem C36_finite {k : PKey} {q : UInt16} {id : Bytes} {hop : Nat} {l : List NeighId} (h : Journey k q id hop l) :
    l.length ≤ hop - 1 := by
  induction h with
  | done => simp
  | hop hr ho _ ih =>
    obtain ⟨-, -, -, h1, h2, -⟩ := C36_forwarded_only hr ho
    simp only [List.length_cons]
    omega

/-- C36: a request that can be answered is answered: an update is queued on the interface it came from. -/
theorem C36_answered {c : Cfg} {s : St} (h : Reachable c s) {n : NeighId} {k : PKey} {hop : Nat} {q : UInt16} {id : Bytes}
    (ha : Answerable c s k q id) (hd : ¬ (0 < hop ∧ id = c.myid ∧ 100 < (q - s.myseqno).toNat ∧ (q - s.myseqno).toNat < 32768))
    (hu : ifUp s (c.ifOf n) = true) :
    ∃ x, getIf (step c s (.seqnoRequest n k hop q id)) (c.ifOf n) = some x ∧ k ∈ x.queue := by
  have key : ∀ s : St, LInv c s.routes → ifUp s (c.ifOf n) = true →
      ∃ x, getIf (sendUpdateIf c s (c.ifOf n) true k) (c.ifOf n) = some x ∧ k ∈ x.queue := by
    intro s hl hu
    unfold sendUpdateIf
    rw [hu]
    simp only [Bool.not_true, Bool.false_eq_true, if_false]
    unfold ifUp at hu
    cases hi : getIf s (c.ifOf n) with
    | none => rw [hi] at hu; cases hu
    | some ifp =>
      have he := (getIf_mem hi).1
      have hi' := hi
      rw [← he] at hi'
      obtain ⟨h1, h2, x, hx, hk, -, hxi, -, hcase⟩ := bufferUpdate_spec hl hi' k
      rw [← hxi] at hx
      have h5 := schedule_spec hx true
      rw [hxi, he] at h5
      obtain ⟨-, ho, h6, t, h7, -⟩ := h5
      exact ⟨_, h7, hk⟩
  show ∃ x, getIf (handleRequest c s n k hop q id) (c.ifOf n) = some x ∧ k ∈ x.queue
  rcases (handle_eq h.inv.lst n k hop q id).1 ha with e | e
  · rw [e]
    unfold answerOwn
    split
    · next hc =>
      split
      · next h100 =>
        exfalso
        refine hd ⟨hc.1, hc.2.1, ?_⟩
        have h1 := hc.2.2
        rw [seqnoCompare_pos] at h1
        unfold NewerEq at h1
        unfold seqnoMinus toShort at h100
        split at h100 <;> omega
      · exact key _ h.inv.lst hu
    · exact key _ h.inv.lst hu
  · rw [e]; exact key _ h.inv.lst hu

namespace Demo36
open Demo

/-- The selected route through neighbour 1 is lost; the route through neighbour 2 is unfeasible. -/
def lost : List Ev :=
  [.update (some (rid 9)) (key 1) 7 200 400 1 (some (ll 1)), .flushUpdates 10, .flushUpdates 20,
   .update (some (rid 9)) (key 1) 7 600 400 2 (some (ll 2)), .flushNeigh 1]

theorem reachable_lost : Reachable cfg (run cfg start lost) := reachable_run (.init ..) _

end Demo36

open Demo in
/-- A request for a newer sequence number than the one of the selected route is forwarded to its next hop; a request with
hop count 1 is dropped; a request from the next hop itself is not sent back. -/
example : let s := run cfg start [.update (some (rid 9)) (key 1) 7 200 400 1 (some (ll 1)), .flushUpdates 10, .flushUpdates 20]
    sent cfg s (.seqnoRequest 2 (key 1) 64 8 (rid 9)) = [.mhRequest 10 (some 1) (key 1) 8 (rid 9) 63] ∧
    sent cfg s (.seqnoRequest 2 (key 1) 1 8 (rid 9)) = [] ∧
    sent cfg s (.seqnoRequest 1 (key 1) 64 8 (rid 9)) = [] ∧
    sent cfg s (.seqnoRequest 2 (key 1) 64 108 (rid 9)) = [] := by
  decide +kernel

open Demo in
/-- Part of C36 that is false: a router forwards requests that are destined to itself, when it has neither a
redistributed nor a selected route to the destination. -/
theorem C36_own_request_forwarded : ∃ s, Reachable cfg s ∧
    Out.mhRequest 20 (some 2) (key 1) 6 cfg.myid 63 ∈ sent cfg s (.seqnoRequest 1 (key 1) 64 6 cfg.myid) :=
  ⟨_, Demo36.reachable_lost, by decide +kernel⟩

open Demo in
/-- Part of C36 that is false: if this router was itself asking for the destination, then a request to be forwarded
takes the place of its own, and is sent again with hop count 127, although it was received with hop count 2, and on all
interfaces, including the one it came from. -/
theorem C36_resent_far : ∃ s, Reachable cfg s ∧
    Out.mhRequest 20 (some 2) (key 1) 20 (rid 9) 1 ∈ sent cfg s (.seqnoRequest 1 (key 1) 2 20 (rid 9)) ∧
    Out.mhRequest 10 none (key 1) 20 (rid 9) 127 ∈
      sent cfg (run cfg s [.seqnoRequest 1 (key 1) 2 20 (rid 9), .tick ⟨1003, 0⟩]) .doResend :=
  ⟨_, Demo36.reachable_lost, by decide +kernel, by decide +kernel⟩

open Demo in
/-- C39 as it would be expected is false: after a request for seqno 8, a request for seqno 9 of the same router is
suppressed, although it is not implied by the first one. -/
theorem C39_newer_suppressed : ∃ s, Reachable cfg s ∧
    Out.mhRequest 10 (some 1) (key 1) 8 (rid 9) 63 ∈ sent cfg s (.seqnoRequest 2 (key 1) 64 8 (rid 9)) ∧
    sent cfg (step cfg s (.seqnoRequest 2 (key 1) 64 8 (rid 9))) (.seqnoRequest 2 (key 1) 64 9 (rid 9)) = [] :=
  ⟨run cfg start [.update (some (rid 9)) (key 1) 7 200 400 1 (some (ll 1)), .flushUpdates 10, .flushUpdates 20],
    reachable_run (.init ..) _, by decide +kernel, by decide +kernel⟩

open Demo in
/-- C39 as it would be expected is false: after a request for seqno 9, a request for seqno 8 of the same router is
forwarded, although it is implied by the first one. -/
theorem C39_older_forwarded : ∃ s, Reachable cfg s ∧
    Out.mhRequest 10 (some 1) (key 1) 9 (rid 9) 63 ∈ sent cfg s (.seqnoRequest 2 (key 1) 64 9 (rid 9)) ∧
    Out.mhRequest 10 (some 1) (key 1) 8 (rid 9) 63 ∈
      sent cfg (step cfg s (.seqnoRequest 2 (key 1) 64 9 (rid 9))) (.seqnoRequest 2 (key 1) 64 8 (rid 9)) :=
  ⟨run cfg start [.update (some (rid 9)) (key 1) 7 200 400 1 (some (ll 1)), .flushUpdates 10, .flushUpdates 20],
    reachable_run (.init ..) _, by decide +kernel, by decide +kernel⟩

end Babel
