import Verif.Model.Node
/-
Decomposition of every event of the daemon into elementary transitions.  Invariants are then proved
once for each elementary transition.
-/
set_option linter.unusedSimpArgs false
set_option linter.unusedVariables false
set_option linter.unusedSectionVars false
namespace Babel

/-- A route without its smoothed metric. -/
def Route.core (r : Route) : Route := { r with smoothed := 0, smoothedTime := 0 }

/-- Requests; the other outputs are the updates, the notifications and the warnings. -/
def Out.minor : Out → Bool
  | .request .. => true
  | .mhRequest .. => true
  | _ => false

/-- Only the update queues, the pending requests, smoothed metrics and the random generator
changed, and only requests were sent. -/
structure Frame (s s' : St) : Prop where
  now : s'.now = s.now
  myseqno : s'.myseqno = s.myseqno
  sources : s'.sources = s.sources
  xroutes : s'.xroutes = s.xroutes
  ncost : s'.ncost = s.ncost
  fib : s'.fib = s.fib
  kres : s'.kres = s.kres
  routes : s'.routes.map Route.core = s.routes.map Route.core
  out : s'.out.filter (fun o => !o.minor) = s.out.filter (fun o => !o.minor)

theorem Frame.refl (s : St) : Frame s s := ⟨rfl, rfl, rfl, rfl, rfl, rfl, rfl, rfl, rfl⟩

theorem Frame.trans {a b c : St} (h : Frame a b) (g : Frame b c) : Frame a c :=
  ⟨g.now.trans h.now, g.myseqno.trans h.myseqno, g.sources.trans h.sources,
   g.xroutes.trans h.xroutes, g.ncost.trans h.ncost, g.fib.trans h.fib, g.kres.trans h.kres,
   g.routes.trans h.routes, g.out.trans h.out⟩

/-- Transitions of the update queue: frame steps and announcements. -/
inductive QM (c : Cfg) : St → St → Prop
  | frame {s s'} : Frame s s' → QM c s s'
  /-- A redistributed route is announced. -/
  | own {s} (i : IfId) (x : Xroute) : findXroute s x.key = some x →
      QM c s (reallySend c s i c.myid x.key s.myseqno x.metric)
  /-- A destination without route is retracted. -/
  | retraction {s} (i : IfId) (k : PKey) : findXroute s k = none → findInstalled s k = none →
      QM c s (reallySend c s i c.myid k s.myseqno INFINITY)
  /-- A selected route is announced. -/
  | route {s} (i : IfId) (r : Route) : findInstalled s r.key = some r →
      horizonBlocked c s i r = false → preferredXroute c s r.key = none →
      QM c s (updateSource (reallySend c s i r.id r.key r.seqno (routeMetric r)) r.skey r.seqno
        (routeMetric r))

/-- Sequences of queue transitions. -/
inductive QMs (c : Cfg) : St → St → Prop
  | refl (s) : QMs c s s
  | step {s t u} : QMs c s t → QM c t u → QMs c s u

theorem QMs.trans {c : Cfg} {s t u : St} (h : QMs c s t) (g : QMs c t u) : QMs c s u := by
  induction g with
  | refl => exact h
  | step _ m ih => exact ih.step m

theorem QMs.one {c : Cfg} {s t : St} (h : QM c s t) : QMs c s t := (QMs.refl s).step h

theorem QMs.frame {c : Cfg} {s t : St} (h : Frame s t) : QMs c s t := .one (.frame h)

theorem QMs.foldl {α : Type} {c : Cfg} (f : St → α → St) (h : ∀ s a, QMs c s (f s a))
    (l : List α) (s : St) : QMs c s (l.foldl f s) := by
  induction l generalizing s with
  | nil => exact .refl s
  | cons a l ih => exact (h s a).trans (ih _)

/-! ### Frame lemmas -/

theorem frame_modIf (s : St) (i : IfId) (f : Iface → Iface) : Frame s (modIf s i f) :=
  ⟨rfl, rfl, rfl, rfl, rfl, rfl, rfl, rfl, rfl⟩

theorem frame_popRand (s : St) : Frame s (popRand s).2 :=
  ⟨rfl, rfl, rfl, rfl, rfl, rfl, rfl, rfl, rfl⟩

theorem frame_emit (s : St) (o : Out) (h : o.minor = true) : Frame s (emit s o) :=
  ⟨rfl, rfl, rfl, rfl, rfl, rfl, rfl, rfl, by simp [emit, h]⟩

theorem frame_recompute (s : St) : Frame s (recomputeResendTime s) :=
  ⟨rfl, rfl, rfl, rfl, rfl, rfl, rfl, rfl, rfl⟩

theorem frame_resends (s : St) (l : List Resend) : Frame s { s with resends := l } :=
  ⟨rfl, rfl, rfl, rfl, rfl, rfl, rfl, rfl, rfl⟩

theorem frame_armResend (s : St) (r : Resend) : Frame s (armResend s r) := by
  unfold armResend
  split
  · exact ⟨rfl, rfl, rfl, rfl, rfl, rfl, rfl, rfl, rfl⟩
  · exact .refl s

theorem frame_satisfy (s : St) (k : PKey) (q : UInt16) (id : Bytes) (i : Option IfId) :
    Frame s (satisfyRequest s k q id i) := by
  unfold satisfyRequest
  split
  · exact .refl s
  · split
    · exact .refl s
    · split
      · exact (frame_resends s _).trans (frame_recompute _)
      · exact .refl s

theorem frame_record (c : Cfg) (s : St) (kd : RKind) (k : PKey) (q : UInt16) (id : Option Bytes)
    (i : Option IfId) (d : Nat) : Frame s (recordResend c s kd k q id i d) := by
  unfold recordResend
  split
  · exact .refl s
  · split
    · simp only
      split
      · exact frame_resends s _
      · exact (frame_resends s _).trans (frame_armResend _ _)
    · exact (frame_resends s _).trans (frame_armResend _ _)

theorem frame_expireResend (s : St) : Frame s (expireResend s) := by
  unfold expireResend
  split
  · exact (frame_resends s _).trans (frame_recompute _)
  · exact .refl s

theorem frame_schedule (s : St) (i : IfId) (u : Bool) : Frame s (scheduleUpdateFlush s i u) := by
  unfold scheduleUpdateFlush
  split
  · exact .refl s
  · simp only
    split
    · exact frame_popRand s
    · exact ((frame_popRand s).trans (frame_popRand _)).trans (frame_modIf _ _ _)

theorem frame_sendRequest (s : St) (i : IfId) (to : Option NeighId) (k : Option PKey) :
    Frame s (sendRequest s i to k) := by
  unfold sendRequest
  split
  · exact frame_emit s _ rfl
  · split
    · exact .refl s
    · exact frame_emit s _ rfl

theorem frame_sendMh (s : St) (i : IfId) (to : Option NeighId) (k : PKey) (q : UInt16)
    (id : Bytes) (h : Nat) : Frame s (sendMh s i to k q id h) := by
  unfold sendMh
  split
  · exact .refl s
  · exact frame_emit s _ rfl

theorem core_flatModify (l : List Route) (k : PKey) (n : NeighId) (f : Route → Route)
    (h : ∀ r, (f r).core = r.core) : (flatModify l k n f).map Route.core = l.map Route.core := by
  simp only [flatModify, List.map_map]
  apply List.map_congr_left
  intro r _
  simp only [Function.comp]
  split
  · exact h r
  · rfl

theorem frame_smooth (c : Cfg) (s : St) (k : PKey) (n : NeighId) :
    Frame s (smoothRoute c s k n).2 := by
  unfold smoothRoute
  split
  · exact .refl s
  · exact ⟨rfl, rfl, rfl, rfl, rfl, rfl, rfl, core_flatModify _ _ _ _ (fun _ => rfl), rfl⟩

theorem frame_bestScan (c : Cfg) (k : PKey) (fe : Bool) (ex : Option NeighId) (l : List NeighId)
    (b : Option NeighId) (s : St) : Frame s (bestScan c k fe ex l b s).2 := by
  induction l generalizing b s with
  | nil => exact .refl s
  | cons n l ih =>
    simp only [bestScan]
    split
    · exact ih _ _
    · split
      · exact ih _ _
      · split
        · exact ih _ _
        · exact ((frame_smooth c s k n).trans (frame_smooth c _ k _)).trans (ih _ _)

theorem frame_findBest (c : Cfg) (s : St) (k : PKey) (fe : Bool) (ex : Option NeighId) :
    Frame s (findBest c s k fe ex).2 := frame_bestScan ..

/-! ### Routes and frames -/

theorem key_core (r : Route) : r.core.key = r.key := rfl
theorem neigh_core (r : Route) : r.core.neigh = r.neigh := rfl

/-- Two lists with the same cores: lookups agree up to the smoothed metric. -/
theorem find_core {l l' : List Route} (h : l'.map Route.core = l.map Route.core)
    (p : Route → Bool) (hp : ∀ r, p r.core = p r) :
    (l'.find? p).map Route.core = (l.find? p).map Route.core := by
  have e : ∀ l : List Route, (l.find? p).map Route.core = (l.map Route.core).find? p := by
    intro l
    induction l with
    | nil => rfl
    | cons r l ih =>
      simp only [List.find?_cons, List.map_cons, hp]
      split
      · simp
      · exact ih
  rw [e, e, h]

theorem filter_core {l l' : List Route} (h : l'.map Route.core = l.map Route.core)
    (p : Route → Bool) (hp : ∀ r, p r.core = p r) :
    (l'.filter p).map Route.core = (l.filter p).map Route.core := by
  have e : ∀ l : List Route, (l.filter p).map Route.core = (l.map Route.core).filter p := by
    intro l
    induction l with
    | nil => rfl
    | cons r l ih =>
      simp only [List.filter_cons, List.map_cons, hp]
      split
      · simp [ih]
      · exact ih
  rw [e, e, h]

theorem Frame.findRoute {s s' : St} (h : Frame s s') (k : PKey) (n : NeighId) :
    (findRoute s' k n).map Route.core = (findRoute s k n).map Route.core :=
  find_core h.routes _ (fun _ => rfl)

theorem Frame.slotOf {s s' : St} (h : Frame s s') (k : PKey) :
    (Babel.slotOf s'.routes k).map Route.core = (Babel.slotOf s.routes k).map Route.core :=
  filter_core h.routes _ (fun _ => rfl)

theorem findInstalled_core {l l' : St} (k : PKey)
    (h : (slotOf l'.routes k).map Route.core = (slotOf l.routes k).map Route.core) :
    (findInstalled l' k).map Route.core = (findInstalled l k).map Route.core := by
  unfold findInstalled
  cases e : slotOf l.routes k with
  | nil =>
    rw [e] at h
    cases e' : slotOf l'.routes k with
    | nil => rfl
    | cons b t => rw [e'] at h; simp at h
  | cons a t =>
    rw [e] at h
    cases e' : slotOf l'.routes k with
    | nil => rw [e'] at h; simp at h
    | cons b t' =>
      rw [e'] at h
      simp only [List.map_cons, List.cons.injEq] at h
      have hi : b.installed = a.installed := by
        have := congrArg Route.installed h.1
        exact this
      simp only [hi]
      split <;> simp [h.1]

theorem Frame.findInstalled {s s' : St} (h : Frame s s') (k : PKey) :
    (findInstalled s' k).map Route.core = (findInstalled s k).map Route.core :=
  findInstalled_core k (h.slotOf k)

/-! ### The update queue -/

theorem reallySend_eq (c : Cfg) (s : St) (i : IfId) (id : Bytes) (k : PKey) (q : UInt16) (m : Nat) :
    reallySend c s i id k q m = s ∨ ∃ m', reallySend c s i id k q m = emit s (.update i id k q m') ∧
      m' = min (m + c.outputFilter (some id) k i) INFINITY ∧ c.outputFilter (some id) k i < INFINITY := by
  unfold reallySend
  split
  · exact .inl rfl
  · split
    · exact .inl rfl
    · split
      · exact .inl rfl
      · simp only
        split
        · exact .inl rfl
        · split
          · exact .inl rfl
          · exact .inr ⟨_, rfl, rfl, by omega⟩

theorem findInstalled_mem {s : St} {k : PKey} {r : Route} (h : findInstalled s k = some r) :
    r ∈ s.routes ∧ r.key = k ∧ r.installed = true := by
  unfold findInstalled at h
  split at h
  · simp at h
  · next a l e =>
    split at h
    · next hi =>
      simp at h
      subst h
      have : a ∈ slotOf s.routes k := by rw [e]; simp
      simp [slotOf] at this
      exact ⟨this.1, this.2, hi⟩
    · simp at h

theorem findRoute_mem {s : St} {k : PKey} {n : NeighId} {r : Route} (h : findRoute s k n = some r) :
    r ∈ s.routes ∧ r.key = k ∧ r.neigh = n := by
  have h1 := List.mem_of_find?_eq_some h
  have h2 := List.find?_some h
  simp at h2
  exact ⟨h1, h2⟩

theorem findXroute_key {s : St} {k : PKey} {x : Xroute} (h : findXroute s k = some x) :
    x.key = k ∧ x ∈ s.xroutes := by
  have h1 := List.mem_of_find?_eq_some h
  have h2 := List.find?_some h
  simp at h2
  exact ⟨h2, h1⟩

theorem findSource_key {s : St} {k : SKey} {x : Source} (h : findSource s k = some x) :
    x.skey = k ∧ x ∈ s.sources := by
  have h1 := List.mem_of_find?_eq_some h
  have h2 := List.find?_some h
  simp at h2
  exact ⟨h2, h1⟩

theorem preferred_some {c : Cfg} {s : St} {k : PKey} {x : Xroute}
    (h : preferredXroute c s k = some x) : findXroute s k = some x := by
  unfold preferredXroute at h
  split at h
  · simp at h
  · next y e =>
    split at h
    · simp at h; rw [e, h]
    · simp at h

theorem preferred_none {c : Cfg} {s : St} {k : PKey} (h : preferredXroute c s k = none)
    (hi : findInstalled s k = none) : findXroute s k = none := by
  unfold preferredXroute at h
  split at h
  · assumption
  · simp [hi] at h

theorem satisfy_lookup (s : St) (k : PKey) (q : UInt16) (id : Bytes) (i : Option IfId) :
    (satisfyRequest s k q id i).routes = s.routes ∧ (satisfyRequest s k q id i).ifaces = s.ifaces ∧
    (satisfyRequest s k q id i).xroutes = s.xroutes := by
  unfold satisfyRequest
  split
  · exact ⟨rfl, rfl, rfl⟩
  · split
    · exact ⟨rfl, rfl, rfl⟩
    · split
      · exact ⟨rfl, rfl, rfl⟩
      · exact ⟨rfl, rfl, rfl⟩

theorem qms_flushRt (c : Cfg) (s : St) (i : IfId) (r : Route) (hr : findInstalled s r.key = some r)
    (hx : preferredXroute c s r.key = none) : QMs c s (flushRt c s i r).1 := by
  unfold flushRt
  simp only
  generalize hs1 : (if routeMetric r < INFINITY then satisfyRequest s r.key r.seqno r.id (some i)
    else s) = s1
  have hf : Frame s s1 := by
    subst hs1; split
    · exact frame_satisfy ..
    · exact .refl s
  have hl : s1.routes = s.routes ∧ s1.ifaces = s.ifaces ∧ s1.xroutes = s.xroutes := by
    subst hs1; split
    · exact satisfy_lookup ..
    · exact ⟨rfl, rfl, rfl⟩
  split
  · exact .frame hf
  · next hb =>
    have e1 : findInstalled s1 r.key = some r := by
      rw [← hr]; unfold findInstalled; rw [hl.1]
    have e2 : horizonBlocked c s1 i r = false := by
      have : horizonBlocked c s1 i r = horizonBlocked c s i r := by
        unfold horizonBlocked getIf; rw [hl.2.1]
      rw [this]; simpa using hb
    have e3 : preferredXroute c s1 r.key = none := by
      have : preferredXroute c s1 r.key = preferredXroute c s r.key := by
        unfold preferredXroute findXroute findInstalled; rw [hl.2.2, hl.1]
      rw [this, hx]
    exact (QMs.frame hf).step (.route i r e1 e2 e3)

theorem qms_flushOne (c : Cfg) (s : St) (i : IfId) (k : PKey) : QMs c s (flushOne c s i k).1 := by
  unfold flushOne
  split
  · next x hx =>
    have h := preferred_some hx
    have hk := (findXroute_key h).1
    exact .one (.own i x (by rw [hk]; exact h))
  · next hx =>
    split
    · next r hr =>
      have hk := (findInstalled_mem hr).2.1
      exact qms_flushRt c s i r (by rw [hk]; exact hr) (by rw [hk]; exact hx)
    · next hr => exact .one (.retraction i k (preferred_none hx hr) hr)

theorem qms_flushLoop (c : Cfg) (i : IfId) (l : List PKey) (last : Option PKey) (s : St) :
    QMs c s (flushLoop c i l last s) := by
  induction l generalizing last s with
  | nil => exact .refl s
  | cons k l ih =>
    simp only [flushLoop]
    split
    · exact ih _ _
    · exact (qms_flushOne c s i k).trans (ih _ _)

theorem qms_flushUpdates (c : Cfg) (s : St) (i : IfId) : QMs c s (flushUpdates c s i) := by
  unfold flushUpdates
  split
  · exact .refl s
  · simp only
    refine QMs.trans ?_ (.frame (frame_modIf _ _ _))
    split
    · exact .refl s
    · split
      · exact .frame (frame_modIf _ _ _)
      · exact (QMs.frame (frame_modIf _ _ _)).trans (qms_flushLoop ..)

theorem qms_bufferUpdate (c : Cfg) (s : St) (i : IfId) (k : PKey) :
    QMs c s (bufferUpdate c s i k) := by
  unfold bufferUpdate
  split
  · exact .refl s
  · simp only
    refine QMs.trans ?_ (.frame (frame_modIf _ _ _))
    split
    · exact qms_flushUpdates ..
    · exact .refl s

theorem qms_sendUpdateIf (c : Cfg) (s : St) (i : IfId) (u : Bool) (k : PKey) :
    QMs c s (sendUpdateIf c s i u k) := by
  unfold sendUpdateIf
  split
  · exact .refl s
  · exact (qms_bufferUpdate ..).trans (.frame (frame_schedule ..))

theorem qms_sendUpdate (c : Cfg) (s : St) (u : Bool) (k : PKey) : QMs c s (sendUpdate c s u k) := by
  unfold sendUpdate
  simp only
  have h := QMs.foldl (fun s i => sendUpdateIf c s i u k) (fun s i => qms_sendUpdateIf c s i u k)
    (allIfs s) s
  split
  · exact h
  · split
    · split
      · exact h.trans (.frame (frame_satisfy ..))
      · exact h
    · exact h

theorem qms_sendSelfUpdate (c : Cfg) (s : St) (i : IfId) : QMs c s (sendSelfUpdate c s i) :=
  QMs.foldl _ (fun s (x : Xroute) => qms_sendUpdateIf c s i false x.key) _ _

theorem qms_sendUpdateWild (c : Cfg) (s : St) (i : IfId) (u ss : Bool) :
    QMs c s (sendUpdateWild c s i u ss) := by
  unfold sendUpdateWild
  split
  · exact .refl s
  · simp only
    refine QMs.trans ?_ (.frame (frame_schedule ..))
    refine QMs.trans ?_ (.frame (frame_modIf ..))
    refine QMs.trans ?_ (.frame (frame_popRand ..))
    refine (qms_sendSelfUpdate c s i).trans (QMs.foldl _ (fun s k => ?_) _ _)
    split
    · exact qms_bufferUpdate ..
    · exact .refl s

theorem qms_sendUpdateAny (c : Cfg) (s : St) (i : IfId) (u : Bool) :
    QMs c s (sendUpdateAny c s i u) := by
  unfold sendUpdateAny
  split
  · exact .refl s
  · exact ((qms_sendUpdateWild ..).trans (qms_sendUpdateWild ..)).trans (.frame (frame_schedule ..))

theorem qms_sendUpdateResend (c : Cfg) (s : St) (k : PKey) : QMs c s (sendUpdateResend c s k) :=
  (qms_sendUpdate ..).trans (.frame (frame_record ..))

theorem qms_sendMulticastRequestIf (c : Cfg) (s : St) (i : IfId) (k : Option PKey) :
    QMs c s (sendMulticastRequestIf c s i k) := by
  unfold sendMulticastRequestIf
  split
  · exact .refl s
  · exact (qms_flushUpdates ..).trans (.frame (frame_sendRequest ..))

theorem qms_sendMulticastRequest (c : Cfg) (s : St) (k : Option PKey) :
    QMs c s (sendMulticastRequest c s k) :=
  QMs.foldl _ (fun s i => qms_sendMulticastRequestIf c s i k) _ _

theorem qms_sendUnicastRequest (c : Cfg) (s : St) (n : NeighId) (k : PKey) :
    QMs c s (sendUnicastRequest c s n k) := by
  unfold sendUnicastRequest
  split
  · exact .refl s
  · exact (qms_flushUpdates ..).trans (.frame (frame_sendRequest ..))

theorem qms_sendMulticastMhIf (c : Cfg) (s : St) (i : IfId) (k : PKey) (q : UInt16) (id : Bytes)
    (h : Nat) : QMs c s (sendMulticastMhIf c s i k q id h) := by
  unfold sendMulticastMhIf
  simp only
  split
  · exact qms_flushUpdates ..
  · exact (qms_flushUpdates ..).trans (.frame (frame_sendMh ..))

theorem qms_sendMulticastMh (c : Cfg) (s : St) (i : Option IfId) (k : PKey) (q : UInt16)
    (id : Bytes) (h : Nat) : QMs c s (sendMulticastMh c s i k q id h) := by
  unfold sendMulticastMh
  split
  · exact qms_sendMulticastMhIf ..
  · refine QMs.foldl _ (fun s i => ?_) _ _
    split
    · exact qms_sendMulticastMhIf ..
    · exact .refl s

theorem qms_sendUnicastMh (c : Cfg) (s : St) (n : NeighId) (k : PKey) (q : UInt16) (id : Bytes)
    (h : Nat) : QMs c s (sendUnicastMh c s n k q id h) :=
  (qms_flushUpdates ..).trans (.frame (frame_sendMh ..))

theorem qms_doResendOne (c : Cfg) (s : St) (j : Nat) : QMs c s (doResendOne c s j) := by
  unfold doResendOne
  split
  · exact .refl s
  · split
    · simp only
      refine QMs.trans ?_ (.frame (frame_resends _ _))
      split
      · exact qms_sendMulticastMh ..
      · unfold sendUpdateOpt
        split
        · exact qms_sendUpdate ..
        · exact qms_sendUpdateIf ..
    · exact .refl s

theorem qms_doResend (c : Cfg) (s : St) : QMs c s (doResend c s) :=
  (QMs.foldl _ (qms_doResendOne c) _ _).trans (.frame (frame_recompute _))

theorem qms_sendRequestResend (c : Cfg) (s : St) (k : PKey) (q : UInt16) (id : Bytes) :
    QMs c s (sendRequestResend c s k q id) := by
  unfold sendRequestResend
  have hb := frame_findBest c s k false none
  split
  · next n s1 e =>
    rw [e] at hb
    exact ((QMs.frame hb).trans (qms_sendUnicastMh ..)).trans (.frame (frame_record ..))
  · next s1 e =>
    rw [e] at hb
    refine (QMs.frame hb).trans (QMs.foldl _ (fun s i => ?_) _ _)
    split
    · exact .frame (frame_sendMh ..)
    · exact .refl s

theorem qms_sendUnfeasible (c : Cfg) (s : St) (n : NeighId) (f : Bool) (q : UInt16) (m : Nat)
    (sk : SKey) : QMs c s (sendUnfeasibleRequest c s n f q m sk) := by
  unfold sendUnfeasibleRequest
  split
  · exact .refl s
  · split
    · exact .refl s
    · generalize (f || _) = b
      split
      · exact qms_sendUnicastMh ..
      · exact .refl s

theorem qms_sendTriggered (c : Cfg) (s : St) (k : PKey) (n : NeighId) (os : SKey) (om : Nat) :
    QMs c s (sendTriggeredUpdate c s k n os om) := by
  unfold sendTriggeredUpdate
  split
  · exact .refl s
  · split
    · exact .refl s
    · split
      · exact .refl s
      · simp only
        generalize hs1 : (if _ ≥ 2 then sendUpdateResend c s k else sendUpdate c s _ k) = s1
        have h1 : QMs c s s1 := by
          subst hs1; split
          · exact qms_sendUpdateResend ..
          · exact qms_sendUpdate ..
        split
        · exact h1.trans (qms_sendMulticastRequest ..)
        · exact h1

theorem qms_announceLost (c : Cfg) (s : St) (sk : SKey) (om : Nat) :
    QMs c s (announceLost c s sk om) := by
  unfold announceLost
  split
  · simp only
    split
    · split
      · exact qms_sendUpdateResend ..
      · exact (qms_sendUpdateResend ..).trans (qms_sendRequestResend ..)
    · exact qms_sendUpdateResend ..
  · exact .refl s

/-! ### What queue transitions preserve -/

/-- Preserved by all queue transitions. -/
structure QSame (s s' : St) : Prop where
  now : s'.now = s.now
  myseqno : s'.myseqno = s.myseqno
  skeys : s'.sources.map (fun x => (x.skey, x.routeCount)) =
    s.sources.map (fun x => (x.skey, x.routeCount))
  xroutes : s'.xroutes = s.xroutes
  ncost : s'.ncost = s.ncost
  fib : s'.fib = s.fib
  kres : s'.kres = s.kres
  routes : s'.routes.map Route.core = s.routes.map Route.core

theorem QSame.refl (s : St) : QSame s s := ⟨rfl, rfl, rfl, rfl, rfl, rfl, rfl, rfl⟩

theorem QSame.trans {a b c : St} (h : QSame a b) (g : QSame b c) : QSame a c :=
  ⟨g.now.trans h.now, g.myseqno.trans h.myseqno, g.skeys.trans h.skeys,
   g.xroutes.trans h.xroutes, g.ncost.trans h.ncost, g.fib.trans h.fib, g.kres.trans h.kres,
   g.routes.trans h.routes⟩

theorem Frame.qsame {s s' : St} (h : Frame s s') : QSame s s' :=
  ⟨h.now, h.myseqno, by rw [h.sources], h.xroutes, h.ncost, h.fib, h.kres, h.routes⟩

theorem qsame_reallySend (c : Cfg) (s : St) (i : IfId) (id : Bytes) (k : PKey) (q : UInt16)
    (m : Nat) : QSame s (reallySend c s i id k q m) := by
  rcases reallySend_eq c s i id k q m with h | ⟨m', h, -⟩
  · rw [h]; exact .refl s
  · rw [h]; exact ⟨rfl, rfl, rfl, rfl, rfl, rfl, rfl, rfl⟩

theorem updatedSource_key (t : Int) (q : UInt16) (m : Nat) (x : Source) :
    (updatedSource t q m x).skey = x.skey ∧ (updatedSource t q m x).routeCount = x.routeCount := by
  unfold updatedSource
  split
  · exact ⟨rfl, rfl⟩
  · split
    · exact ⟨rfl, rfl⟩
    · exact ⟨rfl, rfl⟩

theorem qsame_updateSource (s : St) (k : SKey) (q : UInt16) (m : Nat) :
    QSame s (updateSource s k q m) := by
  refine ⟨rfl, rfl, ?_, rfl, rfl, rfl, rfl, rfl⟩
  simp only [updateSource, modSource, List.map_map]
  apply List.map_congr_left
  intro x _
  simp only [Function.comp]
  split
  · simp [updatedSource_key]
  · rfl

theorem QM.same {c : Cfg} {s s' : St} (h : QM c s s') : QSame s s' := by
  cases h with
  | frame h => exact h.qsame
  | own => exact qsame_reallySend ..
  | retraction => exact qsame_reallySend ..
  | route => exact (qsame_reallySend ..).trans (qsame_updateSource ..)

theorem QMs.same {c : Cfg} {s s' : St} (h : QMs c s s') : QSame s s' := by
  induction h with
  | refl => exact .refl _
  | step _ m ih => exact ih.trans m.same

theorem QSame.findRoute {s s' : St} (h : QSame s s') (k : PKey) (n : NeighId) :
    (findRoute s' k n).map Route.core = (findRoute s k n).map Route.core :=
  find_core h.routes _ (fun _ => rfl)

theorem QSame.slotOf {s s' : St} (h : QSame s s') (k : PKey) :
    (Babel.slotOf s'.routes k).map Route.core = (Babel.slotOf s.routes k).map Route.core :=
  filter_core h.routes _ (fun _ => rfl)

theorem QSame.findInstalled {s s' : St} (h : QSame s s') (k : PKey) :
    (findInstalled s' k).map Route.core = (findInstalled s k).map Route.core :=
  findInstalled_core k (h.slotOf k)

theorem find_isSome_skeys (l : List Source) (k : SKey) :
    (l.find? (·.skey == k)).isSome = (l.map (fun x => (x.skey, x.routeCount))).any (·.1 == k) := by
  induction l with
  | nil => rfl
  | cons x l ih =>
    simp only [List.find?_cons, List.map_cons, List.any_cons]
    cases x.skey == k <;> simp [ih]

theorem QSame.findSource {s s' : St} (h : QSame s s') (k : SKey) :
    (findSource s' k).isSome = (findSource s k).isSome := by
  unfold Babel.findSource
  rw [find_isSome_skeys, find_isSome_skeys, h.skeys]

end Babel
