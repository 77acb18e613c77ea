import Verif.Lemmas.Queue
/-
Decomposition of every event into elementary operations on the soft state: the update queues of the
interfaces, the pending requests and the requests that are sent; `w` is an interface on which updates are being queued before a flush is scheduled.
-/
set_option linter.unusedSimpArgs false
set_option linter.unusedVariables false
set_option linter.unusedSectionVars false
namespace Babel
open Spec

/-- Outputs that are not messages. -/
def Out.silent : Out → Bool
  | .update .. => false
  | .request .. => false
  | .mhRequest .. => false
  | _ => true

/-- The soft state is unchanged and no message is sent. -/
structure Hard (s s' : St) : Prop where
  now : s'.now = s.now
  ifaces : s'.ifaces = s.ifaces
  resends : s'.resends = s.resends
  resendTime : s'.resendTime = s.resendTime
  out : ∃ new, s'.out = new ++ s.out ∧ ∀ o ∈ new, o.silent = true

theorem Hard.refl (s : St) : Hard s s := ⟨rfl, rfl, rfl, rfl, [], rfl, by simp⟩

theorem Hard.trans {a b d : St} (h : Hard a b) (g : Hard b d) : Hard a d := by
  obtain ⟨n1, e1, p1⟩ := h.out
  obtain ⟨n2, e2, p2⟩ := g.out
  refine ⟨g.now.trans h.now, g.ifaces.trans h.ifaces, g.resends.trans h.resends,
    g.resendTime.trans h.resendTime, n2 ++ n1, by rw [e2, e1, List.append_assoc], ?_⟩
  intro o ho
  rcases List.mem_append.1 ho with h1 | h1
  · exact p2 o h1
  · exact p1 o h1

/-- What is allowed: which seqno requests may be sent, and whether requests or updates may be recorded for
retransmission. -/
structure Perm where
  mh : Option NeighId → PKey → UInt16 → Bytes → Nat → Prop
  recs : Prop

/-- Recording is allowed. -/
class Perm.Recs (P : Perm) : Prop where
  recs : P.recs

/-- Requests originated by this router start with hop count 127; recording is allowed. -/
class Perm.Full (P : Perm) : Prop extends Perm.Recs P where
  mh : ∀ to k q id, P.mh to k q id 127

/-- Elementary operations on the soft state; `P` tells what is allowed; `w` is an interface on which updates are being queued before a flush is scheduled. -/
inductive Soft (c : Cfg) (w : Option IfId) (P : Perm) : St → St → Prop
  | hard {s s'} : Hard s s' → Soft c w P s s'
  | flush {s} (i : IfId) : Soft c w P s (flushUpdates c s i)
  | buffer {s} (i : IfId) (k : PKey) : w = some i → Soft c w P s (bufferUpdate c s i k)
  | sendIf {s} (i : IfId) (urgent : Bool) (k : PKey) : Soft c w P s (sendUpdateIf c s i urgent k)
  | wild {s} (i : IfId) (urgent ss : Bool) : w = none → Soft c w P s (sendUpdateWild c s i urgent ss)
  | sched {s} (i : IfId) (urgent : Bool) : Soft c w P s (scheduleUpdateFlush s i urgent)
  | timeout {s} (i : IfId) (t : Iface → Timeval) : Soft c w P s (modIf s i (fun x => { x with updateTimeout := t x }))
  | satisfy {s} (k : PKey) (q : UInt16) (id : Bytes) (ifp : Option IfId) : Soft c w P s (satisfyRequest s k q id ifp)
  | record {s} (kd : RKind) (k : PKey) (q : UInt16) (id : Option Bytes) (ifp : Option IfId) (d : Nat) :
      P.recs → (kd = .update → id = none) → Soft c w P s (recordResend c s kd k q id ifp d)
  | request {s} (i : IfId) (to : Option NeighId) (k : Option PKey) : Soft c w P s (emit s (.request i to k))
  | mh {s} (i : IfId) (to : Option NeighId) (k : PKey) (q : UInt16) (id : Bytes) (hop : Nat) : P.mh to k q id hop →
      Soft c w P s (emit s (.mhRequest i to k q id hop))

/-- Sequences of operations. -/
inductive Softs (c : Cfg) (w : Option IfId) (P : Perm) : St → St → Prop
  | refl (s) : Softs c w P s s
  | step {s t u} : Softs c w P s t → Soft c w P t u → Softs c w P s u

variable {c : Cfg} {w : Option IfId} {P : Perm}

theorem Softs.trans {s t u : St} (h : Softs c w P s t) (g : Softs c w P t u) : Softs c w P s u := by
  induction g with
  | refl => exact h
  | step _ m ih => exact ih.step m

theorem Soft.one {s t : St} (h : Soft c w P s t) : Softs c w P s t := (Softs.refl s).step h
theorem Hard.soft {s t : St} (h : Hard s t) : Softs c w P s t := (Soft.hard h).one

theorem Softs.foldl {α : Type} (f : St → α → St) (h : ∀ s a, Softs c w P s (f s a)) (l : List α) (s : St) :
    Softs c w P s (l.foldl f s) := by
  induction l generalizing s with
  | nil => exact .refl s
  | cons a l ih => exact (h s a).trans (ih _)

/-! ### Hard functions -/

theorem hard_silent (s : St) (o : Out) (h : o.silent = true) : Hard s (emit s o) :=
  ⟨rfl, rfl, rfl, rfl, [o], rfl, by simp [h]⟩

theorem hard_popRand (s : St) : Hard s (popRand s).2 := ⟨rfl, rfl, rfl, rfl, [], rfl, by simp⟩

theorem hard_notify (s : St) (kd : NKind) (k : PKey) (n : NeighId) : Hard s (notifyRoute s kd k n) := by
  unfold notifyRoute
  split
  · exact hard_silent _ _ rfl
  · exact .refl s

theorem KOnly.hard {s s' : St} (h : KOnly s s') : Hard s s' := by
  rw [h]; exact ⟨rfl, rfl, rfl, rfl, [], rfl, by simp⟩

theorem hard_modRoute (s : St) (k : PKey) (n : NeighId) (f : Route → Route) : Hard s (modRoute s k n f) :=
  ⟨rfl, rfl, rfl, rfl, [], rfl, by simp⟩

theorem hard_sources (s : St) (l : List Source) : Hard s { s with sources := l } :=
  ⟨rfl, rfl, rfl, rfl, [], rfl, by simp⟩

theorem hard_routes (s : St) (l : List Route) : Hard s { s with routes := l } :=
  ⟨rfl, rfl, rfl, rfl, [], rfl, by simp⟩

theorem hard_xroutes (s : St) (l : List Xroute) : Hard s { s with xroutes := l } :=
  ⟨rfl, rfl, rfl, rfl, [], rfl, by simp⟩

theorem hard_ensure (s : St) (k : SKey) (q : UInt16) : Hard s (ensureSource s k q) := by
  unfold ensureSource
  split
  · exact .refl s
  · exact hard_sources ..

theorem hard_smooth (c : Cfg) (s : St) (k : PKey) (n : NeighId) : Hard s (smoothRoute c s k n).2 := by
  unfold smoothRoute
  split
  · exact .refl s
  · exact ⟨rfl, rfl, rfl, rfl, [], rfl, by simp⟩

theorem hard_mark (s : St) (k : PKey) (n : NeighId) (o : Option Route) : Hard s (markInstalled s k n o) := by
  refine ⟨rfl, rfl, rfl, rfl, selectionLog s k n o, rfl, ?_⟩
  unfold selectionLog
  split
  · simp
  · intro o ho; simp at ho; subst ho; rfl

theorem hard_warn (s : St) (r : Route) : Hard s (warnIfUnfeasible s r) := by
  unfold warnIfUnfeasible
  split
  · exact .refl s
  · exact hard_silent _ _ rfl

theorem hard_install (c : Cfg) (s : St) (k : PKey) (n : NeighId) : Hard s (installRoute c s k n) := by
  unfold installRoute
  split
  · exact .refl s
  · split
    · exact .refl s
    · simp only
      split
      · exact (hard_warn ..).trans (hard_silent _ _ rfl)
      · split
        · exact (hard_warn ..).trans (konly_changeAdd ..).hard
        · exact (((hard_warn ..).trans (konly_changeAdd ..).hard).trans (hard_mark ..)).trans (hard_notify ..)

theorem hard_uninstall (c : Cfg) (s : St) (k : PKey) (n : NeighId) : Hard s (uninstallRoute c s k n) := by
  unfold uninstallRoute
  split
  · exact .refl s
  · split
    · exact .refl s
    · simp only
      split
      · exact ((hard_modRoute ..).trans (konly_changeFlush ..).hard).trans (hard_notify ..)
      · exact (hard_modRoute ..).trans (konly_changeFlush ..).hard

theorem hard_switch (c : Cfg) (s : St) (k : PKey) (m n : NeighId) : Hard s (switchRoutes c s k m n) := by
  unfold switchRoutes
  split
  · split
    · exact .refl s
    · simp only
      split
      · exact (hard_warn ..).trans (konly_changeModify ..).hard
      · exact (((((hard_warn ..).trans (konly_changeModify ..).hard).trans (hard_modRoute ..)).trans
          (hard_mark ..)).trans (hard_notify ..)).trans (hard_notify ..)
  · exact .refl s

theorem hard_metric (c : Cfg) (s : St) (k : PKey) (n : NeighId) (a b d : Nat) :
    Hard s (changeRouteMetric c s k n a b d) := by
  unfold changeRouteMetric
  split
  · exact .refl s
  · next r hr =>
    simp only
    generalize hp : (if r.installed = true ∧ metricToKernel c (routeMetric r) ≠ metricToKernel c (min (a + b + d) INFINITY)
      then changeModify c s r (metricToKernel c (routeMetric r)) r.nexthop (c.ifOf r.neigh)
        (metricToKernel c (min (a + b + d) INFINITY)) else (true, s)) = p
    have : Hard s p.2 := by
      rw [← hp]; split
      · exact (konly_changeModify ..).hard
      · exact .refl s
    split
    · exact this
    · exact ((this.trans (hard_smooth ..)).trans (hard_modRoute ..)).trans (hard_notify ..)

theorem hard_retract (c : Cfg) (s : St) (k : PKey) (n : NeighId) : Hard s (retractRoute c s k n) := hard_metric ..

theorem hard_findBest (c : Cfg) (s : St) (k : PKey) (fe : Bool) (ex : Option NeighId) : Hard s (findBest c s k fe ex).2 := by
  unfold findBest
  generalize (slotOf s.routes k).map (·.neigh) = l
  generalize (none : Option NeighId) = b
  induction l generalizing b s with
  | nil => exact .refl s
  | cons m l ih =>
    unfold bestScan
    split
    · exact ih ..
    · split
      · exact ih ..
      · split
        · exact ih ..
        · exact ((hard_smooth ..).trans (hard_smooth ..)).trans (ih ..)

theorem hard_findBest' {s s1 : St} {k : PKey} {fe : Bool} {ex b : Option NeighId}
    (h : findBest c s k fe ex = (b, s1)) : Hard s s1 := by
  have := hard_findBest c s k fe ex
  rw [h] at this; exact this

theorem hard_shouldSwitch (c : Cfg) (s : St) (r : Route) (o : Option Route) : Hard s (shouldSwitch c s r o).2 := by
  unfold shouldSwitch
  split
  · exact .refl s
  · split
    · exact .refl s
    · split
      · exact .refl s
      · split
        · exact (hard_smooth ..).trans (hard_smooth ..)
        · exact .refl s

theorem hard_apply (c : Cfg) (s : St) (k : PKey) (n : NeighId) (id : Bytes) (q : UInt16) (a b d : Nat) (u : Bool) :
    Hard s (applyUpdate c s k n id q a b d u) := by
  unfold applyUpdate
  simp only
  refine (Hard.trans (b := (if u then uninstallRoute c s k n else s)) ?_ (hard_sources ..)).trans
    ((hard_modRoute ..).trans ((hard_metric ..).trans (hard_modRoute ..)))
  split
  · exact hard_uninstall ..
  · exact .refl s

theorem hard_sourceFor (s : St) (r : Option Route) (k : SKey) (q : UInt16) : Hard s (sourceFor s r k q) := by
  unfold sourceFor
  split
  · exact .refl s
  · exact hard_ensure ..

theorem hard_addXroute (s : St) (kr : KRoute) : Hard s (addXroute s kr).1 := by
  unfold addXroute
  split
  · exact .refl s
  · exact (hard_xroutes ..).trans (hard_silent _ _ rfl)

theorem hard_flushDuplicate (c : Cfg) (s : St) (kr : KRoute) : Hard s (flushDuplicateRoute c s kr) := by
  unfold flushDuplicateRoute
  split
  · exact .refl s
  · split
    · exact hard_uninstall ..
    · exact .refl s

/-! ### Messages -/

theorem soft_sendUpdate (s : St) (u : Bool) (k : PKey) : Softs c w P s (sendUpdate c s u k) := by
  unfold sendUpdate
  simp only
  have h : Softs c w P s ((allIfs s).foldl (fun s i => sendUpdateIf c s i u k) s) :=
    .foldl _ (fun s i => (Soft.sendIf i u k).one) _ _
  split
  · exact h
  · split
    · split
      · exact h.step (.satisfy ..)
      · exact h
    · exact h

theorem soft_sendSelf (s : St) (i : IfId) : Softs c w P s (sendSelfUpdate c s i) :=
  .foldl _ (fun s x => (Soft.sendIf ..).one) _ _

/-- The part of a wildcard update before the flush is scheduled. -/
theorem soft_wildParts (s : St) (i : IfId) (u ss : Bool) (h : ifUp s i = true) :
    ∃ s', Softs c (some i) P s s' ∧ sendUpdateWild c s i u ss = scheduleUpdateFlush s' i u := by
  unfold sendUpdateWild
  rw [h]
  simp only [Bool.not_true, Bool.false_eq_true, if_false]
  refine ⟨_, ?_, rfl⟩
  refine Softs.step (Softs.trans (Softs.trans (soft_sendSelf s i)
      (Softs.foldl (fun s k => if (k.isSS == ss) = true then bufferUpdate c s i k else s) (fun s k => ?_)
        (installedKeys (sendSelfUpdate c s i)) _)) (hard_popRand _).soft) (.timeout i _)
  split
  · exact (Soft.buffer i k rfl).one
  · exact .refl s

theorem soft_any (s : St) (i : IfId) (u : Bool) : Softs c none P s (sendUpdateAny c s i u) := by
  unfold sendUpdateAny
  split
  · exact .refl s
  · exact ((Soft.wild i u false rfl).one.step (.wild i u true rfl)).step (.sched ..)

theorem soft_request (s : St) (i : IfId) (to : Option NeighId) (k : Option PKey) : Softs c w P s (sendRequest s i to k) := by
  unfold sendRequest
  split
  · exact (Soft.request ..).one
  · split
    · exact .refl s
    · exact (Soft.request ..).one

theorem soft_mrequestIf (s : St) (i : IfId) (k : Option PKey) : Softs c w P s (sendMulticastRequestIf c s i k) := by
  unfold sendMulticastRequestIf
  split
  · exact .refl s
  · exact (Soft.flush i).one.trans (soft_request ..)

theorem soft_mrequest (s : St) (k : Option PKey) : Softs c w P s (sendMulticastRequest c s k) :=
  .foldl _ (fun s i => soft_mrequestIf s i k) _ _

theorem soft_urequest (s : St) (n : NeighId) (k : PKey) : Softs c w P s (sendUnicastRequest c s n k) := by
  unfold sendUnicastRequest
  split
  · exact .refl s
  · exact (Soft.flush _).one.trans (soft_request ..)

theorem soft_mh (s : St) (i : IfId) (to : Option NeighId) (k : PKey) (q : UInt16) (id : Bytes) (h : Nat)
    (hp : P.mh to k q id h) : Softs c w P s (sendMh s i to k q id h) := by
  unfold sendMh
  split
  · exact .refl s
  · exact (Soft.mh _ _ _ _ _ _ hp).one

theorem soft_mmhIf (s : St) (i : IfId) (k : PKey) (q : UInt16) (id : Bytes) (h : Nat)
    (hp : P.mh none k q id h) : Softs c w P s (sendMulticastMhIf c s i k q id h) := by
  unfold sendMulticastMhIf
  simp only
  split
  · exact (Soft.flush i).one
  · exact (Soft.flush i).one.trans (soft_mh _ _ _ _ _ _ _ hp)

theorem soft_mmh (s : St) (i : Option IfId) (k : PKey) (q : UInt16) (id : Bytes) (h : Nat)
    (hp : P.mh none k q id h) : Softs c w P s (sendMulticastMh c s i k q id h) := by
  unfold sendMulticastMh
  split
  · exact soft_mmhIf _ _ _ _ _ _ hp
  · refine .foldl _ (fun s i => ?_) _ _
    split
    · exact soft_mmhIf _ _ _ _ _ _ hp
    · exact .refl s

theorem soft_umh (s : St) (n : NeighId) (k : PKey) (q : UInt16) (id : Bytes) (h : Nat)
    (hp : P.mh (some n) k q id h) : Softs c w P s (sendUnicastMh c s n k q id h) :=
  (Soft.flush _).one.trans (soft_mh _ _ _ _ _ _ _ hp)

theorem soft_updateOpt (s : St) (i : Option IfId) (k : PKey) : Softs c w P s (sendUpdateOpt c s i k) := by
  unfold sendUpdateOpt
  split
  · exact soft_sendUpdate ..
  · exact (Soft.sendIf ..).one

section
variable [hP : P.Recs]
include hP

theorem soft_resend (s : St) (k : PKey) : Softs c w P s (sendUpdateResend c s k) :=
  (soft_sendUpdate ..).step (.record _ _ _ _ _ _ hP.recs (fun _ => rfl))

theorem soft_triggered (s : St) (k : PKey) (n : NeighId) (o : SKey) (m : Nat) :
    Softs c w P s (sendTriggeredUpdate c s k n o m) := by
  unfold sendTriggeredUpdate
  split
  · exact .refl s
  · split
    · exact .refl s
    · split
      · exact .refl s
      · next u _ =>
        simp only
        have h : Softs c w P s (if u ≥ 2 then sendUpdateResend c s k else sendUpdate c s (u == 1) k) := by
          split
          · exact soft_resend ..
          · exact soft_sendUpdate ..
        split
        · exact h.trans (soft_mrequest ..)
        · exact h

theorem soft_considerInstall (s : St) (k : PKey) (n : NeighId) (o : Option Route) :
    Softs c w P s (considerInstall c s k n o) := by
  unfold considerInstall
  split
  · exact (hard_install ..).soft.trans (soft_sendUpdate ..)
  · simp only
    split
    · exact (hard_switch ..).soft
    · split
      · exact (hard_switch ..).soft.trans (soft_triggered ..)
      · exact (hard_switch ..).soft.trans (soft_sendUpdate ..)

theorem soft_consider (s : St) (k : PKey) (n : NeighId) : Softs c w P s (considerRoute c s k n) := by
  unfold considerRoute
  split
  · exact .refl s
  · split
    · exact .refl s
    · split
      · exact .refl s
      · split
        · exact .refl s
        · simp only
          split
          · exact (hard_shouldSwitch ..).soft.trans (soft_considerInstall ..)
          · exact (hard_shouldSwitch ..).soft

theorem soft_changedBetter (s : St) (k : PKey) (n : NeighId) : Softs c w P s (routeChangedBetter c s k n) := by
  unfold routeChangedBetter
  split
  · exact .refl s
  · split
    · split
      · next e => exact (hard_findBest' e).soft
      · next e =>
        split
        · exact (hard_findBest' e).soft
        · split
          · exact (hard_findBest' e).soft.trans (soft_consider ..)
          · exact (hard_findBest' e).soft
    · exact .refl s

theorem soft_changed (s : St) (k : PKey) (n : NeighId) (o : SKey) (m : Nat) :
    Softs c w P s (routeChanged c s k n o m) := by
  unfold routeChanged
  simp only
  split
  · exact soft_changedBetter ..
  · split
    · exact (soft_changedBetter ..).trans (soft_triggered ..)
    · exact (soft_changedBetter ..).trans (soft_consider ..)

end

variable [hP : P.Full]
include hP

theorem soft_requestResend (s : St) (k : PKey) (q : UInt16) (id : Bytes) : Softs c w P s (sendRequestResend c s k q id) := by
  unfold sendRequestResend
  split
  · next e => exact ((hard_findBest' e).soft.trans (soft_umh _ _ _ _ _ _ (hP.mh ..))).step (.record _ _ _ _ _ _ hP.recs (by intro h; cases h))
  · next e =>
    refine (hard_findBest' e).soft.trans (.foldl _ (fun s i => ?_) _ _)
    split
    · exact soft_mh _ _ _ _ _ _ _ (hP.mh ..)
    · exact .refl s

theorem soft_unfeasible (s : St) (n : NeighId) (f : Bool) (q : UInt16) (m : Nat) (sk : SKey) :
    Softs c w P s (sendUnfeasibleRequest c s n f q m sk) := by
  unfold sendUnfeasibleRequest
  split
  · exact .refl s
  · split
    · exact .refl s
    · generalize (f || (match findInstalled s sk.key with
        | none => true
        | some r => decide (routeMetric r ≥ m + 512))) = b
      cases b
      · exact .refl s
      · exact soft_umh _ _ _ _ _ _ (hP.mh ..)

theorem soft_announceLost (s : St) (sk : SKey) (m : Nat) : Softs c w P s (announceLost c s sk m) := by
  unfold announceLost
  split
  · simp only
    split
    · split
      · exact soft_resend ..
      · exact (soft_resend ..).trans (soft_requestResend ..)
    · exact soft_resend ..
  · exact .refl s

theorem soft_lost (s : St) (sk : SKey) (m : Nat) : Softs c w P s (routeLost c s sk m) := by
  unfold routeLost
  split
  · next e => exact (hard_findBest' e).soft.trans (soft_announceLost ..)
  · next e =>
    split
    · exact (hard_findBest' e).soft
    · split
      · exact (hard_findBest' e).soft.trans (soft_consider ..)
      · exact (hard_findBest' e).soft.trans (soft_announceLost ..)

theorem soft_flushRoute (s : St) (k : PKey) (n : NeighId) : Softs c w P s (flushRoute c s k n) := by
  unfold flushRoute
  split
  · exact .refl s
  · next r hr =>
    simp only
    refine Softs.trans ?_ (hard_sources ..).soft
    generalize e1 : (if r.installed then uninstallRoute c s k n else s) = s1
    have h1 : Softs c w P s s1 := by
      rw [← e1]; split
      · exact (hard_uninstall ..).soft
      · exact .refl s
    have h2 : Softs c w P s (unlinkRoute (notifyRoute s1 .flush k n) k n) :=
      (h1.trans (hard_notify ..).soft).trans (hard_routes ..).soft
    split
    · exact h2.trans (soft_lost ..)
    · exact h2

theorem soft_updateMetric (s : St) (k : PKey) (n : NeighId) : Softs c w P s (updateRouteMetric c s k n) := by
  unfold updateRouteMetric
  split
  · exact .refl s
  · simp only
    have h0 : Softs c w P s (smoothRoute c s k n).2 := (hard_smooth ..).soft
    split
    · split
      · split
        · exact ((h0.trans (hard_modRoute ..).soft).trans (hard_retract ..).soft).trans (soft_changed ..)
        · exact (h0.trans (hard_modRoute ..).soft).trans (hard_retract ..).soft
      · exact h0
    · split
      · exact h0.trans (hard_metric ..).soft
      · split
        · exact (h0.trans (hard_metric ..).soft).trans (soft_changed ..)
        · split
          · exact ((h0.trans (hard_metric ..).soft).trans (hard_smooth ..).soft).trans (soft_changed ..)
          · exact (h0.trans (hard_metric ..).soft).trans (hard_smooth ..).soft

theorem soft_updateExisting (s : St) (r : Route) (id : Bytes) (q : UInt16) (a b d : Nat) :
    Softs c w P s (updateExisting c s r id q a b d) := by
  unfold updateExisting
  simp only
  refine Softs.trans ?_ (hard_sources ..).soft
  have h : ∀ s, Softs c w P s (routeChanged c (applyUpdate c s r.key r.neigh id q a b d
      (!updateFeasible s (findSource s ⟨id, r.key⟩) q a && r.installed && id != r.id)) r.key r.neigh r.skey (routeMetric r)) :=
    fun s => (hard_apply ..).soft.trans (soft_changed ..)
  split
  · exact (h s).trans (soft_lost ..)
  · split
    · exact (h s).trans (soft_unfeasible ..)
    · exact h s

theorem soft_updateNew (s : St) (k : PKey) (n : NeighId) (id : Bytes) (q : UInt16) (a b d : Nat) (nh : Option Bytes) :
    Softs c w P s (updateNew c s k n id q a b d nh) := by
  unfold updateNew
  simp only
  split
  · exact .refl s
  · refine Softs.trans (Softs.trans (Softs.trans (Softs.trans ?_ (hard_sources ..).soft) (hard_routes ..).soft)
      (hard_notify ..).soft) (soft_consider ..)
    split
    · exact soft_unfeasible ..
    · exact .refl s

theorem soft_updateRoute (s : St) (id : Option Bytes) (k : PKey) (q : UInt16) (a b : Nat) (n : NeighId) (nh : Option Bytes) :
    Softs c w P s (updateRoute c s id k q a b n nh) := by
  unfold updateRoute
  split
  · exact .refl s
  · simp only
    split
    · exact .refl s
    · split
      · exact .refl s
      · exact (hard_sourceFor ..).soft.trans (soft_updateNew ..)
    · exact (hard_sourceFor ..).soft.trans (soft_updateExisting ..)

theorem soft_walkFrom (act : St → NeighId → St) (ha : ∀ s n, Softs c w P s (act s n)) (k : PKey) (fuel : Nat)
    (o : Option NeighId) (s : St) : Softs c w P s (walkFrom act k fuel o s) := by
  induction fuel generalizing o s with
  | zero => exact .refl s
  | succ f ih =>
    cases o with
    | none => exact .refl s
    | some n => exact (ha s n).trans (ih ..)

theorem soft_updNeigh (fuel : Nat) (s : St) (n : NeighId) : Softs c w P s (updateNeighbourMetric c fuel s n) := by
  refine .foldl _ (fun s k => soft_walkFrom _ (fun s m => ?_) _ _ _ _) _ _
  simp only
  split
  · exact soft_updateMetric ..
  · exact .refl s

theorem soft_updIface (fuel : Nat) (s : St) (i : IfId) : Softs c w P s (updateInterfaceMetric c fuel s i) := by
  refine .foldl _ (fun s k => soft_walkFrom _ (fun s m => ?_) _ _ _ _) _ _
  simp only
  split
  · exact soft_updateMetric ..
  · exact .refl s

theorem soft_retractOne (s : St) (k : PKey) (n : NeighId) : Softs c w P s (retractOne c s k n) := by
  unfold retractOne
  split
  · exact .refl s
  · split
    · simp only
      split
      · exact (hard_retract ..).soft.trans (soft_changed ..)
      · exact (hard_retract ..).soft
    · exact .refl s

theorem soft_retractNeigh (fuel : Nat) (s : St) (n : NeighId) : Softs c w P s (retractNeighbourRoutes c fuel s n) := by
  refine .foldl _ (fun s k => soft_walkFrom _ (fun s m => ?_) _ _ _ _) _ _
  simp only
  split
  · exact soft_retractOne ..
  · exact .refl s

theorem soft_flushSlot (p : Route → Bool) (k : PKey) (fuel : Nat) (s : St) : Softs c w P s (flushSlot c p k fuel s) := by
  induction fuel generalizing s with
  | zero => exact .refl s
  | succ f ih =>
    unfold flushSlot
    split
    · exact .refl s
    · exact (soft_flushRoute ..).trans (ih _)

theorem soft_flushWhere (p : Route → Bool) (s : St) : Softs c w P s (flushWhere c p s) :=
  .foldl _ (fun s k => soft_flushSlot ..) _ _

theorem soft_flushAllSlot (k : PKey) (fuel : Nat) (s : St) : Softs c w P s (flushAllSlot c k fuel s) := by
  induction fuel generalizing s with
  | zero => exact .refl s
  | succ f ih =>
    unfold flushAllSlot
    split
    · exact .refl s
    · exact ((hard_uninstall ..).soft.trans (soft_flushRoute ..)).trans (ih _)

theorem soft_flushAll (s : St) : Softs c w P s (flushAllRoutes c s) :=
  .foldl _ (fun s k => soft_flushAllSlot ..) _ _

theorem soft_expireKeep (s : St) (k : PKey) (n : NeighId) : Softs c w P s (expireKeep c s k n) := by
  unfold expireKeep
  simp only
  split
  · exact soft_updateMetric ..
  · split
    · exact (soft_updateMetric ..).trans (soft_urequest ..)
    · exact soft_updateMetric ..

theorem soft_expireFrom (k : PKey) (fuel : Nat) (o : Option NeighId) (s : St) :
    Softs c w P s (expireFrom c k fuel o s).1 := by
  induction fuel generalizing o s with
  | zero => exact .refl s
  | succ f ih =>
    cases o with
    | none => exact .refl s
    | some n =>
      unfold expireFrom
      split
      · exact .refl s
      · split
        · exact (soft_flushRoute ..).trans (ih ..)
        · exact (soft_expireKeep ..).trans (ih ..)

theorem soft_expireRoutes (fuel : Nat) (s : St) : Softs c w P s (expireRoutes c fuel s).1 := by
  unfold expireRoutes
  have : ∀ (l : List PKey) (p : St × Bool), Softs c w P p.1 (l.foldl (fun p k =>
      let q := expireSlot c fuel p.1 k
      (q.1, p.2 && q.2)) p).1 := by
    intro l
    induction l with
    | nil => intro p; exact .refl _
    | cons k l ih =>
      intro p
      rw [List.foldl_cons]
      have h1 : Softs c w P p.1 (expireSlot c fuel p.1 k).1 := soft_expireFrom ..
      exact h1.trans (ih ((expireSlot c fuel p.1 k).1, p.2 && (expireSlot c fuel p.1 k).2))
  exact this (slotKeys s) (s, true)

theorem soft_flushXroute (s : St) (x : Xroute) (u : Bool) : Softs c w P s (flushXroute c s x u) := by
  unfold flushXroute
  simp only
  have h0 : ∀ k l, Softs c w P s (findBest c { emit s (.notifyXroute .flush x) with xroutes := l } k true none).2 :=
    fun k l => (((hard_silent s _ rfl).trans (hard_xroutes ..)).trans (hard_findBest ..)).soft
  split
  · split
    · split
      · exact ((h0 _ _).trans (hard_install ..).soft).trans (soft_sendUpdate ..)
      · exact (h0 _ _).trans (hard_install ..).soft
    · split
      · exact (h0 _ _).trans (soft_resend ..)
      · exact h0 _ _
  · split
    · exact (h0 _ _).trans (soft_resend ..)
    · exact h0 _ _

theorem soft_modifyXroute (s : St) (x : Xroute) (kr : KRoute) (u : Bool) : Softs c w P s (modifyXroute c s x kr u) := by
  unfold modifyXroute
  split
  · simp only
    split
    · exact ((hard_xroutes ..).trans (hard_silent _ _ rfl)).soft.trans (soft_sendUpdate ..)
    · exact ((hard_xroutes ..).trans (hard_silent _ _ rfl)).soft
  · exact .refl s

theorem soft_addAndAnnounce (s : St) (kr : KRoute) (u : Bool) : Softs c w P s (addAndAnnounce c s kr u).1 := by
  unfold addAndAnnounce
  simp only
  split
  · split
    · exact ((hard_addXroute ..).trans (hard_flushDuplicate ..)).soft.trans (soft_sendUpdate ..)
    · exact ((hard_addXroute ..).trans (hard_flushDuplicate ..)).soft
  · exact (hard_addXroute ..).soft

theorem soft_kernelRoute (s : St) (a : Bool) (kr : KRoute) : Softs c w P s (kernelRouteNotify c s a kr) := by
  unfold kernelRouteNotify
  simp only
  split
  · exact .refl s
  · split
    · split
      · exact soft_modifyXroute ..
      · exact soft_flushXroute ..
    · split
      · exact .refl s
      · split
        · exact .refl s
        · exact soft_addAndAnnounce ..

theorem soft_merge (u : Bool) (fuel : Nat) (krs : List KRoute) (j : Nat) (s : St) :
    Softs c w P s (mergeXroutes c u fuel krs j s) := by
  induction fuel generalizing krs j s with
  | zero => unfold mergeXroutes; exact .refl s
  | succ f ih =>
    have ha : ∀ kr rest j s, Softs c w P s (mergeAdd c u (mergeXroutes c u f) kr rest j s) := by
      intro kr rest j s
      unfold mergeAdd
      split
      · exact (soft_addAndAnnounce ..).trans (ih ..)
      · exact ih ..
    unfold mergeXroutes
    split
    · exact .refl s
    · exact (soft_flushXroute ..).trans (ih ..)
    · split
      · exact ih ..
      · split
        · exact ha ..
        · split
          · exact ha ..
          · exact (soft_flushXroute ..).trans (ih ..)
          · exact (soft_modifyXroute ..).trans (ih ..)

theorem soft_check (s : St) (krs : List KRoute) (u : Bool) : Softs c w P s (checkXroutes c s krs u) := soft_merge ..

omit hP in
theorem hard_choose (s : St) (n : NeighId) (k : PKey) (r : Option Route) : Hard s (chooseSuccessor c s n k r).2 := by
  unfold chooseSuccessor
  simp only
  split
  · split
    · next e => exact hard_findBest' e
    · next e =>
      split
      · exact hard_findBest' e
      · exact hard_findBest' e
  · exact .refl s

omit hP in
theorem soft_answerOwn (s : St) (n : NeighId) (k : PKey) (h : Nat) (q : UInt16) (id : Bytes) :
    Softs c w P s (answerOwn c s n k h q id) := by
  unfold answerOwn
  split
  · split
    · exact .refl s
    · have h0 : Hard s { s with myseqno := seqnoPlus s.myseqno 1 } := ⟨rfl, rfl, rfl, rfl, [], rfl, by simp⟩
      exact h0.soft.step (.sendIf ..)
  · exact (Soft.sendIf ..).one

omit hP in
/-- A request is forwarded with one hop less. -/
theorem soft_handle (s : St) (n : NeighId) (k : PKey) (h : Nat) (q : UInt16) (id : Bytes)
    (hr : P.recs) (hp : ∀ m, m ≠ n → 2 ≤ h → P.mh (some m) k q id (h - 1)) : Softs c w P s (handleRequest c s n k h q id) := by
  unfold handleRequest
  split
  · exact soft_answerOwn ..
  · simp only
    split
    · exact (Soft.sendIf ..).one
    · split
      · exact .refl s
      · next hh =>
        split
        · exact .refl s
        · split
          · exact .refl s
          · refine (hard_choose (c := c) s n k (findInstalled s k)).soft.trans ?_
            unfold forwardRequest
            split
            · exact .refl _
            · split
              · exact .refl _
              · next hm => exact (soft_umh _ _ _ _ _ _ (hp _ hm (by omega))).step (.record _ _ _ _ _ _ hr (by intro h; cases h))

end Babel
