import Verif.Lemmas.Fine
import Verif.Spec.Told
/-
The operations on the update queues, from the point of view of what has been said about each destination.
-/
set_option linter.unusedSimpArgs false
set_option linter.unusedVariables false
set_option linter.unusedSectionVars false
namespace Babel
open Spec

/-- An interface without its update queue. -/
def Iface.params (x : Iface) : Iface := { x with queue := [], queueCap := 0, updateFlush := ⟨0, 0⟩, updateTimeout := ⟨0, 0⟩ }

theorem Iface.params_flushed (x : Iface) : (flushedIf x).params = x.params := rfl

theorem announcement_params (c : Cfg) (s : St) {a b : Iface} (h : a.params = b.params) (k : PKey) :
    announcement c s a k = announcement c s b k := by
  have h1 : a.ifindex = b.ifindex := (congrArg Iface.ifindex h : _)
  have h2 : a.splitHorizon = b.splitHorizon := (congrArg Iface.splitHorizon h : _)
  have h3 : a.rfc6126 = b.rfc6126 := (congrArg Iface.rfc6126 h : _)
  have h4 : a.hasV4 = b.hasV4 := (congrArg Iface.hasV4 h : _)
  have h5 : a.v4viav6 = b.v4viav6 := (congrArg Iface.v4viav6 h : _)
  unfold announcement news splitHorizon Barred
  rw [h1, h2, h3, h4, h5]

theorem params_up {a b : Iface} (h : a.params = b.params) : a.up = b.up := (congrArg Iface.up h : _)
theorem params_id {a b : Iface} (h : a.params = b.params) : a.ifindex = b.ifindex := (congrArg Iface.ifindex h : _)

theorem announcement_aboutKey {c : Cfg} {s : St} {ifp : Iface} {k : PKey} {o : Out} (h : announcement c s ifp k = some o)
    (i : IfId) (k' : PKey) : aboutKey i k' o = (ifp.ifindex == i && k == k') := by
  unfold announcement at h
  split at h
  · cases h
  · split at h
    · cases h
    · simp only [Option.some.injEq] at h
      subst h
      rfl

/-- The parts of the state announcements depend on are the same. -/
structure AnnEq (s s' : St) : Prop where
  routes : s'.routes.map Route.core = s.routes.map Route.core
  xroutes : s'.xroutes = s.xroutes
  myseqno : s'.myseqno = s.myseqno

theorem AnnEq.refl (s : St) : AnnEq s s := ⟨rfl, rfl, rfl⟩
theorem AnnEq.trans {a b d : St} (h : AnnEq a b) (g : AnnEq b d) : AnnEq a d :=
  ⟨g.routes.trans h.routes, g.xroutes.trans h.xroutes, g.myseqno.trans h.myseqno⟩
theorem SameAnn.eqv {s s' : St} (h : SameAnn s s') : AnnEq s s' := ⟨by rw [h.routes], h.xroutes, h.myseqno⟩
theorem Frame.annEq {s s' : St} (h : Frame s s') : AnnEq s s' := ⟨h.routes, h.xroutes, h.myseqno⟩

theorem selectedRoute_core {s s' : St} (h : s'.routes.map Route.core = s.routes.map Route.core) (k : PKey) :
    (selectedRoute s' k).map Route.core = (selectedRoute s k).map Route.core :=
  find_core h _ (fun _ => rfl)

/-- The announcement about `k` depends on the selected route to `k` and on the redistributed route to `k` only. -/
theorem announcement_congr {c : Cfg} {s s' : St} {k : PKey} (hr : (selectedRoute s' k).map Route.core = (selectedRoute s k).map Route.core)
    (hx : exported s' k = exported s k) (hm : s'.myseqno = s.myseqno) (ifp : Iface) :
    announcement c s' ifp k = announcement c s ifp k := by
  have h1 : ownRoute c s' k = ownRoute c s k := by
    unfold ownRoute
    rw [hx]
    have : (selectedRoute s' k).isNone = (selectedRoute s k).isNone := by
      have := congrArg Option.isNone hr
      simpa using this
    rw [this]
  unfold announcement news
  rw [h1, hm]
  cases e : selectedRoute s k with
  | none =>
    rw [e] at hr
    rw [show selectedRoute s' k = none by simpa using hr]
  | some r =>
    rw [e] at hr
    obtain ⟨r', e', hc⟩ := map_core_some hr
    rw [e']
    have h2 : splitHorizon c ifp r' = splitHorizon c ifp r := by
      unfold splitHorizon; rw [core_neigh hc]
    cases ownRoute c s k with
    | some x => rfl
    | none =>
      simp only
      rw [h2, core_id hc, core_seqno hc, core_metric hc]

theorem AnnEq.announcement {s s' : St} (h : AnnEq s s') (c : Cfg) (ifp : Iface) (k : PKey) :
    announcement c s' ifp k = announcement c s ifp k :=
  announcement_congr (selectedRoute_core h.routes k) (by unfold exported; rw [h.xroutes]) h.myseqno ifp

/-- Operations on the queues: a queued destination remains queued or is announced, and only the truth is said. -/
structure Quiet (c : Cfg) (s s' : St) : Prop where
  ann : AnnEq s s'
  ids : allIfs s' = allIfs s
  told : ∀ i ifp, getIf s i = some ifp → ∃ ifp', getIf s' i = some ifp' ∧ ifp'.params = ifp.params ∧ ∀ k,
    (k ∈ ifp.queue → ifp.up = true →
      k ∈ ifp'.queue ∨ ∀ o, announcement c s ifp k = some o → lastUpdate i k s'.out = some o) ∧
    (lastUpdate i k s'.out = lastUpdate i k s.out ∨
      ∃ o, announcement c s ifp k = some o ∧ lastUpdate i k s'.out = some o)

variable {c : Cfg}

theorem Quiet.refl (s : St) : Quiet c s s :=
  ⟨.refl s, rfl, fun i ifp h => ⟨ifp, h, rfl, fun k => ⟨fun h _ => .inl h, .inl rfl⟩⟩⟩

theorem Quiet.trans {a b d : St} (h : Quiet c a b) (g : Quiet c b d) : Quiet c a d := by
  refine ⟨h.ann.trans g.ann, g.ids.trans h.ids, ?_⟩
  intro i ifp hi
  obtain ⟨x, hx, px, h1⟩ := h.told i ifp hi
  obtain ⟨y, hy, py, h2⟩ := g.told i x hx
  refine ⟨y, hy, py.trans px, fun k => ?_⟩
  obtain ⟨h1a, h1b⟩ := h1 k
  obtain ⟨h2a, h2b⟩ := h2 k
  rw [h.ann.announcement, announcement_params c a px] at h2a h2b
  refine ⟨?_, ?_⟩
  · intro hk hup
    rcases h1a hk hup with h3 | h3
    · exact h2a h3 ((params_up px).trans hup)
    · right
      intro o ho
      rcases h2b with h4 | ⟨o', h4, h5⟩
      · rw [h4]; exact h3 o ho
      · rw [ho] at h4
        cases h4
        exact h5
  · rcases h2b with h4 | h4
    · rw [h4]; exact h1b
    · exact .inr h4

theorem Quiet.upToDate {s s' : St} (h : Quiet c s s') {i : IfId} {k : PKey} (hu : UpToDate c s i k) : UpToDate c s' i k := by
  intro x hx hxu
  cases hi : getIf s i with
  | none =>
    exfalso
    have h1 : i ∈ allIfs s' := List.mem_map.2 ⟨x, (getIf_mem hx).2, (getIf_mem hx).1⟩
    rw [h.ids] at h1
    obtain ⟨y, hy, e⟩ := List.mem_map.1 h1
    unfold getIf at hi
    rw [List.find?_eq_none] at hi
    exact hi y hy (by simp [e])
  | some ifp =>
    obtain ⟨y, hy, py, h1⟩ := h.told i ifp hi
    rw [hx] at hy
    cases hy
    obtain ⟨h1a, h1b⟩ := h1 k
    have hup : ifp.up = true := (params_up py).symm.trans hxu
    rw [h.ann.announcement, announcement_params c s py]
    rcases hu ifp hi hup with h2 | h2
    · exact h1a h2 hup
    · right
      intro o ho
      rcases h1b with h3 | ⟨o', h3, h4⟩
      · rw [h3]; exact h2 o ho
      · rw [ho] at h3; cases h3; exact h4

theorem Quiet.linv {s s' : St} (h : Quiet c s s') (hl : LInv c s.routes) : LInv c s'.routes := by
  exact hl.core h.ann.routes

theorem Quiet.foldl {α : Type} (f : St → α → St) (h : ∀ s a, LInv c s.routes → Quiet c s (f s a)) (l : List α) (s : St)
    (hl : LInv c s.routes) : Quiet c s (l.foldl f s) := by
  induction l generalizing s with
  | nil => exact .refl s
  | cons a l ih => exact (h s a hl).trans (ih _ ((h s a hl).linv hl))

/-- Nothing but the clock of the random generator and the pending requests changes, and no update is sent. -/
theorem Quiet.of {s s' : St} (h : AnnEq s s') (hi : s'.ifaces = s.ifaces)
    (ho : ∃ new, s'.out = new ++ s.out ∧ ∀ o ∈ new, ∀ i k, aboutKey i k o = false) : Quiet c s s' := by
  refine ⟨h, by unfold allIfs; rw [hi], ?_⟩
  intro i ifp hg
  refine ⟨ifp, by unfold getIf; rw [hi]; exact hg, rfl, fun k => ⟨fun h _ => .inl h, .inl ?_⟩⟩
  obtain ⟨new, e, hn⟩ := ho
  unfold lastUpdate
  rw [e, List.find?_append, List.find?_eq_none.2 (fun o h => by simp [hn o h i k])]
  rfl

theorem quiet_emit (s : St) (o : Out) (h : ∀ i k, aboutKey i k o = false) : Quiet c s (emit s o) :=
  .of ⟨rfl, rfl, rfl⟩ rfl ⟨[o], rfl, by simpa using h⟩

/-- The parameters of an interface are unchanged and its queue is kept. -/
theorem Quiet.modIf (s : St) (i : IfId) (f : Iface → Iface) (hp : ∀ x, (f x).params = x.params)
    (hq : ∀ x k, k ∈ x.queue → k ∈ (f x).queue) : Quiet c s (Babel.modIf s i f) := by
  refine ⟨(sameAnn_modIf ..).eqv, ?_, ?_⟩
  · unfold allIfs Babel.modIf
    simp only [List.map_map]
    apply List.map_congr_left
    intro x _
    simp only [Function.comp]
    split
    · exact params_id (hp x)
    · rfl
  · intro j ifp hj
    rw [getIf_modIf _ _ _ (fun x => params_id (hp x)), hj]
    split
    · exact ⟨_, rfl, hp ifp, fun k => ⟨fun h _ => .inl (hq ifp k h), .inl rfl⟩⟩
    · exact ⟨ifp, rfl, rfl, fun k => ⟨fun h _ => .inl h, .inl rfl⟩⟩

theorem allIfs_modIf (s : St) (i : IfId) (f : Iface → Iface) (hf : ∀ x, (f x).ifindex = x.ifindex) :
    allIfs (Babel.modIf s i f) = allIfs s := by
  unfold allIfs Babel.modIf
  simp only [List.map_map]
  apply List.map_congr_left
  intro x _
  simp only [Function.comp]
  split
  · exact hf x
  · rfl

theorem find_rev_filterMap {c : Cfg} {s : St} {ifp : Iface} (L : List PKey) (k : PKey) :
    ((L.filterMap (announcement c s ifp)).reverse).find? (aboutKey ifp.ifindex k) =
      if k ∈ L then announcement c s ifp k else none := by
  induction L with
  | nil => simp
  | cons a L ih =>
    rw [List.filterMap_cons]
    cases ha : announcement c s ifp a with
    | none =>
      simp only
      rw [ih]
      by_cases e : k = a
      · subst e
        simp only [List.mem_cons, true_or, if_true]
        split <;> simp [ha]
      · simp [e]
    | some o =>
      simp only
      rw [List.reverse_cons, List.find?_append, ih]
      have hu := announcement_aboutKey ha ifp.ifindex k
      by_cases e : k = a
      · subst e
        simp only [List.mem_cons, true_or, if_true]
        by_cases hk : k ∈ L
        · rw [if_pos hk, ha]; rfl
        · rw [if_neg hk]
          simp [hu, ha]
      · have : (a == k) = false := by simpa using Ne.symm e
        rw [this, Bool.and_false] at hu
        simp [e, hu]

theorem find_rev_other {c : Cfg} {s : St} {ifp : Iface} (L : List PKey) (k : PKey) {i : IfId} (h : i ≠ ifp.ifindex) :
    ((L.filterMap (announcement c s ifp)).reverse).find? (aboutKey i k) = none := by
  rw [List.find?_eq_none]
  intro o ho
  rw [List.mem_reverse, List.mem_filterMap] at ho
  obtain ⟨a, -, ha⟩ := ho
  rw [announcement_aboutKey ha]
  simp [Ne.symm h]

theorem allIfs_of_ifaces {s s' : St} (h : s'.ifaces = s.ifaces) : allIfs s' = allIfs s := by
  unfold allIfs; rw [h]

theorem satisfy_ifaces (s : St) (k : PKey) (q : UInt16) (id : Bytes) (i : Option IfId) :
    (satisfyRequest s k q id i).ifaces = s.ifaces := by
  unfold satisfyRequest
  split
  · rfl
  · split
    · rfl
    · split <;> rfl

theorem record_fields_told (s : St) (kd : RKind) (k : PKey) (q : UInt16) (id : Option Bytes) (i : Option IfId) (d : Nat) :
    ∃ l t, recordResend c s kd k q id i d = { s with resends := l, resendTime := t } := by
  unfold recordResend armResend
  split
  · exact ⟨_, _, rfl⟩
  · split
    · simp only
      split
      · exact ⟨_, _, rfl⟩
      · split <;> exact ⟨_, _, rfl⟩
    · simp only
      split <;> exact ⟨_, _, rfl⟩

theorem satisfy_fields_told (s : St) (k : PKey) (q : UInt16) (id : Bytes) (i : Option IfId) :
    ∃ l t, satisfyRequest s k q id i = { s with resends := l, resendTime := t } := by
  unfold satisfyRequest recomputeResendTime
  split
  · exact ⟨_, _, rfl⟩
  · split
    · exact ⟨_, _, rfl⟩
    · split <;> exact ⟨_, _, rfl⟩

theorem quiet_satisfy (s : St) (k : PKey) (q : UInt16) (id : Bytes) (i : Option IfId) :
    Quiet c s (satisfyRequest s k q id i) := by
  obtain ⟨l, t, e⟩ := satisfy_fields_told s k q id i
  rw [e]
  exact .of ⟨rfl, rfl, rfl⟩ rfl ⟨[], rfl, by simp⟩

theorem quiet_record (s : St) (kd : RKind) (k : PKey) (q : UInt16) (id : Option Bytes) (i : Option IfId) (d : Nat) :
    Quiet c s (recordResend c s kd k q id i d) := by
  obtain ⟨l, t, e⟩ := record_fields_told (c := c) s kd k q id i d
  rw [e]
  exact .of ⟨rfl, rfl, rfl⟩ rfl ⟨[], rfl, by simp⟩

theorem quiet_schedule (s : St) (i : IfId) (u : Bool) : Quiet c s (scheduleUpdateFlush s i u) := by
  unfold scheduleUpdateFlush
  split
  · exact .refl s
  · simp only
    have h : Quiet c s (popRand s).2 := .of ⟨rfl, rfl, rfl⟩ rfl ⟨[], rfl, by simp⟩
    split
    · exact h
    · have h2 : Quiet c s (popRand (popRand s).2).2 := .of ⟨rfl, rfl, rfl⟩ rfl ⟨[], rfl, by simp⟩
      exact h2.trans (.modIf _ _ _ (fun _ => rfl) (fun _ _ h => h))

theorem Fine.ids {P : Perm} {s s' : St} (h : Fine c P s s') : allIfs s' = allIfs s := by
  cases h with
  | hard h => exact allIfs_of_ifaces h.ifaces
  | update => rfl
  | clear => exact allIfs_modIf _ _ _ (fun _ => rfl)
  | unset => exact allIfs_modIf _ _ _ (fun _ => rfl)
  | push => exact allIfs_modIf _ _ _ (fun _ => rfl)
  | sched i u => exact (quiet_schedule (c := c) s i u).ids
  | timeout => exact allIfs_modIf _ _ _ (fun _ => rfl)
  | satisfy k q id i => exact (quiet_satisfy (c := c) s k q id i).ids
  | record kd k q id i d => exact (quiet_record (c := c) s kd k q id i d).ids
  | request => rfl
  | mh => rfl

theorem Fines.ids {P : Perm} {s s' : St} (h : Fines c P s s') : allIfs s' = allIfs s := by
  induction h with
  | refl => rfl
  | step _ m ih => exact m.ids.trans ih

/-- Everything is allowed. -/
def anyPerm : Perm := ⟨fun _ _ _ _ _ => True, True⟩

theorem quiet_flush {s : St} (hl : LInv c s.routes) (i : IfId) : Quiet c s (flushUpdates c s i) := by
  cases hg : getIf s i with
  | none => rw [flushUpdates_none hg]; exact .refl s
  | some ifp =>
    have hi := (getIf_mem hg).1
    subst hi
    obtain ⟨h1, h2, h3, L, h4, h5, -⟩ := flushUpdates_spec (c := c) hl hg
    refine ⟨h1.eqv, (fine_flush (P := anyPerm) s _).ids, ?_⟩
    intro j x hj
    by_cases e : j = ifp.ifindex
    · subst e
      rw [hg] at hj
      cases hj
      refine ⟨_, h2, rfl, fun k => ?_⟩
      unfold lastUpdate
      rw [h4]
      cases hu : ifp.up with
      | false => simp
      | true =>
        simp only [if_true]
        rw [List.find?_append, find_rev_filterMap]
        refine ⟨fun hk _ => .inr fun o ho => ?_, ?_⟩
        · rw [if_pos ((h5 k).2 hk), ho]; rfl
        · split
          · cases ha : announcement c s ifp k with
            | none => left; rfl
            | some o => right; exact ⟨o, rfl, rfl⟩
          · left; rfl
    · refine ⟨x, by rw [h3 j e]; exact hj, rfl, fun k => ⟨fun h _ => .inl h, .inl ?_⟩⟩
      unfold lastUpdate
      rw [h4, List.find?_append]
      split
      · rw [find_rev_other _ _ e]; rfl
      · rfl

theorem quiet_buffer {s : St} (hl : LInv c s.routes) (i : IfId) (k : PKey) : Quiet c s (bufferUpdate c s i k) := by
  unfold bufferUpdate
  split
  · exact .refl s
  · next ifp hg =>
    simp only
    have h1 : Quiet c s (if ifp.queue.length > 0 ∧ ifp.queue.length ≥ ifp.queueCap then flushUpdates c s i else s) := by
      split
      · exact quiet_flush hl i
      · exact .refl s
    exact h1.trans (.modIf _ _ _ (fun _ => rfl) (fun x k h => by simp [h]))

theorem quiet_sendIf {s : St} (hl : LInv c s.routes) (i : IfId) (u : Bool) (k : PKey) : Quiet c s (sendUpdateIf c s i u k) := by
  unfold sendUpdateIf
  split
  · exact .refl s
  · exact (quiet_buffer hl i k).trans (quiet_schedule ..)

theorem ifUp_iff {s : St} {i : IfId} : ifUp s i = true ↔ ∃ ifp, getIf s i = some ifp ∧ ifp.up = true := by
  unfold ifUp
  split
  · next x h => simp [h]
  · next h => simp [h]

/-- A destination for which an update was asked for is up to date. -/
theorem sendIf_upToDate {s : St} (hl : LInv c s.routes) (i : IfId) (u : Bool) (k : PKey) :
    UpToDate c (sendUpdateIf c s i u k) i k := by
  intro x hx hxu
  left
  unfold sendUpdateIf at hx
  split at hx
  · next h => exact absurd (ifUp_iff.2 ⟨x, hx, hxu⟩) (by simpa using h)
  · next h =>
    obtain ⟨ifp, hg, hup⟩ := ifUp_iff.1 (by simpa using h)
    have hi := (getIf_mem hg).1
    subst hi
    obtain ⟨h1, h2, y, hy, hk, -, hyi, -⟩ := bufferUpdate_spec (c := c) hl hg k
    rw [← hyi] at hy hx
    have h5 := schedule_spec hy u
    obtain ⟨-, -, -, t, ht, -⟩ := h5
    rw [ht] at hx
    cases hx
    exact hk

theorem sendUpdate_fold {l : List IfId} {s : St} (hl : LInv c s.routes) (u : Bool) (k : PKey) :
    Quiet c s (l.foldl (fun s i => sendUpdateIf c s i u k) s) ∧
    ∀ i ∈ l, UpToDate c (l.foldl (fun s i => sendUpdateIf c s i u k) s) i k := by
  induction l generalizing s with
  | nil => exact ⟨.refl s, by simp⟩
  | cons j l ih =>
    have h1 := quiet_sendIf hl j u k
    obtain ⟨h2, h3⟩ := ih (h1.linv hl)
    refine ⟨h1.trans h2, ?_⟩
    intro i hi
    rcases List.mem_cons.1 hi with rfl | hi
    · exact h2.upToDate (sendIf_upToDate hl i u k)
    · exact h3 i hi

theorem quiet_sendUpdate {s : St} (hl : LInv c s.routes) (u : Bool) (k : PKey) :
    Quiet c s (sendUpdate c s u k) ∧ ∀ i, UpToDate c (sendUpdate c s u k) i k := by
  obtain ⟨h1, h2⟩ := sendUpdate_fold (l := allIfs s) hl u k
  have h3 : Quiet c ((allIfs s).foldl (fun s i => sendUpdateIf c s i u k) s) (sendUpdate c s u k) := by
    unfold sendUpdate
    simp only
    split
    · exact .refl _
    · split
      · split
        · exact quiet_satisfy ..
        · exact .refl _
      · exact .refl _
  refine ⟨h1.trans h3, ?_⟩
  intro i
  by_cases hi : i ∈ allIfs s
  · exact h3.upToDate (h2 i hi)
  · intro x hx
    exfalso
    apply hi
    rw [← (h1.trans h3).ids]
    exact List.mem_map.2 ⟨x, (getIf_mem hx).2, (getIf_mem hx).1⟩

theorem quiet_sendUpdateResend {s : St} (hl : LInv c s.routes) (k : PKey) :
    Quiet c s (sendUpdateResend c s k) ∧ ∀ i, UpToDate c (sendUpdateResend c s k) i k := by
  unfold sendUpdateResend
  obtain ⟨h1, h2⟩ := quiet_sendUpdate hl true k
  have h3 := quiet_record (c := c) (sendUpdate c s true k) .update k 0 none none c.resendDelay
  exact ⟨h1.trans h3, fun i => h3.upToDate (h2 i)⟩

theorem quiet_request (s : St) (i : IfId) (to : Option NeighId) (k : Option PKey) : Quiet c s (sendRequest s i to k) := by
  unfold sendRequest
  split
  · exact quiet_emit _ _ (fun _ _ => rfl)
  · split
    · exact .refl s
    · exact quiet_emit _ _ (fun _ _ => rfl)

theorem quiet_mrequestIf {s : St} (hl : LInv c s.routes) (i : IfId) (k : Option PKey) :
    Quiet c s (sendMulticastRequestIf c s i k) := by
  unfold sendMulticastRequestIf
  split
  · exact .refl s
  · exact (quiet_flush hl i).trans (quiet_request ..)

theorem quiet_mrequest {s : St} (hl : LInv c s.routes) (k : Option PKey) : Quiet c s (sendMulticastRequest c s k) :=
  .foldl _ (fun s i hl => quiet_mrequestIf hl i k) _ _ hl

theorem quiet_urequest {s : St} (hl : LInv c s.routes) (n : NeighId) (k : PKey) : Quiet c s (sendUnicastRequest c s n k) := by
  unfold sendUnicastRequest
  split
  · exact .refl s
  · exact (quiet_flush hl _).trans (quiet_request ..)

theorem quiet_mh (s : St) (i : IfId) (to : Option NeighId) (k : PKey) (q : UInt16) (id : Bytes) (h : Nat) :
    Quiet c s (sendMh s i to k q id h) := by
  unfold sendMh
  split
  · exact .refl s
  · exact quiet_emit _ _ (fun _ _ => rfl)

theorem quiet_mmhIf {s : St} (hl : LInv c s.routes) (i : IfId) (k : PKey) (q : UInt16) (id : Bytes) (h : Nat) :
    Quiet c s (sendMulticastMhIf c s i k q id h) := by
  unfold sendMulticastMhIf
  simp only
  split
  · exact quiet_flush hl i
  · exact (quiet_flush hl i).trans (quiet_mh ..)

theorem quiet_mmh {s : St} (hl : LInv c s.routes) (i : Option IfId) (k : PKey) (q : UInt16) (id : Bytes) (h : Nat) :
    Quiet c s (sendMulticastMh c s i k q id h) := by
  unfold sendMulticastMh
  split
  · exact quiet_mmhIf hl ..
  · refine .foldl _ (fun s i hl => ?_) _ _ hl
    split
    · exact quiet_mmhIf hl ..
    · exact .refl s

theorem quiet_umh {s : St} (hl : LInv c s.routes) (n : NeighId) (k : PKey) (q : UInt16) (id : Bytes) (h : Nat) :
    Quiet c s (sendUnicastMh c s n k q id h) :=
  (quiet_flush hl _).trans (quiet_mh ..)

/-- Steps that leave the queues and what is announced alone. -/
theorem Hard.quiet {s s' : St} (h : Hard s s') (a : AnnEq s s') : Quiet c s s' := by
  refine .of a h.ifaces ?_
  obtain ⟨new, e, hn⟩ := h.out
  refine ⟨new, e, fun o ho i k => ?_⟩
  have := hn o ho
  cases o <;> first | rfl | simp [Out.silent] at this

theorem quiet_findBest {s s1 : St} {k : PKey} {fe : Bool} {ex b : Option NeighId} (e : findBest c s k fe ex = (b, s1)) :
    Quiet c s s1 := by
  have h := (frame_findBest c s k fe ex).annEq
  have g := hard_findBest c s k fe ex
  rw [e] at h g
  exact g.quiet h

theorem quiet_requestResend {s : St} (hl : LInv c s.routes) (k : PKey) (q : UInt16) (id : Bytes) :
    Quiet c s (sendRequestResend c s k q id) := by
  unfold sendRequestResend
  split
  · next e =>
    have h := quiet_findBest e
    exact (h.trans (quiet_umh (h.linv hl) ..)).trans (quiet_record ..)
  · next e =>
    have h := quiet_findBest e
    refine h.trans (.foldl _ (fun s i _ => ?_) _ _ (h.linv hl))
    split
    · exact quiet_mh ..
    · exact .refl s

/-- A step that does not change what is to be said about `k`. -/
theorem Hard.upToDate {s s' : St} (h : Hard s s') {i : IfId} {k : PKey}
    (hr : (selectedRoute s' k).map Route.core = (selectedRoute s k).map Route.core)
    (hx : exported s' k = exported s k) (hm : s'.myseqno = s.myseqno) (hu : UpToDate c s i k) : UpToDate c s' i k := by
  intro ifp hg hup
  unfold getIf at hg
  rw [h.ifaces] at hg
  rw [announcement_congr hr hx hm]
  rcases hu ifp hg hup with h1 | h1
  · exact .inl h1
  · right
    intro o ho
    obtain ⟨new, e, hn⟩ := h.out
    unfold lastUpdate
    rw [e, List.find?_append, List.find?_eq_none.2]
    · exact h1 o ho
    · intro o ho
      have := hn o ho
      cases o <;> first | (exfalso; simp [Out.silent] at this; done) | simp [aboutKey]

end Babel
