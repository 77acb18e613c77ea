import Verif.Lemmas.Walk2
import Verif.Lemmas.Told
import Verif.Spec.Room
/-
The queues of updates have room for what is written to them.
-/
set_option linter.unusedSimpArgs false
set_option linter.unusedVariables false
namespace Babel
open Spec

theorem Spec.Room.of_ifaces {s s' : St} (h : Room s) (e : s'.ifaces = s.ifaces) : Room s' := by
  intro i x hx
  unfold getIf at hx
  rw [e] at hx
  exact h i x hx

theorem Spec.Room.modIf {s : St} (h : Room s) (i : IfId) (f : Iface → Iface) (hf : ∀ x, (f x).ifindex = x.ifindex)
    (hq : ∀ x, (x.queue.length ≤ x.queueCap ∧ (x.queue = [] → x.queueCap = 0)) →
      (f x).queue.length ≤ (f x).queueCap ∧ ((f x).queue = [] → (f x).queueCap = 0)) : Room (modIf s i f) := by
  intro j x hx
  rw [getIf_modIf _ _ f hf] at hx
  split at hx
  · cases hg : getIf s j with
    | none => rw [hg] at hx; cases hx
    | some y =>
      rw [hg] at hx
      cases hx
      exact hq y (h j y hg)
  · exact h j x hx

theorem reallySend_ifaces (c : Cfg) (s : St) (i : IfId) (id : Bytes) (k : PKey) (q : UInt16) (m : Nat) :
    (reallySend c s i id k q m).ifaces = s.ifaces := by
  unfold reallySend
  repeat' (first | rfl | split | simp only)

theorem updateSource_if (s : St) (k : SKey) (q : UInt16) (m : Nat) : (updateSource s k q m).ifaces = s.ifaces := by
  unfold updateSource
  repeat' (first | rfl | split | simp only)

theorem record_ifaces (c : Cfg) (s : St) (kd : RKind) (k : PKey) (q : UInt16) (id : Option Bytes) (ifp : Option IfId) (d : Nat) :
    (recordResend c s kd k q id ifp d).ifaces = s.ifaces := (record_fields ..).2.1

theorem flushOne_ifaces (c : Cfg) (s : St) (i : IfId) (k : PKey) : (flushOne c s i k).1.ifaces = s.ifaces := by
  unfold flushOne
  split
  · exact reallySend_ifaces ..
  · split
    · next r _ =>
      unfold flushRt
      simp only
      have h : (if routeMetric r < INFINITY then satisfyRequest s r.key r.seqno r.id (some i) else s).ifaces = s.ifaces := by
        split
        · exact satisfy_ifaces ..
        · rfl
      split
      · exact h
      · show (updateSource _ _ _ _).ifaces = _
        exact ((updateSource_if ..).trans (reallySend_ifaces ..)).trans h
    · exact reallySend_ifaces ..

theorem flushLoop_ifaces (c : Cfg) (i : IfId) (l : List PKey) (last : Option PKey) (s : St) :
    (flushLoop c i l last s).ifaces = s.ifaces := by
  induction l generalizing last s with
  | nil => rfl
  | cons k l ih =>
    unfold flushLoop
    split
    · exact ih ..
    · simp only
      rw [ih, flushOne_ifaces]

theorem reallySend_ann (c : Cfg) (s : St) (i : IfId) (id : Bytes) (k : PKey) (q : UInt16) (m : Nat) :
    SameAnn s (reallySend c s i id k q m) := by
  unfold reallySend
  repeat' (first | exact .refl s | exact sameAnn_emit .. | split | simp only)

theorem flushOne_ann (c : Cfg) (s : St) (i : IfId) (k : PKey) : SameAnn s (flushOne c s i k).1 := by
  unfold flushOne
  split
  · exact reallySend_ann ..
  · split
    · next r _ =>
      unfold flushRt
      simp only
      have h : SameAnn s (if routeMetric r < INFINITY then satisfyRequest s r.key r.seqno r.id (some i) else s) := by
        split
        · exact (satisfy_same ..).1
        · exact .refl s
      split
      · exact h
      · exact (h.trans (reallySend_ann ..)).trans (updateSource_same ..).1
    · exact reallySend_ann ..

theorem flushLoop_ann (c : Cfg) (i : IfId) (l : List PKey) (last : Option PKey) (s : St) : SameAnn s (flushLoop c i l last s) := by
  induction l generalizing last s with
  | nil => exact .refl s
  | cons k l ih =>
    unfold flushLoop
    split
    · exact ih ..
    · exact (flushOne_ann ..).trans (ih ..)

theorem flushUpdates_ann (c : Cfg) (s : St) (i : IfId) : SameAnn s (flushUpdates c s i) := by
  unfold flushUpdates
  split
  · exact .refl s
  · simp only
    refine SameAnn.trans ?_ (sameAnn_modIf ..)
    split
    · exact .refl s
    · split
      · exact sameAnn_modIf ..
      · exact (sameAnn_modIf ..).trans (flushLoop_ann ..)

theorem queueSize_ann {s s' : St} (h : SameAnn s s') (x : Iface) : queueSize s' x = queueSize s x := by
  unfold queueSize slotCount
  rw [h.routes, h.xroutes]

/-- What a flush does to the queues. -/
theorem flushUpdates_getIf {c : Cfg} {s : St} {i : IfId} {x : Iface} (hx : getIf s i = some x) (j : IfId) :
    getIf (flushUpdates c s i) j = if j = i then (getIf s j).map (fun y =>
      { y with queue := (if x.queue = [] then y.queue else []), queueCap := (if x.queue = [] then y.queueCap else 0), updateFlush := ⟨0, 0⟩ })
      else getIf s j := by
  unfold flushUpdates
  rw [hx]
  simp only
  rw [getIf_modIf _ _ (fun x => { x with updateFlush := ⟨0, 0⟩ }) (fun _ => rfl)]
  by_cases hq : x.queue = []
  · simp [hq]
  · have h0 : x.queue.isEmpty = false := by simpa using hq
    rw [h0]
    simp only [Bool.false_eq_true, if_false, if_neg hq]
    have hc : ∀ s', s'.ifaces = (modIf s i (fun x => { x with queue := [], queueCap := 0 })).ifaces →
        getIf s' j = if j = i then (getIf s j).map (fun x => { x with queue := [], queueCap := 0 }) else getIf s j := by
      intro s' e
      rw [← getIf_modIf s i (fun x => { x with queue := [], queueCap := 0 }) (fun _ => rfl)]
      unfold getIf
      rw [e]
    split
    · next hj =>
      split
      · rw [hc _ rfl, if_pos hj, Option.map_map]; rfl
      · rw [hc _ (flushLoop_ifaces ..), if_pos hj, Option.map_map]; rfl
    · next hj =>
      split
      · rw [hc _ rfl, if_neg hj]
      · rw [hc _ (flushLoop_ifaces ..), if_neg hj]

theorem Spec.Room.flush {c : Cfg} {s : St} (h : Room s) (i : IfId) : Room (flushUpdates c s i) := by
  cases hx : getIf s i with
  | none => rw [flushUpdates_none hx]; exact h
  | some x =>
    intro j y hy
    rw [flushUpdates_getIf hx] at hy
    split at hy
    · next hj =>
      subst hj
      rw [hx] at hy
      cases hy
      have := h j x hx
      by_cases hq : x.queue = [] <;> simp_all
    · exact h j y hy

theorem queueSize_four (s : St) (x : Iface) : 4 ≤ queueSize s x := by
  unfold queueSize; omega

/-- The queue of the interface after an update has been queued. -/
theorem bufferUpdate_queue {c : Cfg} {s : St} (h : Room s) {i : IfId} {x : Iface} (hx : getIf s i = some x) (k : PKey) :
    (∀ j, j ≠ i → getIf (bufferUpdate c s i k) j = getIf s j) ∧
    ∃ y, getIf (bufferUpdate c s i k) i = some y ∧
      (x.queue.length < x.queueCap → y.queue = x.queue ++ [k] ∧ y.queueCap = x.queueCap) ∧
      (x.queue.length = x.queueCap → y.queue = [k] ∧
        y.queueCap = queueSize s x) := by
  have hr := (h i x hx).1
  unfold bufferUpdate
  rw [hx]
  simp only
  by_cases hf : x.queue.length > 0 ∧ x.queue.length ≥ x.queueCap
  · rw [if_pos hf]
    have hq : x.queue ≠ [] := by intro e; rw [e] at hf; simp at hf
    refine ⟨fun j hj => ?_, ?_⟩
    · rw [getIf_modIf _ _ _ (by intro; rfl), if_neg hj, flushUpdates_getIf hx, if_neg hj]
    · rw [getIf_modIf _ _ _ (by intro; rfl), if_pos rfl, flushUpdates_getIf hx, if_pos rfl, hx]
      refine ⟨_, rfl, fun hlt => absurd hf.2 (by omega), fun _ => ?_⟩
      simp only [if_neg hq, List.nil_append, if_true, true_and]
      exact queueSize_ann (flushUpdates_ann ..) x
  · rw [if_neg hf]
    refine ⟨fun j hj => ?_, ?_⟩
    · rw [getIf_modIf _ _ _ (by intro; rfl), if_neg hj]
    · rw [getIf_modIf _ _ _ (by intro; rfl), if_pos rfl, hx]
      refine ⟨_, rfl, fun hlt => ⟨rfl, if_neg (by omega)⟩, fun he => ?_⟩
      have h0 : x.queue.length = 0 := by
        rcases Nat.eq_zero_or_pos x.queue.length with e | e
        · exact e
        · exact absurd ⟨e, by omega⟩ hf
      have hq : x.queue = [] := List.length_eq_zero_iff.1 h0
      have hc : x.queueCap = 0 := by omega
      exact ⟨by show x.queue ++ [k] = [k]; rw [hq]; rfl, if_pos hc⟩

theorem Spec.Room.buffer {c : Cfg} {s : St} (h : Room s) (i : IfId) (k : PKey) : Room (bufferUpdate c s i k) := by
  cases hx : getIf s i with
  | none => unfold bufferUpdate; rw [hx]; exact h
  | some x =>
    obtain ⟨h1, y, h2, h3, h4⟩ := bufferUpdate_queue (c := c) h hx k
    intro j z hz
    by_cases hj : j = i
    · subst hj
      rw [h2] at hz
      cases hz
      rcases Nat.lt_or_eq_of_le (h j x hx).1 with hl | he
      · obtain ⟨a, b⟩ := h3 hl
        rw [a, b]; exact ⟨by simp; omega, by simp⟩
      · obtain ⟨a, b⟩ := h4 he
        rw [a, b]
        have := queueSize_four s x
        exact ⟨by simp only [List.length_singleton]; omega, by simp⟩
    · rw [h1 j hj] at hz
      exact h j z hz

theorem Spec.Room.sched {s : St} (h : Room s) (i : IfId) (u : Bool) : Room (scheduleUpdateFlush s i u) := by
  unfold scheduleUpdateFlush
  split
  · exact h
  · simp only
    split
    · exact h.of_ifaces rfl
    · exact Spec.Room.modIf (h.of_ifaces rfl) _ _ (fun _ => rfl) (fun _ hh => hh)

variable {c : Cfg} {w : Option IfId} {P : Perm}

theorem Spec.Room.sendIf {s : St} (h : Room s) (i : IfId) (u : Bool) (k : PKey) : Room (sendUpdateIf c s i u k) := by
  unfold sendUpdateIf
  split
  · exact h
  · exact (h.buffer i k).sched i u

theorem Spec.Room.soft' {s t : St} (hw : w ≠ none) (h : Room s) (g : Soft c w P s t) : Room t := by
  cases g with
  | hard g => exact h.of_ifaces g.ifaces
  | flush i => exact h.flush i
  | buffer i k _ => exact h.buffer i k
  | sendIf i u k => exact h.sendIf i u k
  | wild _ _ _ e => exact absurd e hw
  | sched i u => exact h.sched i u
  | timeout i t => exact Spec.Room.modIf h _ _ (fun _ => rfl) (fun _ hh => hh)
  | satisfy => exact h.of_ifaces (satisfy_ifaces ..)
  | record => exact h.of_ifaces (record_ifaces ..)
  | request => exact h.of_ifaces rfl
  | mh => exact h.of_ifaces rfl

theorem Spec.Room.softs' {s t : St} (hw : w ≠ none) (h : Room s) (g : Softs c w P s t) : Room t := by
  induction g with
  | refl => exact h
  | step _ m ih => exact ih.soft' hw m

theorem Spec.Room.wild {s : St} (h : Room s) (i : IfId) (u ss : Bool) : Room (sendUpdateWild c s i u ss) := by
  by_cases hu : ifUp s i = true
  · obtain ⟨s', h1, h2⟩ := soft_wildParts (c := c) (P := Perm.all) s i u ss hu
    rw [h2]
    exact (h.softs' (by simp) h1).sched i u
  · unfold sendUpdateWild
    simp only [Bool.not_eq_true] at hu
    rw [hu]
    exact h

theorem Spec.Room.soft {s t : St} (h : Room s) (g : Soft c w P s t) : Room t := by
  cases g with
  | wild i u ss _ => exact h.wild i u ss
  | hard g => exact h.of_ifaces g.ifaces
  | flush i => exact h.flush i
  | buffer i k _ => exact h.buffer i k
  | sendIf i u k => exact h.sendIf i u k
  | sched i u => exact h.sched i u
  | timeout i t => exact Spec.Room.modIf h _ _ (fun _ => rfl) (fun _ hh => hh)
  | satisfy => exact h.of_ifaces (satisfy_ifaces ..)
  | record => exact h.of_ifaces (record_ifaces ..)
  | request => exact h.of_ifaces rfl
  | mh => exact h.of_ifaces rfl

theorem Spec.Room.softs {s t : St} (h : Room s) (g : Softs c w P s t) : Room t := by
  induction g with
  | refl => exact h
  | step _ m ih => exact ih.soft m

theorem Spec.Room.resendOne {s : St} (h : Room s) (j : Nat) : Room (doResendOne c s j) := by
  unfold doResendOne
  split
  · exact h
  · next r _ =>
    split
    · simp only
      refine Spec.Room.of_ifaces (s := match r.kind with
        | .request => sendMulticastMh c s r.ifp r.key r.seqno r.id 127
        | .update => sendUpdateOpt c s r.ifp r.key) ?_ rfl
      split
      · exact h.softs (soft_mmh (c := c) (w := none) (P := Perm.all) _ _ _ _ _ _ trivial)
      · exact h.softs (soft_updateOpt (c := c) (w := none) (P := Perm.all) ..)
    · exact h

theorem Spec.Room.step {s : St} (h : Room s) (ev : Ev) : Room (step c s ev) := by
  cases hs : Ev.special ev with
  | false => exact h.softs (soft_step (P := Perm.all) s ev hs (fun _ _ _ _ _ _ _ _ _ => trivial))
  | true =>
    cases ev with
    | tick t => exact h.of_ifaces rfl
    | ifDown i =>
      refine Spec.Room.modIf ?_ _ _ (fun _ => rfl) (fun _ _ => ⟨Nat.le_refl _, fun _ => rfl⟩)
      exact (Spec.Room.modIf h i (fun x => { x with up := false }) (fun _ => rfl) (fun _ hh => hh)).softs
        (soft_flushWhere (c := c) (w := none) (P := Perm.all) ..)
    | ifUp i full =>
      have h1 := Spec.Room.modIf h i (fun x => { x with up := true }) (fun _ => rfl) (fun _ hh => hh)
      have h2 : Room (announceUp c (Babel.modIf s i (fun x => { x with up := true })) i full) := by
        unfold announceUp
        split
        · exact h1.softs (soft_any (c := c) (P := Perm.all) ..)
        · exact h1
      exact h2.softs (soft_mrequestIf (c := c) (w := none) (P := Perm.all) ..)
    | expireResend =>
      show Room (expireResend s)
      unfold expireResend
      split
      · exact h.of_ifaces rfl
      · exact h
    | doResend =>
      show Room (recomputeResendTime _)
      refine Spec.Room.of_ifaces ?_ rfl
      generalize List.range s.resends.length = l
      clear hs
      induction l generalizing s with
      | nil => exact h
      | cons j l ih => exact ih (h.resendOne j)
    | _ => cases hs

theorem Spec.Room.run {s : St} (h : Room s) (evs : List Ev) : Room (run c s evs) := by
  induction evs generalizing s with
  | nil => exact h
  | cons e es ih => exact ih (h.step e)

end Babel
