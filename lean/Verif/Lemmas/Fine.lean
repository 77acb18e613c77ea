import Verif.Lemmas.Soft
/-
Finer decomposition: the operations of `Lemmas/Soft.lean` as sequences of changes of single fields.
-/
set_option linter.unusedSimpArgs false
set_option linter.unusedVariables false
set_option linter.unusedSectionVars false
namespace Babel
open Spec

/-- Changes of the soft state. -/
inductive Fine (c : Cfg) (P : Perm) : St → St → Prop
  | hard {s s'} : Hard s s' → Fine c P s s'
  | update {s} (i : IfId) (id : Bytes) (k : PKey) (q : UInt16) (m : Nat) : ifUp s i = true →
      Fine c P s (emit s (.update i id k q m))
  | clear {s} (i : IfId) : Fine c P s (modIf s i (fun x => { x with queue := [], queueCap := 0 }))
  | unset {s} (i : IfId) : Fine c P s (modIf s i (fun x => { x with updateFlush := ⟨0, 0⟩ }))
  | push {s} (i : IfId) (k : PKey) (cap : Iface → Nat) : Fine c P s (modIf s i (fun x => { x with
      queue := x.queue ++ [k], queueCap := cap x }))
  | sched {s} (i : IfId) (urgent : Bool) : Fine c P s (scheduleUpdateFlush s i urgent)
  | timeout {s} (i : IfId) (t : Iface → Timeval) : Fine c P s (modIf s i (fun x => { x with updateTimeout := t x }))
  | satisfy {s} (k : PKey) (q : UInt16) (id : Bytes) (ifp : Option IfId) : Fine c P s (satisfyRequest s k q id ifp)
  | record {s} (kd : RKind) (k : PKey) (q : UInt16) (id : Option Bytes) (ifp : Option IfId) (d : Nat) :
      P.recs → (kd = .update → id = none) → Fine c P s (recordResend c s kd k q id ifp d)
  | request {s} (i : IfId) (to : Option NeighId) (k : Option PKey) : Fine c P s (emit s (.request i to k))
  | mh {s} (i : IfId) (to : Option NeighId) (k : PKey) (q : UInt16) (id : Bytes) (hop : Nat) : P.mh to k q id hop →
      Fine c P s (emit s (.mhRequest i to k q id hop))

/-- Sequences of changes. -/
inductive Fines (c : Cfg) (P : Perm) : St → St → Prop
  | refl (s) : Fines c P s s
  | step {s t u} : Fines c P s t → Fine c P t u → Fines c P s u

variable {c : Cfg} {w : Option IfId} {P : Perm}

theorem Fines.trans {s t u : St} (h : Fines c P s t) (g : Fines c P t u) : Fines c P s u := by
  induction g with
  | refl => exact h
  | step _ m ih => exact ih.step m

theorem Fine.one {s t : St} (h : Fine c P s t) : Fines c P s t := (Fines.refl s).step h
theorem Hard.fine {s t : St} (h : Hard s t) : Fines c P s t := (Fine.hard h).one

theorem fine_reallySend (s : St) (i : IfId) (id : Bytes) (k : PKey) (q : UInt16) (m : Nat) :
    Fines c P s (reallySend c s i id k q m) := by
  unfold reallySend
  split
  · exact .refl s
  · next x hx =>
    split
    · exact .refl s
    · next hu =>
      split
      · exact .refl s
      · simp only
        split
        · exact .refl s
        · split
          · exact .refl s
          · exact (Fine.update _ _ _ _ _ (by unfold ifUp; rw [hx]; simpa using hu)).one

theorem fine_flushRt (s : St) (i : IfId) (r : Route) : Fines c P s (flushRt c s i r).1 := by
  unfold flushRt
  simp only
  have h : Fines c P s (if routeMetric r < INFINITY then satisfyRequest s r.key r.seqno r.id (some i) else s) := by
    split
    · exact (Fine.satisfy ..).one
    · exact .refl s
  split
  · exact h
  · exact (h.trans (fine_reallySend ..)).trans (hard_sources ..).fine

theorem fine_flushOne (s : St) (i : IfId) (k : PKey) : Fines c P s (flushOne c s i k).1 := by
  unfold flushOne
  split
  · exact fine_reallySend ..
  · split
    · exact fine_flushRt ..
    · exact fine_reallySend ..

theorem fine_flushLoop (i : IfId) (l : List PKey) (last : Option PKey) (s : St) : Fines c P s (flushLoop c i l last s) := by
  induction l generalizing last s with
  | nil => exact .refl s
  | cons k l ih =>
    unfold flushLoop
    split
    · exact ih ..
    · exact (fine_flushOne ..).trans (ih ..)

theorem fine_flush (s : St) (i : IfId) : Fines c P s (flushUpdates c s i) := by
  unfold flushUpdates
  split
  · exact .refl s
  · simp only
    refine Fines.step ?_ (.unset i)
    split
    · exact .refl s
    · split
      · exact (Fine.clear i).one
      · exact (Fine.clear i).one.trans (fine_flushLoop ..)

theorem fine_buffer (s : St) (i : IfId) (k : PKey) : Fines c P s (bufferUpdate c s i k) := by
  unfold bufferUpdate
  split
  · exact .refl s
  · simp only
    refine Fines.step ?_ (.push i k _)
    split
    · exact fine_flush ..
    · exact .refl s

theorem fine_sendIf (s : St) (i : IfId) (u : Bool) (k : PKey) : Fines c P s (sendUpdateIf c s i u k) := by
  unfold sendUpdateIf
  split
  · exact .refl s
  · exact (fine_buffer ..).step (.sched ..)

theorem Soft.fine' {s t : St} (hw : w ≠ none) (h : Soft c w P s t) : Fines c P s t := by
  cases h with
  | hard h => exact h.fine
  | flush i => exact fine_flush ..
  | buffer i k _ => exact fine_buffer ..
  | sendIf i u k => exact fine_sendIf ..
  | wild _ _ _ h => exact absurd h hw
  | sched i u => exact (Fine.sched ..).one
  | timeout i t => exact (Fine.timeout ..).one
  | satisfy => exact (Fine.satisfy ..).one
  | record _ _ _ _ _ _ h g => exact (Fine.record _ _ _ _ _ _ h g).one
  | request => exact (Fine.request ..).one
  | mh _ _ _ _ _ _ h => exact (Fine.mh _ _ _ _ _ _ h).one

theorem Softs.fine' {s t : St} (hw : w ≠ none) (h : Softs c w P s t) : Fines c P s t := by
  induction h with
  | refl => exact .refl _
  | step _ m ih => exact ih.trans (m.fine' hw)

theorem fine_wild (s : St) (i : IfId) (u ss : Bool) : Fines c P s (sendUpdateWild c s i u ss) := by
  by_cases h : ifUp s i = true
  · obtain ⟨s', h1, h2⟩ := soft_wildParts (c := c) (P := P) s i u ss h
    rw [h2]
    exact (h1.fine' (by simp)).step (.sched ..)
  · unfold sendUpdateWild
    simp only [Bool.not_eq_true] at h
    rw [h]
    exact .refl s

theorem Soft.fine {s t : St} (h : Soft c w P s t) : Fines c P s t := by
  cases h with
  | hard h => exact h.fine
  | flush i => exact fine_flush ..
  | buffer i k _ => exact fine_buffer ..
  | sendIf i u k => exact fine_sendIf ..
  | wild => exact fine_wild ..
  | sched i u => exact (Fine.sched ..).one
  | timeout i t => exact (Fine.timeout ..).one
  | satisfy => exact (Fine.satisfy ..).one
  | record _ _ _ _ _ _ h g => exact (Fine.record _ _ _ _ _ _ h g).one
  | request => exact (Fine.request ..).one
  | mh _ _ _ _ _ _ h => exact (Fine.mh _ _ _ _ _ _ h).one

theorem Softs.fine {s t : St} (h : Softs c w P s t) : Fines c P s t := by
  induction h with
  | refl => exact .refl _
  | step _ m ih => exact ih.trans m.fine

/-! ### Events -/

/-- Events that change interfaces, the clock or the list of pending requests directly. -/
def Ev.special : Ev → Bool
  | .tick _ => true
  | .ifDown _ => true
  | .ifUp _ _ => true
  | .expireResend => true
  | .doResend => true
  | _ => false

theorem soft_step [hP : P.Full] (s : St) (ev : Ev) (h : Ev.special ev = false)
    (hf : ∀ n k hop q id, ev = .seqnoRequest n k hop q id → ∀ m, m ≠ n → 2 ≤ hop → P.mh (some m) k q id (hop - 1)) :
    Softs c none P s (step c s ev) := by
  cases ev with
  | tick => cases h
  | ifDown => cases h
  | ifUp => cases h
  | expireResend => cases h
  | doResend => cases h
  | setCost n v => exact (Hard.soft ⟨rfl, rfl, rfl, rfl, [], rfl, by simp⟩)
  | update => exact soft_updateRoute ..
  | retractNeigh => exact soft_retractNeigh ..
  | updNeigh => exact soft_updNeigh ..
  | updIface => exact soft_updIface ..
  | flushNeigh => exact soft_flushWhere ..
  | flushIface => exact soft_flushWhere ..
  | expireRoutes => exact soft_expireRoutes ..
  | expireSources => exact (hard_sources ..).soft
  | flushUpdates i => exact (Soft.flush i).one
  | fullUpdate => exact soft_any ..
  | routeRequest => exact (Soft.sendIf ..).one
  | seqnoRequest n k hop q id => exact soft_handle s n k hop q id hP.recs (hf _ _ _ _ _ rfl)
  | kernelRoute => exact soft_kernelRoute ..
  | checkXroutes => exact soft_check ..
  | flushAll => exact soft_flushAll ..

end Babel
