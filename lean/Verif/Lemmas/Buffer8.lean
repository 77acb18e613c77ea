import Verif.Lemmas.Buffer7
import Verif.Props.Util
/-
What the operations keep, the counters of the packets sent, and the deadlines.
-/
set_option linter.unusedSimpArgs false
set_option linter.unusedVariables false
namespace Babel
open Spec

/-- The fields of a buffer that never change while the interface is up. -/
def Same (t r : Tx) : Prop := r.buf.dst = t.buf.dst ∧ r.buf.flushInterval = t.buf.flushInterval

theorem Same.refl (t : Tx) : Same t t := ⟨rfl, rfl⟩
theorem Same.trans {t r s : Tx} (h : Same t r) (h' : Same r s) : Same t s := ⟨h'.1.trans h.1, h'.2.trans h.2⟩

theorem AllRes.from {P : α → Prop} {x : Option α} (h : AllRes P x) {Q : α → Prop} (hq : ∀ a, P a → Q a) : AllRes Q x :=
  fun r hr => hq r (h r hr)

theorem put_same (t : Tx) (l : Bytes) : AllRes (fun b => ∀ t' : Tx, t'.buf = b → Same t t') (t.buf.put l) := by
  intro b hb
  unfold Buf.put at hb
  split at hb
  · cases hb
    intro t' h
    exact ⟨by rw [h], by rw [h]⟩
  · cases hb

theorem sendPc_same (o : Orc) (t : Tx) : AllRes (Same t) (sendPc o t) := by
  unfold sendPc
  split
  · exact .some (Same.refl _)
  · simp only []
    split
    · exact .some ⟨rfl, rfl⟩
    · next t1 h1 =>
      have hs : Same t t1 := by
        split at h1
        · split at h1
          · cases h1
          · cases h1; exact ⟨rfl, rfl⟩
        · cases h1; exact Same.refl _
      exact .bindWith (put_same t1 _) (fun b hb => .pure (hs.trans (hb _ rfl)))

theorem addPc_same (o : Orc) (c : SIf) (t : Tx) : AllRes (Same t) (addPc o c t) := by
  unfold addPc
  split
  · exact sendPc_same o t
  · exact .some (Same.refl _)

theorem fillRtt_same (c : SIf) (now : Timeval) (t : Tx) :
    AllRes (fun b => ∀ t' : Tx, t'.buf = b → Same t t') (fillRtt c now t.buf) := by
  have h0 : ∀ t' : Tx, t'.buf = t.buf → Same t t' := fun t' h => ⟨by rw [h], by rw [h]⟩
  unfold fillRtt
  split
  · refine .bind fun x => .bind fun y => ?_
    split
    · split
      · refine .pure fun t' h => ⟨by rw [h], by rw [h]⟩
      · intro r hr; cases hr
    · exact .pure h0
  · exact .some h0

theorem flushbuf_same (o : Orc) (c : SIf) (now : Timeval) (t : Tx) : AllRes (Same t) (flushbuf o c now t) := by
  unfold flushbuf
  split
  · intro r hr; cases hr
  · split
    · refine .bindWith (addPc_same o c t) fun t1 h1 => ?_
      refine .bindWith (fillRtt_same c now t1) fun b hb => ?_
      refine .bind fun r => ?_
      split
      · exact .pure (h1.trans (hb _ rfl))
      · refine .pure (h1.trans ?_)
        have := hb { t1 with buf := b } rfl
        exact ⟨this.1, this.2⟩
    · exact .pure ⟨rfl, rfl⟩

theorem schedule_same (o : Orc) (now : Timeval) (ms : Int) (t : Tx) : Same t (scheduleFlushMs o now ms t) := by
  obtain ⟨T, R, h⟩ := schedule_shape o now ms t
  rw [h]
  exact ⟨rfl, rfl⟩

theorem ensure_same (o : Orc) (c : SIf) (now : Timeval) (n : Nat) (t : Tx) : AllRes (Same t) (ensureSpace o c now n t) := by
  unfold ensureSpace
  simp only []
  generalize (if c.key.isSome = true then n + hmacSpace else n) = m
  split
  · exact flushbuf_same o c now t
  · exact .some (Same.refl _)

theorem start_same (o : Orc) (c : SIf) (now : Timeval) (ty len : Nat) (t : Tx) : AllRes (Same t) (startMessage o c now ty len t) := by
  unfold startMessage
  refine .bindWith (ensure_same o c now _ t) fun t1 h1 => ?_
  exact .bindWith (put_same t1 _) fun b hb => .pure (h1.trans (hb _ rfl))

theorem end_same (o : Orc) (now : Timeval) (ty len : Nat) (t : Tx) : AllRes (Same t) (endMessage o now ty len t) := by
  unfold endMessage
  split
  · exact .some (by
      unfold scheduleFlush
      exact (show Same t { t with rnds := t.rnds + 1 } from ⟨rfl, rfl⟩).trans (schedule_same ..))
  · intro r hr; cases hr

theorem message_same (o : Orc) (c : SIf) (now : Timeval) (ty len : Nat) (body : Bytes) (t : Tx) :
    AllRes (Same t) (message o c now ty len body t) := by
  unfold message
  refine .bindWith (start_same o c now _ _ t) fun t1 h1 => ?_
  refine .bindWith (put_same t1 _) fun b hb => ?_
  exact (end_same o now ty len _).from fun r hr => (h1.trans (hb _ rfl)).trans hr

theorem hello_same (o : Orc) (c : SIf) (now : Timeval) (s i : Nat) (u : Bool) (t : Tx) :
    AllRes (Same t) (bufferHello o c now s i u t) := by
  unfold bufferHello
  refine .bindWith (start_same o c now _ _ t) fun t1 h1 => ?_
  refine .bindWith (put_same { t1 with buf := { t1.buf with hello := some (t1.buf.bytes.length - 2) } } _) fun b hb => ?_
  refine (end_same o now _ _ _).from fun r hr => (h1.trans ?_).trans hr
  have := hb { t1 with buf := b } rfl
  exact ⟨this.1, this.2⟩

theorem nh_same (o : Orc) (c : SIf) (now : Timeval) (ip : Bytes) (t : Tx) : AllRes (Same t) (bufferNh o c now ip t) := by
  unfold bufferNh
  split
  · exact .some (Same.refl _)
  · exact .bindWith (message_same o c now _ _ _ t) fun t1 h1 => .pure (h1.trans ⟨rfl, rfl⟩)

theorem id_same (o : Orc) (c : SIf) (now : Timeval) (id : Bytes) (fp : Bool) (t : Tx) :
    AllRes (fun r => Same t r.2) (bufferId o c now id fp t) := by
  unfold bufferId
  split
  · exact .some (Same.refl _)
  · split
    · exact .some ⟨rfl, rfl⟩
    · exact .bindWith (message_same o c now _ _ _ t) fun t1 h1 => .pure (h1.trans ⟨rfl, rfl⟩)

theorem upd4_same (o : Orc) (c : SIf) (now : Timeval) (id : Bytes) (k : PKey) (s m : Nat) (t : Tx) :
    AllRes (Same t) (bufferUpdate4 o c now id k s m t) := by
  unfold bufferUpdate4 bufferUpdateTlv
  split
  · split
    · exact .some (Same.refl _)
    · refine .bind fun sub => .bindWith (id_same o c now id false t) fun r hr => ?_
      exact (message_same o c now _ _ _ _).from fun r' hr' => hr.trans hr'
  · refine .bind fun sub => .bindWith (nh_same o c now _ t) fun t1 h1 => ?_
    refine .bindWith (id_same o c now id false t1) fun r hr => ?_
    exact (message_same o c now _ _ _ _).from fun r' hr' => h1.trans (hr.trans hr')

theorem upd6_same (o : Orc) (c : SIf) (now : Timeval) (id : Bytes) (k : PKey) (s m : Nat) (t : Tx) :
    AllRes (Same t) (bufferUpdate6 o c now id k s m t) := by
  unfold bufferUpdate6 bufferUpdateTlv
  refine .bind fun sub => .bindWith (id_same o c now id _ t) fun r hr => ?_
  refine .bindWith (message_same o c now _ _ _ _) fun t1 h1 => .pure ?_
  split
  · exact (hr.trans h1).trans ⟨rfl, rfl⟩
  · exact hr.trans h1

theorem op_same (o : Orc) (c : SIf) (now : Timeval) (op : Snd) (t : Tx) : AllRes (Same t) (op.run o c now t) := by
  have hnow : ∀ t, Same t (scheduleFlushNow o now t) := fun t =>
    (show Same t { t with rnds := t.rnds + 1 } from ⟨rfl, rfl⟩).trans (schedule_same ..)
  cases op with
  | ack n i =>
    refine .bindWith (message_same o c now _ _ _ t) fun t1 h1 => .pure (h1.trans ?_)
    exact (show Same t1 { t1 with rnds := t1.rnds + 1 } from ⟨rfl, rfl⟩).trans (schedule_same ..)
  | challenge n => exact .bindWith (message_same o c now _ _ _ t) fun t1 h1 => .pure (h1.trans (hnow t1))
  | reply n => exact .bindWith (message_same o c now _ _ _ t) fun t1 h1 => .pure (h1.trans (hnow t1))
  | hello s i u f =>
    show AllRes _ (sendHello o c now s i u f t)
    unfold sendHello
    split
    · split
      · refine .bindWith (flushbuf_same o c now t) fun t1 h1 => ?_
        exact (hello_same o c now s i u t1).from fun r hr => h1.trans hr
      · exact .some (Same.refl _)
    · exact hello_same o c now s i u t
  | update id k s m =>
    show AllRes _ (reallyBufferUpdate o c now id k s m t)
    unfold reallyBufferUpdate
    split
    · exact .some (Same.refl _)
    · split
      · exact .some (Same.refl _)
      · simp only []
        split
        · exact .some (Same.refl _)
        · refine .bindWith (ensure_same o c now _ t) fun t1 h1 => ?_
          split
          · exact (upd4_same o c now id k s _ t1).from fun r hr => h1.trans hr
          · exact (upd6_same o c now id k s _ t1).from fun r hr => h1.trans hr
  | retraction s => exact .bindWith (message_same o c now _ _ _ t) fun t1 h1 => .pure (h1.trans ⟨rfl, rfl⟩)
  | ihu r i a rtt => exact message_same o c now _ _ _ t
  | request k =>
    show AllRes _ (bufferRequest o c now k t)
    unfold bufferRequest
    split
    · exact message_same o c now _ _ _ t
    · split
      · exact .some (Same.refl _)
      · exact .bind fun sub => message_same o c now _ _ _ t
  | seqnoRequest k s id h =>
    show AllRes _ (sendMultihop o c now k s id h t)
    unfold sendMultihop
    split
    · exact .some (Same.refl _)
    · exact .bind fun sub => message_same o c now _ _ _ t
  | ensure n => exact ensure_same o c now n t
  | flush => exact flushbuf_same o c now t

theorem step_same {o : Orc} {c : SIf} {now : Timeval} {i : Nat} {op : Snd} {l l' : Link} (h : l.step o c now i op = some l') (j : Nat) :
    (l'.bufs j).dst = (l.bufs j).dst := by
  unfold Link.step at h
  cases hr : op.run o c now (l.tx i) with
  | none => rw [hr] at h; cases h
  | some t =>
    rw [hr] at h
    cases h
    show (if j = i then t.buf else l.bufs j).dst = _
    have := op_same o c now op (l.tx i) t hr
    split
    · next hj => rw [hj]; exact this.1
    · rfl

end Babel
