import Verif.Props.Requests
import Verif.Spec.Pending
/-
The timer of `do_resend` is set while updates are to be sent again.
-/
set_option linter.unusedSimpArgs false
set_option linter.unusedVariables false
namespace Babel
open Spec

variable {c : Cfg} {P : Perm} {T : Timeval}

/-- The times of the entries are those of the clock, except for those that are cancelled. -/
structure EInv (T : Timeval) (s : St) : Prop where
  now : s.now = T
  ok : TvOk T
  late : 66 ≤ T.sec
  ent : ∀ r ∈ s.resends, TvOk r.time ∧ (0 < r.time.sec ∨ Cancelled r)

structure AInv (T : Timeval) (s : St) : Prop where
  ents : EInv T s
  time : TvOk s.resendTime
  armed : ∀ r ∈ s.resends, r.kind = .update → 0 < r.delay → 0 < r.max → ArmedBy s.resendTime (timevalAddMsec r.time r.delay)

theorem EInv.same {s t : St} (h : EInv T s) (h1 : t.now = s.now) (h2 : t.resends = s.resends) : EInv T t :=
  ⟨h1.trans h.now, h.ok, h.late, by rw [h2]; exact h.ent⟩

theorem AInv.same {s t : St} (h : AInv T s) (h1 : t.now = s.now) (h2 : t.resends = s.resends) (h3 : t.resendTime = s.resendTime) :
    AInv T t :=
  ⟨h.ents.same h1 h2, by rw [h3]; exact h.time, by rw [h2, h3]; exact h.armed⟩

theorem timevalMin_ok {a b : Timeval} (ha : TvOk a) (hb : TvOk b) : TvOk (timevalMin a b) := by
  unfold timevalMin
  repeat' (first | exact ha | exact hb | split)

theorem recompute_ok {s : St} (h : ∀ r ∈ s.resends, TvOk r.time) : TvOk (recomputeResendTime s).resendTime := by
  unfold recomputeResendTime
  show TvOk (List.foldl _ (⟨0, 0⟩ : Timeval) s.resends)
  have : ∀ (l : List Resend) (t : Timeval), TvOk t → (∀ r ∈ l, TvOk r.time) →
      TvOk (l.foldl (fun t r => if resendLive s.now r then timevalMin t (resendDue r) else t) t) := by
    intro l
    induction l with
    | nil => intro t ht _; exact ht
    | cons r l ih =>
      intro t ht hl
      rw [List.foldl_cons]
      refine ih _ ?_ (fun x hx => hl x (List.mem_cons_of_mem _ hx))
      split
      · exact timevalMin_ok ht (C03_add_msec_exact r.time (r.delay : Int) (hl r (List.mem_cons_self ..)) (by omega)).2
      · exact ht
  exact this s.resends ⟨0, 0⟩ ⟨by decide, by decide⟩ h

theorem EInv.recompute {s : St} (h : EInv T s) : AInv T (recomputeResendTime s) := by
  have hn : s.now = T := h.now
  refine ⟨h.same rfl rfl, recompute_ok (fun r hr => (h.ent r hr).1), fun r hr hk hd hm => ?_⟩
  refine (recompute_armed (fun x hx => ?_)).1 r hr ⟨?_, hd, hm⟩
  · obtain ⟨h1, h2 | h2⟩ := h.ent x hx
    · exact .inl ⟨h1, h2⟩
    · exact .inr (fun hl => hl.1 (C38_cancelled (hn ▸ h.ok) h1 (hn ▸ h.late) h2).1)
  · unfold Lapsed
    rw [hk]
    simp only
    omega

theorem EInv.satisfy {s : St} (h : EInv T s) (k : PKey) (q : UInt16) (id : Bytes) (i : Option IfId) :
    EInv T (satisfyRequest s k q id i) := by
  refine ⟨(satisfy_same ..).1.now.trans h.now, h.ok, h.late, fun r hr => ?_⟩
  rw [satisfy_resends] at hr
  rcases modFirst_mem hr with hr | ⟨r0, hr, hp, e⟩
  · exact h.ent r hr
  · have h0 := h.ent r0 hr
    subst e
    split
    · refine ⟨h0.1, .inr ⟨?_, rfl⟩⟩
      unfold resendMatch at hp
      simp only [Bool.and_eq_true, beq_iff_eq] at hp
      exact hp.1
    · exact h0

theorem AInv.satisfy {s : St} (h : AInv T s) (k : PKey) (q : UInt16) (id : Bytes) (i : Option IfId) :
    AInv T (satisfyRequest s k q id i) := by
  have he := h.ents.satisfy k q id i
  unfold satisfyRequest at he ⊢
  split
  · exact h
  · next r hr =>
    rw [hr] at he
    simp only at he
    split
    · exact h
    · next h1 =>
      rw [if_neg h1] at he
      split
      · next h2 =>
        rw [if_pos h2] at he
        exact EInv.recompute (he.same rfl rfl)
      · exact h

theorem EInv.record {s : St} (h : EInv T s) (kd : RKind) (k : PKey) (q : UInt16) (id : Option Bytes) (i : Option IfId) (d : Nat) :
    EInv T (recordResend c s kd k q id i d) := by
  have hn : TvOk s.now ∧ 0 < s.now.sec := by
    rw [h.now]
    have := h.late
    exact ⟨h.ok, by omega⟩
  refine ⟨(record_fields ..).1.trans h.now, h.ok, h.late, fun r hr => ?_⟩
  rcases record_mem hr with hr | ⟨r0, hr, e⟩ | e
  · exact h.ent r hr
  · have := (refresh_recorded s.now q id i (min d 65535) r0).2
    rw [e, this]
    exact ⟨hn.1, .inl hn.2⟩
  · subst e
    exact ⟨hn.1, .inl hn.2⟩

theorem arm_min {t u : Timeval} (ht : TvOk t) (hu : TvOk u) (h : u.sec ≠ 0) :
    ArmedBy (timevalMin t u) u ∧ ∀ v, ArmedBy t v → ArmedBy (timevalMin t u) v := by
  obtain ⟨-, m2, m3⟩ := C03_min t u ht hu
  by_cases hz : t.sec = 0
  · rw [m2 h hz]
    exact ⟨⟨h, Int.le_refl _⟩, fun v hv => absurd hz hv.1⟩
  · obtain ⟨b1, b2⟩ := m3 h hz
    have : (timevalMin t u).sec ≠ 0 := by
      rcases b1 with b | b <;> rw [b]
      · exact hz
      · exact h
    exact ⟨⟨this, by rw [b2]; omega⟩, fun v hv => ⟨this, by have := hv.2; rw [b2]; omega⟩⟩

/-- Setting the timer for an entry that has just been recorded. -/
theorem AInv.arm {s : St} (hn : TvOk s.now) (hp : 0 < s.now.sec) (ht : TvOk s.resendTime) {r : Resend} (hr : r.time = s.now) :
    TvOk (armResend s r).resendTime ∧ (0 < r.delay → ArmedBy (armResend s r).resendTime (timevalAddMsec r.time r.delay)) ∧
    ∀ v, ArmedBy s.resendTime v → ArmedBy (armResend s r).resendTime v := by
  unfold armResend
  split
  · obtain ⟨a1, a2⟩ := C03_add_msec_exact s.now (r.delay : Int) hn (by omega)
    have hsec : (timevalAddMsec s.now (r.delay : Int)).sec ≠ 0 := by
      unfold micros at a1
      unfold TvOk at a2 hn
      omega
    have hm := arm_min ht a2 hsec
    unfold resendDue
    rw [hr]
    exact ⟨timevalMin_ok ht a2, fun _ => hm.1, hm.2⟩
  · next h0 => exact ⟨ht, fun h => absurd h (by omega), fun v hv => hv⟩

theorem AInv.record {s : St} (h : AInv T s) (kd : RKind) (k : PKey) (q : UInt16) (id : Option Bytes) (i : Option IfId) (d : Nat)
    (hid : kd = .update → id = none) : AInv T (recordResend c s kd k q id i d) := by
  have he := h.ents.record (c := c) kd k q id i d
  have hn : TvOk s.now ∧ 0 < s.now.sec := by
    rw [h.ents.now]
    have := h.ents.late
    exact ⟨h.ents.ok, by omega⟩
  refine ⟨he, ?_, ?_⟩
  · unfold recordResend
    split
    · exact h.time
    · simp only
      split
      · next r0 _ =>
        split
        · exact h.time
        · exact (AInv.arm (s := { s with resends := modFirst (resendMatch kd k) (fun _ => (refreshResend s.now q id i (min d 65535) r0).1) s.resends })
            hn.1 hn.2 h.time (refresh_recorded s.now q id i (min d 65535) r0).2).1
      · exact (AInv.arm (s := { s with resends := newResend s.now kd k q id i (min d 65535) :: s.resends })
          (r := newResend s.now kd k q id i (min d 65535)) hn.1 hn.2 h.time rfl).1
  · unfold recordResend
    split
    · exact h.armed
    · simp only
      split
      · next r0 hr0 =>
        have hk : r0.kind = kd := by
          have := List.find?_some hr0
          unfold resendMatch at this
          simp only [Bool.and_eq_true, beq_iff_eq] at this
          exact this.1
        split
        · next e =>
          intro r hr hu hd hm
          rcases modFirst_mem hr with hr | ⟨_, -, -, rfl⟩
          · exact h.armed r hr hu hd hm
          · exfalso
            have hkd : (refreshResend s.now q id i (min d 65535) r0).1.kind = r0.kind := by
              unfold refreshResend
              simp only
              split <;> rfl
            rw [hkd, hk] at hu
            unfold refreshResend at e
            simp only at e
            split at e
            · next g => rw [hid hu] at g; cases g.1
            · cases e
        · next e =>
          have ha := AInv.arm (s := { s with resends := modFirst (resendMatch kd k) (fun _ => (refreshResend s.now q id i (min d 65535) r0).1) s.resends })
            hn.1 hn.2 h.time (refresh_recorded s.now q id i (min d 65535) r0).2
          intro r hr hu hd hm
          rw [(armResend_fields _ _).1] at hr
          rcases modFirst_mem hr with hr | ⟨_, -, -, rfl⟩
          · exact ha.2.2 _ (h.armed r hr hu hd hm)
          · exact ha.2.1 hd
      · have ha := AInv.arm (s := { s with resends := newResend s.now kd k q id i (min d 65535) :: s.resends })
          (r := newResend s.now kd k q id i (min d 65535)) hn.1 hn.2 h.time rfl
        intro r hr hu hd hm
        rw [(armResend_fields _ _).1] at hr
        rcases List.mem_cons.1 hr with rfl | hr
        · exact ha.2.1 hd
        · exact ha.2.2 _ (h.armed r hr hu hd hm)

theorem sched_resend (s : St) (i : IfId) (u : Bool) : (scheduleUpdateFlush s i u).now = s.now ∧
    (scheduleUpdateFlush s i u).resends = s.resends ∧ (scheduleUpdateFlush s i u).resendTime = s.resendTime := by
  unfold scheduleUpdateFlush
  split
  · exact ⟨rfl, rfl, rfl⟩
  · simp only
    split <;> exact ⟨rfl, rfl, rfl⟩

theorem EInv.fine {s t : St} (h : EInv T s) (g : Fine c P s t) : EInv T t := by
  cases g with
  | hard g => exact h.same g.now g.resends
  | sched i u => exact h.same (sched_resend s i u).1 (sched_resend s i u).2.1
  | satisfy => exact h.satisfy ..
  | record => exact h.record ..
  | _ => exact h.same rfl rfl

theorem EInv.fines {s t : St} (h : EInv T s) (g : Fines c P s t) : EInv T t := by
  induction g with
  | refl => exact h
  | step _ m ih => exact ih.fine m

theorem AInv.fine {s t : St} (h : AInv T s) (g : Fine c P s t) : AInv T t := by
  cases g with
  | hard g => exact h.same g.now g.resends g.resendTime
  | sched i u => exact h.same (sched_resend s i u).1 (sched_resend s i u).2.1 (sched_resend s i u).2.2
  | satisfy => exact h.satisfy ..
  | record _ _ _ _ _ _ _ g => exact h.record _ _ _ _ _ _ g
  | _ => exact h.same rfl rfl rfl

theorem AInv.fines {s t : St} (h : AInv T s) (g : Fines c P s t) : AInv T t := by
  induction g with
  | refl => exact h
  | step _ m ih => exact ih.fine m

theorem EInv.resendOne {s : St} (h : EInv T s) (j : Nat) : EInv T (doResendOne c s j) := by
  cases hj : s.resends[j]? with
  | none => rw [doResendOne_none _ _ _ hj]; exact h
  | some r =>
    obtain ⟨e1, e2⟩ := doResendOne_eq c s j r hj
    by_cases hd : Due s.now r
    · rw [e1 hd]
      have h1 := h.fines (resendMsg_fines c s r)
      refine ⟨h1.now, h1.ok, h1.late, fun x hx => ?_⟩
      obtain ⟨p, hp⟩ := List.mem_iff_getElem?.1 hx
      rw [List.getElem?_modify] at hp
      cases hg : (resendMsg c s r).resends[p]? with
      | none => rw [hg] at hp; cases hp
      | some y =>
        rw [hg] at hp
        have hy := h1.ent y (List.mem_of_getElem? hg)
        by_cases e : j = p
        · simp [e] at hp
          subst hp
          exact hy
        · simp [e] at hp
          subst hp
          exact hy
    · rw [e2 hd]; exact h

theorem AInv.step {s : St} (h : AInv T s) (ev : Ev) (ht : ∀ t, ev ≠ .tick t) : AInv T (step c s ev) := by
  cases hs : Ev.special ev with
  | false => exact h.fines (soft_step (P := Perm.all) s ev hs (fun _ _ _ _ _ _ _ _ _ => trivial)).fine
  | true =>
    cases ev with
    | tick t => exact absurd rfl (ht t)
    | ifDown i => exact (AInv.same (t := modIf s i _) h rfl rfl rfl).fines (ifDown_fines (P := Perm.all) c s i)
    | ifUp i full => exact (AInv.same (t := modIf s i _) h rfl rfl rfl).fines (ifUp_fines (P := Perm.all) c s i full)
    | expireResend =>
      show AInv T (expireResend s)
      unfold expireResend
      split
      · refine EInv.recompute ⟨h.ents.now, h.ents.ok, h.ents.late, fun r hr => h.ents.ent r (List.mem_filter.1 hr).1⟩
      · exact h
    | doResend =>
      show AInv T (recomputeResendTime _)
      refine EInv.recompute ?_
      generalize List.range s.resends.length = l
      replace h := h.ents
      clear hs
      induction l generalizing s with
      | nil => exact h
      | cons j l ih => exact ih (h.resendOne j)
    | _ => cases hs

theorem AInv.tick {s : St} (h : AInv T s) {t : Timeval} (ht : TvOk t) (hl : micros T ≤ micros t) : AInv t (Babel.step c s (.tick t)) := by
  refine ⟨⟨rfl, ht, ?_, h.ents.ent⟩, h.time, h.armed⟩
  have h1 := h.ents.ok
  have h2 := h.ents.late
  unfold micros TvOk at *
  omega

theorem AInv.run {s : St} (h : AInv T s) (evs : List Ev) (hf : Forward T evs) : ∃ T', AInv T' (run c s evs) := by
  induction evs generalizing s T with
  | nil => exact ⟨T, h⟩
  | cons e es ih =>
    by_cases ht : ∃ t, e = .tick t
    · obtain ⟨t, rfl⟩ := ht
      exact ih (h.tick hf.1 hf.2.1) hf.2.2
    · have ht : ∀ t, e ≠ .tick t := fun t e => ht ⟨t, e⟩
      refine ih (h.step e ht) ?_
      cases e <;> first | exact absurd rfl (ht _) | exact hf

end Babel
