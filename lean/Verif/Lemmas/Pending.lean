import Verif.Lemmas.Room
import Verif.Props.Util
import Verif.Spec.Pending
/-
The timers of the queues of updates.
-/
set_option linter.unusedSimpArgs false
set_option linter.unusedVariables false
namespace Babel
open Spec

/-- An interface; the queue of those in `W` is being filled, and those in `D` are going down. -/
def TimelyIf (now : Timeval) (D W : IfId → Prop) (j : IfId) (x : Iface) : Prop :=
  TvOk x.updateFlush ∧ (W j → x.up = true) ∧
  (¬ W j → x.queue ≠ [] → (¬ D j → x.up = true) ∧ x.updateFlush.sec ≠ 0 ∧ micros x.updateFlush ≤ micros now + 6250000)

/-- The time is `T`, and the queues of all interfaces are as they should be. -/
structure Timely (T : Timeval) (D W : IfId → Prop) (s : St) : Prop where
  now : s.now = T
  ok : TvOk T
  pos : 1 ≤ T.sec
  on : ∀ j x, getIf s j = some x → TimelyIf T D W j x

variable {c : Cfg} {w : Option IfId} {P : Perm} {D W : IfId → Prop} {T : Timeval}

theorem Timely.same {s t : St} (h : Timely T D W s) (h1 : t.now = s.now) (h2 : t.ifaces = s.ifaces) : Timely T D W t := by
  refine ⟨h1.trans h.now, h.ok, h.pos, fun j x hx => ?_⟩
  unfold getIf at hx
  rw [h2] at hx
  exact h.on j x hx

theorem Timely.modIf' {D' W' : IfId → Prop} {s : St} (h : Timely T D W s) (i : IfId) (f : Iface → Iface) (hf : ∀ x, (f x).ifindex = x.ifindex)
    (hi : ∀ x, TimelyIf T D W i x → TimelyIf T D' W' i (f x)) (ho : ∀ j x, j ≠ i → TimelyIf T D W j x → TimelyIf T D' W' j x) :
    Timely T D' W' (modIf s i f) := by
  refine ⟨h.now, h.ok, h.pos, fun j x hx => ?_⟩
  rw [getIf_modIf _ _ f hf] at hx
  split at hx
  · next e =>
    subst e
    cases hg : getIf s j with
    | none => rw [hg] at hx; cases hx
    | some y =>
      rw [hg] at hx
      cases hx
      exact hi y (h.on j y hg)
  · next e => exact ho j x e (h.on j x hx)

theorem Timely.modIf {s : St} (h : Timely T D W s) (i : IfId) (f : Iface → Iface) (hf : ∀ x, (f x).ifindex = x.ifindex)
    (hi : ∀ x, TimelyIf T D W i x → TimelyIf T D W i (f x)) : Timely T D W (modIf s i f) := h.modIf' i f hf hi (fun _ _ _ hh => hh)

theorem Timely.flush {s : St} (h : Timely T D W s) (i : IfId) : Timely T D W (flushUpdates c s i) := by
  cases hx : getIf s i with
  | none => rw [flushUpdates_none hx]; exact h
  | some x =>
    have hn := (flushUpdates_ann c s i).now
    refine ⟨hn.trans h.now, h.ok, h.pos, fun j y hy => ?_⟩
    rw [flushUpdates_getIf hx] at hy
    split at hy
    · next hj =>
      subst hj
      rw [hx] at hy
      cases hy
      obtain ⟨-, h2, -⟩ := h.on j x hx
      refine ⟨(show TvOk ⟨0, 0⟩ from ⟨by decide, by decide⟩), h2, fun _ hq => absurd ?_ hq⟩
      show (if x.queue = [] then x.queue else []) = []
      split
      · assumption
      · rfl
    · exact h.on j y hy

theorem Timely.buffer {s : St} (h : Timely T D W s) (i : IfId) (hw : W i) (k : PKey) : Timely T D W (bufferUpdate c s i k) := by
  unfold bufferUpdate
  split
  · exact h
  · simp only
    refine Timely.modIf ?_ _ _ (fun _ => rfl) (fun x hx => ⟨hx.1, hx.2.1, fun hn => absurd hw hn⟩)
    split
    · exact h.flush i
    · exact h

theorem timer_set {now : Timeval} (ok : TvOk now) (pos : 1 ≤ now.sec) (r r' h : Nat) (u : Bool) :
    TvOk (setTimeout now r' (updateJitter r h u)) ∧ (setTimeout now r' (updateJitter r h u)).sec ≠ 0 ∧
    micros (setTimeout now r' (updateJitter r h u)) ≤ micros now + 6250000 := by
  have hb := jitter_bound r h u
  generalize updateJitter r h u = j at hb
  have hr := roughly_nonneg r' j hb.1
  have ha := C03_add_msec_exact now (roughly r' j) ok hr.2.2
  have h2 : j ≤ 5000 := by
    have := hb.2.1
    cases u <;> simp at this <;> omega
  unfold setTimeout
  refine ⟨ha.2, ?_, by rw [ha.1]; omega⟩
  have h3 := ha.1
  have h4 := ha.2
  unfold micros TvOk at *
  omega

theorem timer_kept {now t : Timeval} (ok : TvOk now) (ht : TvOk t) {r h : Nat} {u : Bool}
    (hk : (timevalMinusMsec t now : Int) < updateJitter r h u) : micros t ≤ micros now + 6250000 := by
  have hb := (jitter_bound r h u).2.1
  have h2 : updateJitter r h u ≤ 5000 := by cases u <;> simp at hb <;> omega
  have hm := C03_minus_msec t now ht ok
  by_cases hl : micros t ≤ micros now
  · omega
  · by_cases hs : t.sec - now.sec ≤ 2000000
    · have := hm.2.1 (by omega) hs
      omega
    · have := hm.2.2.1 (by omega)
      rw [this] at hk
      omega

/-- After the timer of `i` has been set, its queue is as it should be. -/
theorem Timely.restore {s : St} {i : IfId} (h : Timely T D (fun j => W j ∨ j = i) s) (u : Bool) : Timely T D W (scheduleUpdateFlush s i u) := by
  have ho : ∀ j x, j ≠ i → TimelyIf T D (fun j => W j ∨ j = i) j x → TimelyIf T D W j x := by
    intro j x hj hx
    refine ⟨hx.1, fun hw => hx.2.1 (.inl hw), fun hw => hx.2.2 (fun e => e.elim hw hj)⟩
  cases hx : getIf s i with
  | none =>
    unfold scheduleUpdateFlush
    rw [hx]
    refine ⟨h.now, h.ok, h.pos, fun j y hy => ho j y ?_ (h.on j y hy)⟩
    intro e; rw [e, hx] at hy; cases hy
  | some x =>
    have he := (getIf_mem hx).1
    subst he
    obtain ⟨a1, -, a2, t, a3, a4⟩ := schedule_spec hx u
    rw [h.now] at a4
    have hi := h.on _ x hx
    have ht : TvOk t ∧ t.sec ≠ 0 ∧ micros t ≤ micros T + 6250000 := by
      rcases a4 with ⟨b1, b2, b3⟩ | b
      · have : TvOk t := b1 ▸ hi.1
        exact ⟨this, b2, timer_kept h.ok this b3⟩
      · rw [b]; exact timer_set h.ok h.pos ..
    refine ⟨a1.now.trans h.now, h.ok, h.pos, fun j y hy => ?_⟩
    by_cases hj : j = x.ifindex
    · rw [hj, a3] at hy
      cases hy
      rw [hj]
      have hup : x.up = true := hi.2.1 (.inr rfl)
      exact ⟨ht.1, fun _ => hup, fun _ _ => ⟨fun _ => hup, ht.2⟩⟩
    · rw [a2 j hj] at hy
      exact ho j y hj (h.on j y hy)

theorem Timely.sched {s : St} (h : Timely T D W s) (i : IfId) (u : Bool) : Timely T D W (scheduleUpdateFlush s i u) := by
  cases hx : getIf s i with
  | none =>
    unfold scheduleUpdateFlush
    rw [hx]
    exact h
  | some x =>
    have he := (getIf_mem hx).1
    subst he
    obtain ⟨a1, -, a2, t, a3, a4⟩ := schedule_spec hx u
    rw [h.now] at a4
    have hi := h.on _ x hx
    have ht : TvOk t ∧ t.sec ≠ 0 ∧ micros t ≤ micros T + 6250000 := by
      rcases a4 with ⟨b1, b2, b3⟩ | b
      · have : TvOk t := b1 ▸ hi.1
        exact ⟨this, b2, timer_kept h.ok this b3⟩
      · rw [b]; exact timer_set h.ok h.pos ..
    refine ⟨a1.now.trans h.now, h.ok, h.pos, fun j y hy => ?_⟩
    by_cases hj : j = x.ifindex
    · rw [hj, a3] at hy
      cases hy
      rw [hj]
      exact ⟨ht.1, hi.2.1, fun hw hq => ⟨(hi.2.2 hw hq).1, ht.2⟩⟩
    · rw [a2 j hj] at hy
      exact h.on j y hy

theorem Timely.fill {s : St} (h : Timely T D W s) {i : IfId} (hu : ifUp s i = true) : Timely T D (fun j => W j ∨ j = i) s := by
  refine ⟨h.now, h.ok, h.pos, fun j x hx => ?_⟩
  have := h.on j x hx
  refine ⟨this.1, fun hw => ?_, fun hw => this.2.2 (fun e => hw (.inl e))⟩
  rcases hw with hw | rfl
  · exact this.2.1 hw
  · unfold ifUp at hu
    rw [hx] at hu
    exact hu

theorem Timely.sendIf {s : St} (h : Timely T D W s) (i : IfId) (u : Bool) (k : PKey) : Timely T D W (sendUpdateIf c s i u k) := by
  unfold sendUpdateIf
  cases hu : ifUp s i with
  | false => exact h
  | true => exact ((h.fill hu).buffer i (.inr rfl) k).restore u

theorem Timely.soft' {s t : St} (hw : ∀ i, w = some i → W i) (h0 : w ≠ none) (h : Timely T D W s) (g : Soft c w P s t) : Timely T D W t := by
  cases g with
  | hard g => exact h.same g.now g.ifaces
  | flush i => exact h.flush i
  | buffer i k e => exact h.buffer i (hw i e) k
  | sendIf i u k => exact h.sendIf i u k
  | wild _ _ _ e => exact absurd e h0
  | sched i u => exact h.sched i u
  | timeout i t => exact h.modIf _ _ (fun _ => rfl) (fun _ hh => hh)
  | satisfy => exact h.same (satisfy_same ..).1.now (satisfy_ifaces ..)
  | record => exact h.same (record_fields ..).1 (record_ifaces ..)
  | request => exact h.same rfl rfl
  | mh => exact h.same rfl rfl

theorem Timely.softs' {s t : St} (hw : ∀ i, w = some i → W i) (h0 : w ≠ none) (h : Timely T D W s) (g : Softs c w P s t) : Timely T D W t := by
  induction g with
  | refl => exact h
  | step _ m ih => exact ih.soft' hw h0 m

theorem Timely.wild {s : St} (h : Timely T D W s) (i : IfId) (u ss : Bool) : Timely T D W (sendUpdateWild c s i u ss) := by
  by_cases hu : ifUp s i = true
  · obtain ⟨s', h1, h2⟩ := soft_wildParts (c := c) (P := Perm.all) s i u ss hu
    rw [h2]
    exact ((h.fill hu).softs' (fun j e => .inr (by cases e; rfl)) (by simp) h1).restore u
  · unfold sendUpdateWild
    simp only [Bool.not_eq_true] at hu
    rw [hu]
    exact h

theorem Timely.soft {s t : St} (h : Timely T D W s) (g : Soft c none P s t) : Timely T D W t := by
  cases g with
  | wild i u ss _ => exact h.wild i u ss
  | hard g => exact h.same g.now g.ifaces
  | flush i => exact h.flush i
  | buffer i k e => cases e
  | sendIf i u k => exact h.sendIf i u k
  | sched i u => exact h.sched i u
  | timeout i t => exact h.modIf _ _ (fun _ => rfl) (fun _ hh => hh)
  | satisfy => exact h.same (satisfy_same ..).1.now (satisfy_ifaces ..)
  | record => exact h.same (record_fields ..).1 (record_ifaces ..)
  | request => exact h.same rfl rfl
  | mh => exact h.same rfl rfl

theorem Timely.softs {s t : St} (h : Timely T D W s) (g : Softs c none P s t) : Timely T D W t := by
  generalize e : (none : Option IfId) = v at g
  induction g with
  | refl => exact h
  | step _ m ih => subst e; exact ih.soft m

theorem Timely.resendOne {s : St} (h : Timely T D W s) (j : Nat) : Timely T D W (doResendOne c s j) := by
  unfold doResendOne
  split
  · exact h
  · next r _ =>
    split
    · simp only
      refine Timely.same (s := match r.kind with
        | .request => sendMulticastMh c s r.ifp r.key r.seqno r.id 127
        | .update => sendUpdateOpt c s r.ifp r.key) ?_ rfl rfl
      split
      · exact h.softs (soft_mmh (c := c) (w := none) (P := Perm.all) _ _ _ _ _ _ trivial)
      · exact h.softs (soft_updateOpt (c := c) (w := none) (P := Perm.all) ..)
    · exact h

/-- No interface. -/
abbrev nowhere : IfId → Prop := fun _ => False

theorem Timely.step {s : St} (h : Timely T nowhere nowhere s) (ev : Ev) (ht : ∀ t, ev ≠ .tick t) : Timely T nowhere nowhere (step c s ev) := by
  cases hs : Ev.special ev with
  | false => exact h.softs (soft_step (P := Perm.all) s ev hs (fun _ _ _ _ _ _ _ _ _ => trivial))
  | true =>
    cases ev with
    | tick t => exact absurd rfl (ht t)
    | ifDown i =>
      have h1 : Timely T (fun j => j = i) nowhere (Babel.modIf s i (fun x => { x with up := false })) :=
        h.modIf' i _ (fun _ => rfl)
          (fun x hx => ⟨hx.1, False.elim, fun _ hq => ⟨fun e => absurd rfl e, (hx.2.2 id hq).2⟩⟩)
          (fun j x _ hx => ⟨hx.1, False.elim, fun _ hq => ⟨fun _ => (hx.2.2 id hq).1 id, (hx.2.2 id hq).2⟩⟩)
      have h2 : Timely T (fun j => j = i) nowhere (flushInterfaceRoutes c (Babel.modIf s i (fun x => { x with up := false })) i false) :=
        h1.softs (soft_flushWhere (c := c) (w := none) (P := Perm.all) ..)
      exact h2.modIf' i (fun x => { x with queue := [], queueCap := 0 }) (fun _ => rfl)
        (fun x hx => ⟨hx.1, False.elim, fun _ hq => absurd rfl hq⟩)
        (fun j x hj hx => ⟨hx.1, False.elim, fun _ hq => ⟨fun _ => (hx.2.2 id hq).1 hj, (hx.2.2 id hq).2⟩⟩)
    | ifUp i full =>
      have h1 := h.modIf i (fun x => { x with up := true }) (fun _ => rfl)
        (fun x hx => ⟨hx.1, fun _ => rfl, fun hn hq => ⟨fun _ => rfl, (hx.2.2 hn hq).2⟩⟩)
      have h2 : Timely T nowhere nowhere (announceUp c (Babel.modIf s i (fun x => { x with up := true })) i full) := by
        unfold announceUp
        split
        · exact h1.softs (soft_any (c := c) (P := Perm.all) ..)
        · exact h1
      exact h2.softs (soft_mrequestIf (c := c) (w := none) (P := Perm.all) ..)
    | expireResend =>
      show Timely T _ _ (expireResend s)
      unfold expireResend
      split
      · exact h.same rfl rfl
      · exact h
    | doResend =>
      show Timely T _ _ (recomputeResendTime _)
      refine Timely.same (s := (List.range s.resends.length).foldl (doResendOne c) s) ?_ rfl rfl
      generalize List.range s.resends.length = l
      clear hs
      induction l generalizing s with
      | nil => exact h
      | cons j l ih => exact ih (h.resendOne j)
    | _ => cases hs

theorem Timely.tick {s : St} (h : Timely T nowhere nowhere s) {t : Timeval} (ht : TvOk t) (hl : micros T ≤ micros t) :
    Timely t nowhere nowhere (Babel.step c s (.tick t)) := by
  have hp := h.pos
  have hk := h.ok
  refine ⟨rfl, ht, ?_, fun j x hx => ?_⟩
  · unfold micros TvOk at *
    omega
  · have := h.on j x hx
    refine ⟨this.1, False.elim, fun hn hq => ?_⟩
    obtain ⟨a, b, d⟩ := this.2.2 hn hq
    exact ⟨a, b, by omega⟩

theorem Timely.run {s : St} (h : Timely T nowhere nowhere s) (evs : List Ev) (hf : Forward T evs) :
    Timely (run c s evs).now nowhere nowhere (run c s evs) := by
  induction evs generalizing s T with
  | nil => exact (show s.now = T from h.now) ▸ h
  | cons e es ih =>
    by_cases ht : ∃ t, e = .tick t
    · obtain ⟨t, rfl⟩ := ht
      exact ih (h.tick hf.1 hf.2.1) hf.2.2
    · have ht : ∀ t, e ≠ .tick t := fun t e => ht ⟨t, e⟩
      refine ih (h.step e ht) ?_
      cases e <;> first | exact absurd rfl (ht _) | exact hf

end Babel
