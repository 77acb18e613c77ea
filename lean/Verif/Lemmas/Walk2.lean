import Verif.Lemmas.Walk
import Verif.Lemmas.Reach2
import Verif.Props.Util
/-
Invariants of the pending entries, and the messages sent by `do_resend`.
-/
set_option linter.unusedSimpArgs false
set_option linter.unusedVariables false
set_option linter.unusedSectionVars false
namespace Babel
open Spec

variable {c : Cfg} {w : Option IfId} {P : Perm}

/-- The outputs grow. -/
theorem Fines.out_mono {s t : St} (h : Fines c P s t) {o : Out} (ho : o ∈ s.out) : o ∈ t.out := by
  obtain ⟨n, e, -⟩ := h.mhs
  rw [e]; exact List.mem_append_right _ ho

theorem mmhIf_sends (c : Cfg) (s : St) (i : IfId) (k : PKey) (q : UInt16) (id : Bytes) (h : Nat) (hu : ifUp s i = true)
    (hb : ssBlocked s i k = false) : Out.mhRequest i none k q id h ∈ (sendMulticastMhIf c s i k q id h).out := by
  unfold sendMulticastMhIf
  simp only
  have hc : (flushUpdates c s i).ifaces.map Iface.conf = s.ifaces.map Iface.conf := (fine_flush (P := ⟨fun _ _ _ _ _ => True, True⟩) s i).conf
  rw [conf_ifUp hc, hu]
  simp only [Bool.not_true, Bool.false_eq_true, if_false]
  unfold sendMh
  rw [conf_ss hc, hb]
  simp [emit]

theorem mmh_sends (c : Cfg) (s : St) (ifp : Option IfId) (k : PKey) (q : UInt16) (id : Bytes) (h : Nat) (i : IfId)
    (hi : ifp = none ∨ ifp = some i) (hu : ifUp s i = true)
    (hb : ssBlocked s i k = false) : Out.mhRequest i none k q id h ∈ (sendMulticastMh c s ifp k q id h).out := by
  unfold sendMulticastMh
  rcases hi with rfl | rfl
  · simp only
    have hm : i ∈ allIfs s := by
      unfold ifUp at hu
      split at hu
      · next x hx =>
        have := getIf_mem hx
        unfold allIfs
        exact List.mem_map.2 ⟨x, this.2, this.1⟩
      · cases hu
    generalize allIfs s = l at hm
    induction l generalizing s with
    | nil => cases hm
    | cons j l ih =>
      rw [List.foldl_cons]
      have hone : Fines c ⟨fun _ _ _ _ _ => True, True⟩ s (if ifUp s j = true then sendMulticastMhIf c s j k q id h else s) := by
        split
        · exact (soft_mmhIf (w := none) _ _ _ _ _ _ trivial).fine
        · exact .refl s
      have hrest : ∀ s l, Fines c ⟨fun _ _ _ _ _ => True, True⟩ s
          (List.foldl (fun s i => if ifUp s i = true then sendMulticastMhIf c s i k q id h else s) s l) := by
        intro s l
        refine Softs.fine (w := none) (.foldl _ (fun s i => ?_) _ _)
        split
        · exact soft_mmhIf _ _ _ _ _ _ trivial
        · exact .refl s
      by_cases e : i ∈ l
      · exact ih _ (by rw [conf_ifUp hone.conf]; exact hu) (by rw [conf_ss hone.conf]; exact hb) e
      · have : j = i := by
          rcases List.mem_cons.1 hm with h | h
          · exact h.symm
          · exact absurd h e
        subst this
        refine (hrest _ l).out_mono ?_
        rw [if_pos hu]
        exact mmhIf_sends c s j k q id h hu hb
  · exact mmhIf_sends c s i k q id h hu hb

/-- An entry that was due and has not been cancelled has been sent. -/
theorem walk_sends (c : Cfg) (s : St) (n p : Nat) (r r' : Resend) (h : s.resends[p]? = some r) (hp : p < n)
    (hr' : ((List.range n).foldl (doResendOne c) s).resends[p]? = some r') (hc : ¬ Cancelled r') (hd : Due s.now r)
    (hk : r.kind = .request) (i : IfId) (hi : r.ifp = none ∨ r.ifp = some i) (hu : ifUp s i = true)
    (hb : ssBlocked s i r.key = false) :
    Out.mhRequest i none r.key r.seqno r.id 127 ∈ ((List.range n).foldl (doResendOne c) s).out := by
  induction n generalizing r' with
  | zero => omega
  | succ n ih =>
    obtain ⟨r1, h1, h2, h3, h4, h5, h6⟩ := walk_entry c s n p r h
    have hconf := walk_conf c s n
    rw [List.range_succ, List.foldl_append] at hr' ⊢
    simp only [List.foldl_cons, List.foldl_nil] at hr' ⊢
    generalize hs1 : (List.range n).foldl (doResendOne c) s = s1 at *
    obtain ⟨r2, g1, g2, g3, g4, g5, g6⟩ := doResendOne_entry c s1 n p r1 h1
    rw [hr'] at g1; cases g1
    by_cases e : n = p
    · have hc1 : ¬ Cancelled r1 := by
        intro hc1
        by_cases hd1 : Due s1.now r1
        · rcases g5 e hd1 with h | ⟨-, h⟩
          · exact hc (cancelled_keeps hc1 (.inr (.inr (.inl h))))
          · exact hc (cancelled_keeps hc1 (.inr (.inr (.inr h))))
        · exact hc (cancelled_keeps hc1 (.inl (g6 e hd1)))
      have h7 : r1 = r := by
        rcases h6 (by omega) with h | ⟨k, h⟩
        · exact h
        · exact absurd (h ▸ cancelled_satisfied k) hc1
      subst h7
      subst e
      rw [(doResendOne_eq c s1 n r1 h1).1 (h2 ▸ hd)]
      show _ ∈ (resendMsg c s1 r1).out
      unfold resendMsg
      rw [hk]
      exact mmh_sends c s1 r1.ifp r1.key r1.seqno r1.id 127 i hi (by rw [conf_ifUp hconf]; exact hu)
        (by rw [conf_ss hconf]; exact hb)
    · have hc1 : ¬ Cancelled r1 := by
        intro hc1
        rcases g4 e with h | ⟨-, h⟩
        · exact hc (cancelled_keeps hc1 (.inl h))
        · exact hc (cancelled_keeps hc1 (.inr (.inl h)))
      have hin := ih r1 (by omega) h1 hc1
      cases hj : s1.resends[n]? with
      | none => rw [doResendOne_none _ _ _ hj]; exact hin
      | some rj =>
        obtain ⟨e1, e2⟩ := doResendOne_eq c s1 n rj hj
        by_cases hd1 : Due s1.now rj
        · rw [e1 hd1]; exact (resendMsg_fines c s1 rj).out_mono hin
        · rw [e2 hd1]; exact hin

/-! ### Invariants -/

/-- What is always true of the pending entries. -/
structure RInv (s : St) : Prop where
  nodup : (s.resends.map Resend.ident).Nodup
  bound : ∀ r ∈ s.resends, r.max ≤ 255 ∧ r.delay ≤ 65535 ∧ (r.max ≤ 3 ∨ Cancelled r)

theorem modFirst_mem {p : Resend → Bool} {f : Resend → Resend} {l : List Resend} {x : Resend}
    (h : x ∈ modFirst p f l) : x ∈ l ∨ ∃ r ∈ l, p r = true ∧ x = f r := by
  induction l with
  | nil => cases h
  | cons r l ih =>
    unfold modFirst at h
    split at h
    · next hp =>
      rcases List.mem_cons.1 h with h | h
      · exact .inr ⟨r, by simp, hp, h⟩
      · exact .inl (by simp [h])
    · rcases List.mem_cons.1 h with h | h
      · exact .inl (by simp [h])
      · rcases ih h with h | ⟨r', h1, h2⟩
        · exact .inl (by simp [h])
        · exact .inr ⟨r', by simp [h1], h2⟩

theorem record_mem {c : Cfg} {s : St} {kd : RKind} {k : PKey} {q : UInt16} {id : Option Bytes} {i : Option IfId} {d : Nat}
    {x : Resend} (h : x ∈ (recordResend c s kd k q id i d).resends) : x ∈ s.resends ∨
    (∃ r ∈ s.resends, x = (refreshResend s.now q id i (min d 65535) r).1) ∨ x = newResend s.now kd k q id i (min d 65535) := by
  unfold recordResend at h
  split at h
  · exact .inl h
  · dsimp only at h
    split at h
    · next r hr =>
      have hm : x ∈ modFirst (resendMatch kd k) (fun _ => (refreshResend s.now q id i (min d 65535) r).1) s.resends := by
        split at h
        · exact h
        · rw [(armResend_fields _ _).1] at h; exact h
      rcases modFirst_mem hm with h | ⟨_, -, -, h⟩
      · exact .inl h
      · exact .inr (.inl ⟨r, List.mem_of_find?_eq_some hr, h⟩)
    · rw [(armResend_fields _ _).1] at h
      rcases List.mem_cons.1 h with h | h
      · exact .inr (.inr h)
      · exact .inl h

theorem refresh_delay {now : Timeval} {q : UInt16} {id : Option Bytes} {i : Option IfId} {d : Nat} {r : Resend}
    (hd : d ≤ 65535) (h : r.delay ≤ 65535) : (refreshResend now q id i d r).1.delay ≤ 65535 := by
  unfold refreshResend
  simp only
  have : (if r.delay ≠ 0 ∧ d ≠ 0 then min r.delay d else if d ≠ 0 then d else r.delay) ≤ 65535 := by
    split
    · omega
    · split <;> omega
  split <;> exact this

theorem Fine.rinv {s t : St} (h : Fine c P s t) (hi : RInv s) : RInv t := by
  refine ⟨h.rrel.2.2.1 hi.nodup, ?_⟩
  have hsame : t.resends = s.resends → ∀ r ∈ t.resends, r.max ≤ 255 ∧ r.delay ≤ 65535 ∧ (r.max ≤ 3 ∨ Cancelled r) := by
    intro e; rw [e]; exact hi.bound
  cases h with
  | hard h => exact hsame h.resends
  | update => exact hsame rfl
  | clear => exact hsame rfl
  | unset => exact hsame rfl
  | push => exact hsame rfl
  | sched => exact hsame (sched_fields ..).2.1
  | timeout => exact hsame rfl
  | satisfy k q id i =>
    intro r hr
    rw [satisfy_resends] at hr
    rcases modFirst_mem hr with h | ⟨r0, h, -, e⟩
    · exact hi.bound r h
    · have := hi.bound r0 h
      subst e
      split
      · exact ⟨by simp [satisfied], this.2.1, .inl (by simp [satisfied])⟩
      · exact this
  | record kd k q id i d _ _ =>
    intro r hr
    rcases record_mem hr with h | ⟨r0, h, e⟩ | e
    · exact hi.bound r h
    · have h1 := refresh_recorded s.now q id i (min d 65535) r0
      have h2 := refresh_delay (now := s.now) (q := q) (id := id) (i := i) (d := min d 65535) (by omega) (hi.bound r0 h).2.1
      rw [← e] at h1 h2
      have := h1.1
      exact ⟨by omega, h2, .inl (by omega)⟩
    · subst e
      have : (newResend s.now kd k q id i (min d 65535)).max = 3 := rfl
      have h2 : (newResend s.now kd k q id i (min d 65535)).delay = min d 65535 := rfl
      exact ⟨by omega, by omega, .inl (by omega)⟩
  | request => exact hsame rfl
  | mh => exact hsame rfl

theorem Fines.rinv {s t : St} (h : Fines c P s t) (hi : RInv s) : RInv t := by
  induction h with
  | refl => exact hi
  | step _ m ih => exact m.rinv ih

theorem recompute_resends (s : St) : (recomputeResendTime s).resends = s.resends ∧ (recomputeResendTime s).now = s.now ∧
    (recomputeResendTime s).out = s.out ∧ (recomputeResendTime s).ifaces = s.ifaces := ⟨rfl, rfl, rfl, rfl⟩

theorem RInv.of_eq {s t : St} (hi : RInv s) (h : t.resends = s.resends) : RInv t :=
  ⟨by rw [h]; exact hi.nodup, by rw [h]; exact hi.bound⟩

theorem expireResend_resends (s : St) : (expireResend s).resends = s.resends.filter (fun r => !resendExpired s.now r) := by
  unfold expireResend
  split
  · rfl
  · next h =>
    simp only [List.any_eq_true, not_exists, not_and] at h
    exact (List.filter_eq_self.2 (fun r hr => by simpa using h r hr)).symm

theorem doResendOne_rinv (c : Cfg) (s : St) (j : Nat) (hi : RInv s) : RInv (doResendOne c s j) := by
  cases hj : s.resends[j]? with
  | none => rw [doResendOne_none _ _ _ hj]; exact hi
  | some r =>
    obtain ⟨e1, e2⟩ := doResendOne_eq c s j r hj
    by_cases hd : Due s.now r
    · rw [e1 hd]
      have h1 := (resendMsg_fines c s r).rinv hi
      have hs := (resendMsg_fines c s r).srel (fun h => h)
      refine ⟨?_, ?_⟩
      · have : ∀ l : List Resend, (l.modify j resentEntry).map Resend.ident = l.map Resend.ident := by
          intro l
          refine List.ext_getElem? (fun p => ?_)
          rw [List.getElem?_map, List.getElem?_map, List.getElem?_modify]
          cases l[p]? with
          | none => rfl
          | some x =>
            by_cases e : j = p
            · simp [e]; rfl
            · simp [e]
        rw [this]; exact h1.nodup
      · intro x hx
        obtain ⟨p, hp⟩ := List.mem_iff_getElem?.1 hx
        rw [List.getElem?_modify] at hp
        by_cases e : j = p
        · subst e
          obtain ⟨r1, g1, g2⟩ := hs.2.2 j r hj
          rw [g1] at hp
          simp at hp
          have hm := h1.bound r1 (List.mem_of_getElem? g1)
          subst hp
          refine ⟨?_, ?_, ?_⟩
          · show (r1.max + 255) % 256 ≤ 255; omega
          · show min 65535 (r1.delay * 2) ≤ 65535; omega
          · rcases g2 with rfl | ⟨k, rfl⟩
            · have h0 := hd.2.2.1
              rcases hm.2.2 with h | h
              · left; show (r1.max + 255) % 256 ≤ 3; omega
              · exact .inr h
            · exact .inr ⟨k, rfl⟩
        · simp [e] at hp
          cases hg : (resendMsg c s r).resends[p]? with
          | none => rw [hg] at hp; cases hp
          | some y =>
            rw [hg] at hp
            have : y = x := by simpa using hp
            subst this
            exact h1.bound y (List.mem_of_getElem? hg)
    · rw [e2 hd]; exact hi

theorem doResend_rinv (c : Cfg) (s : St) (hi : RInv s) : RInv (doResend c s) := by
  unfold doResend
  refine RInv.of_eq (s := (List.range s.resends.length).foldl (doResendOne c) s) ?_ rfl
  generalize List.range s.resends.length = l
  induction l generalizing s with
  | nil => exact hi
  | cons j l ih => exact ih _ (doResendOne_rinv c s j hi)

/-- Everything is allowed. -/
def Perm.all : Perm := ⟨fun _ _ _ _ _ => True, True⟩
instance : Perm.all.Full := { mh := fun _ _ _ _ => trivial, recs := trivial }

theorem ifDown_fines (c : Cfg) (s : St) (i : IfId) [P.Full] :
    Fines c P (modIf s i (fun x => { x with up := false })) (step c s (.ifDown i)) :=
  (soft_flushWhere (w := none) ..).fine.step (.clear i)

theorem ifUp_fines (c : Cfg) (s : St) (i : IfId) (full : Bool) :
    Fines c P (modIf s i (fun x => { x with up := true })) (step c s (.ifUp i full)) := by
  have h : Softs c none P (modIf s i (fun x => { x with up := true })) (announceUp c (modIf s i (fun x => { x with up := true })) i full) := by
    unfold announceUp
    split
    · exact soft_any ..
    · exact .refl _
  exact (h.trans (soft_mrequestIf ..)).fine

theorem step_rinv (c : Cfg) (s : St) (ev : Ev) (hi : RInv s) : RInv (step c s ev) := by
  cases hs : Ev.special ev with
  | false => exact (soft_step (P := Perm.all) s ev hs (fun _ _ _ _ _ _ _ _ _ => trivial)).fine.rinv hi
  | true =>
    cases ev <;> first | cases hs | skip
    · exact hi.of_eq rfl
    · exact (ifDown_fines (P := Perm.all) c s _).rinv (hi.of_eq rfl)
    · exact (ifUp_fines (P := Perm.all) c s _ _).rinv (hi.of_eq rfl)
    · have e := expireResend_resends s
      refine ⟨?_, ?_⟩
      · show ((expireResend s).resends.map Resend.ident).Nodup
        rw [e]
        exact (List.filter_sublist.map _).nodup hi.nodup
      · intro r hr
        have hr : r ∈ (expireResend s).resends := hr
        rw [e] at hr
        exact hi.bound r (List.mem_filter.1 hr).1
    · exact doResend_rinv c s hi

theorem Spec.Reachable.rinv {c : Cfg} {s : St} (h : Reachable c s) : RInv s := by
  induction h with
  | init => exact ⟨List.nodup_nil, by simp [St.init]⟩
  | step ev _ ih => exact step_rinv c _ ev ih
  | take _ ih => exact ih.of_eq rfl

/-- With distinct identities, the pending entry is the one in the list. -/
theorem pending_iff {s : St} (hi : RInv s) {kd : RKind} {k : PKey} {r : Resend} :
    pending s kd k = some r ↔ r ∈ s.resends ∧ r.kind = kd ∧ r.key = k := by
  unfold pending
  have hn := hi.nodup
  generalize s.resends = l at hn
  induction l with
  | nil => simp
  | cons x l ih =>
    rw [List.map_cons, List.nodup_cons] at hn
    by_cases h : (x.kind == kd && x.key == k) = true
    · rw [List.find?_cons_of_pos (by exact h)]
      simp at h
      constructor
      · intro e; cases e; exact ⟨by simp, h⟩
      · rintro ⟨hm, h1, h2⟩
        rcases List.mem_cons.1 hm with e | e
        · rw [e]
        · exfalso
          refine hn.1 (List.mem_map.2 ⟨r, e, ?_⟩)
          unfold Resend.ident
          rw [h1, h2, h.1, h.2]
    · rw [List.find?_cons_of_neg (by exact h)]
      refine (ih hn.2).trans ?_
      simp only [List.mem_cons]
      constructor
      · rintro ⟨h1, h2⟩; exact ⟨.inr h1, h2⟩
      · rintro ⟨h1, h2, h3⟩
        rcases h1 with rfl | h1
        · exfalso; apply h; simp [h2, h3]
        · exact ⟨h1, h2, h3⟩

end Babel
