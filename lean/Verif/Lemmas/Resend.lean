import Verif.Lemmas.Fine
import Verif.Spec.Request
/-
The list of pending requests and updates.
-/
set_option linter.unusedSimpArgs false
set_option linter.unusedVariables false
set_option linter.unusedSectionVars false
namespace Babel
open Spec

theorem pending_eq (s : St) (kd : RKind) (k : PKey) : findResend s kd k = pending s kd k := rfl

/-- Identity of an entry. -/
def Resend.ident (r : Resend) : RKind × PKey := (r.kind, r.key)

theorem match_iff {kd : RKind} {k : PKey} {r : Resend} : resendMatch kd k r = true ↔ r.ident = (kd, k) := by
  unfold resendMatch Resend.ident
  simp [Prod.ext_iff]

theorem find_modFirst (l : List Resend) (kd kd' : RKind) (k k' : PKey) (f : Resend → Resend)
    (hf : ∀ r, (f r).ident = r.ident) :
    (modFirst (resendMatch kd k) f l).find? (resendMatch kd' k') =
      if (kd', k') = (kd, k) then (l.find? (resendMatch kd k)).map f else l.find? (resendMatch kd' k') := by
  induction l with
  | nil => simp [modFirst]
  | cons r l ih =>
    unfold modFirst
    by_cases h : resendMatch kd k r = true
    · rw [if_pos h]
      have hi : r.ident = (kd, k) := match_iff.1 h
      by_cases e : (kd', k') = (kd, k)
      · have h1 : resendMatch kd k (f r) = true := match_iff.2 ((hf r).trans hi)
        injection e with e1 e2
        subst e1; subst e2
        simp [List.find?_cons, h1, h]
      · have h1 : ¬ resendMatch kd' k' (f r) = true := fun g => e ((match_iff.1 g).symm.trans ((hf r).trans hi))
        have h2 : ¬ resendMatch kd' k' r = true := fun g => e ((match_iff.1 g).symm.trans hi)
        rw [if_neg e, List.find?_cons_of_neg h1, List.find?_cons_of_neg h2]
    · rw [if_neg h]
      by_cases g : resendMatch kd' k' r = true
      · have e : (kd', k') ≠ (kd, k) := fun e => h (match_iff.2 ((match_iff.1 g).trans e))
        rw [if_neg e, List.find?_cons_of_pos g, List.find?_cons_of_pos g]
      · rw [List.find?_cons_of_neg g, ih, List.find?_cons_of_neg g, List.find?_cons_of_neg h]

theorem modFirst_idents (l : List Resend) (p : Resend → Bool) (f : Resend → Resend)
    (hf : ∀ r, (f r).ident = r.ident) : (modFirst p f l).map Resend.ident = l.map Resend.ident := by
  induction l with
  | nil => rfl
  | cons r l ih =>
    unfold modFirst
    split
    · simp [hf]
    · simp [ih]

theorem armResend_fields (s : St) (r : Resend) :
    (armResend s r).resends = s.resends ∧ (armResend s r).now = s.now ∧ (armResend s r).ifaces = s.ifaces ∧
    (armResend s r).out = s.out := by
  unfold armResend
  split <;> exact ⟨rfl, rfl, rfl, rfl⟩

theorem satisfy_fields (s : St) (k : PKey) (q : UInt16) (id : Bytes) (i : Option IfId) :
    (satisfyRequest s k q id i).now = s.now ∧ (satisfyRequest s k q id i).ifaces = s.ifaces ∧
    (satisfyRequest s k q id i).out = s.out := by
  unfold satisfyRequest
  split
  · exact ⟨rfl, rfl, rfl⟩
  · split
    · exact ⟨rfl, rfl, rfl⟩
    · split <;> exact ⟨rfl, rfl, rfl⟩

theorem record_fields (c : Cfg) (s : St) (kd : RKind) (k : PKey) (q : UInt16) (id : Option Bytes) (i : Option IfId) (d : Nat) :
    (recordResend c s kd k q id i d).now = s.now ∧ (recordResend c s kd k q id i d).ifaces = s.ifaces ∧
    (recordResend c s kd k q id i d).out = s.out := by
  unfold recordResend
  split
  · exact ⟨rfl, rfl, rfl⟩
  · simp only
    split
    · split
      · exact ⟨rfl, rfl, rfl⟩
      · exact ⟨(armResend_fields _ _).2.1, (armResend_fields _ _).2.2.1, (armResend_fields _ _).2.2.2⟩
    · exact ⟨(armResend_fields _ _).2.1, (armResend_fields _ _).2.2.1, (armResend_fields _ _).2.2.2⟩

/-- The entry after it has been satisfied. -/
def satisfied (r : Resend) : Resend := { r with max := 0, time := ⟨0, r.time.usec⟩ }

/-- The condition of `satisfy_request`. -/
def Satisfies (r : Resend) (q : UInt16) (id : Bytes) (i : Option IfId) : Prop :=
  (i = none ∨ r.ifp = i) ∧ (r.id ≠ id ∨ seqnoCompare r.seqno q ≤ 0)

instance (r : Resend) (q : UInt16) (id : Bytes) (i : Option IfId) : Decidable (Satisfies r q id i) := by
  unfold Satisfies; infer_instance

theorem satisfy_resends (s : St) (k : PKey) (q : UInt16) (id : Bytes) (i : Option IfId) :
    (satisfyRequest s k q id i).resends = modFirst (resendMatch .request k)
      (fun r => if Satisfies r q id i then satisfied r else r) s.resends := by
  have key : ∀ (l : List Resend) (f : Resend → Resend), (∀ r, l.find? (resendMatch .request k) = some r → f r = r) →
      modFirst (resendMatch .request k) f l = l := by
    intro l f h
    induction l with
    | nil => rfl
    | cons r l ih =>
      unfold modFirst
      by_cases hm : resendMatch .request k r = true
      · rw [if_pos hm, h r (by rw [List.find?_cons_of_pos hm])]
      · rw [if_neg hm, ih]
        intro r' hr'
        exact h r' (by rw [List.find?_cons_of_neg hm, hr'])
  have key2 : ∀ (l : List Resend) (f g : Resend → Resend) (r : Resend), l.find? (resendMatch .request k) = some r →
      f r = g r → modFirst (resendMatch .request k) f l = modFirst (resendMatch .request k) g l := by
    intro l f g r h e
    induction l with
    | nil => rfl
    | cons r' l ih =>
      unfold modFirst
      by_cases hm : resendMatch .request k r' = true
      · rw [List.find?_cons_of_pos hm] at h
        cases h
        rw [if_pos hm, if_pos hm, e]
      · rw [List.find?_cons_of_neg hm] at h
        rw [if_neg hm, if_neg hm, ih h]
  unfold satisfyRequest
  split
  · next h =>
    refine (key _ _ (fun r hr => ?_)).symm
    unfold findResend at h
    rw [h] at hr; cases hr
  · next r h =>
    unfold findResend at h
    split
    · next g =>
      refine (key _ _ (fun r' hr => ?_)).symm
      rw [h] at hr; cases hr
      rw [if_neg]
      intro hs
      rcases hs.1 with e | e
      · exact g.1 e
      · exact g.2 e
    · next g =>
      split
      · next g2 =>
        refine key2 _ _ _ r h ?_
        rw [if_pos]
        · rfl
        · refine ⟨?_, g2⟩
          by_cases e : i = none
          · exact .inl e
          · by_cases e2 : r.ifp = i
            · exact .inr e2
            · exact absurd ⟨e, e2⟩ g
      · next g2 =>
        refine (key _ _ (fun r' hr => ?_)).symm
        rw [h] at hr; cases hr
        rw [if_neg]
        intro hs
        exact g2 hs.2

/-- Changes of the pending entries that do not retransmit or remove any. -/
def RRel (s s' : St) : Prop :=
  s'.now = s.now ∧ (∀ e, e ∈ s.resends.map Resend.ident → e ∈ s'.resends.map Resend.ident) ∧
  ((s.resends.map Resend.ident).Nodup → (s'.resends.map Resend.ident).Nodup) ∧
  ∀ kd k, match pending s kd k, pending s' kd k with
    | none, none => True
    | none, some r' => Recorded s.now r' ∨ Cancelled r'
    | some _, none => False
    | some r, some r' => r' = r ∨ Recorded s.now r' ∨ Cancelled r'

theorem RRel.of_eq {s s' : St} (h1 : s'.now = s.now) (h2 : s'.resends = s.resends) : RRel s s' := by
  refine ⟨h1, by rw [h2]; simp, by rw [h2]; exact id, fun kd k => ?_⟩
  have : pending s' kd k = pending s kd k := by unfold pending; rw [h2]
  rw [this]
  cases pending s kd k with
  | none => trivial
  | some r => exact .inl rfl

theorem RRel.refl (s : St) : RRel s s := .of_eq rfl rfl

theorem RRel.trans {a b d : St} (h : RRel a b) (g : RRel b d) : RRel a d := by
  obtain ⟨h1, h2, h3, h4⟩ := h
  obtain ⟨g1, g2, g3, g4⟩ := g
  refine ⟨g1.trans h1, fun e he => g2 e (h2 e he), fun hn => g3 (h3 hn), fun kd k => ?_⟩
  have h5 := h4 kd k
  have g5 := g4 kd k
  rw [h1] at g5
  cases e1 : pending a kd k <;> cases e2 : pending b kd k <;> cases e3 : pending d kd k <;>
    rw [e2] at h5 g5 <;> rw [e1] at h5 <;> rw [e3] at g5 <;> simp only at h5 g5 ⊢
  · exact g5
  · rcases g5 with e | e
    · rw [e]; exact h5
    · exact e
  · rcases h5 with e | e
    · rw [e] at g5; exact g5
    · rcases g5 with e' | e'
      · rw [e']; exact .inr e
      · exact .inr e'

theorem rrel_satisfy (s : St) (k : PKey) (q : UInt16) (id : Bytes) (i : Option IfId) :
    RRel s (satisfyRequest s k q id i) := by
  have hr := satisfy_resends s k q id i
  have hid : ∀ r : Resend, ((fun r => if Satisfies r q id i then satisfied r else r) r).ident = r.ident := by
    intro r; simp only; split <;> rfl
  refine ⟨(satisfy_fields ..).1, ?_, ?_, fun kd k' => ?_⟩
  · intro e he; rw [hr, modFirst_idents _ _ _ hid]; exact he
  · intro hn; rw [hr, modFirst_idents _ _ _ hid]; exact hn
  · have : pending (satisfyRequest s k q id i) kd k' =
        if (kd, k') = (.request, k) then (pending s .request k).map (fun r => if Satisfies r q id i then satisfied r else r)
        else pending s kd k' := by
      rw [← pending_eq, ← pending_eq, ← pending_eq]
      unfold findResend
      rw [hr, find_modFirst _ _ _ _ _ _ hid]
    rw [this]
    by_cases e : (kd, k') = (.request, k)
    · rw [if_pos e]
      injection e with e1 e2
      subst e1; subst e2
      cases hp : pending s .request k' with
      | none => trivial
      | some r =>
        simp only [Option.map_some]
        split
        · refine .inr (.inr ⟨?_, rfl⟩)
          have := List.find?_some hp
          simp at this
          exact this.1
        · exact .inl rfl
    · rw [if_neg e]
      cases pending s kd k' with
      | none => trivial
      | some r => exact .inl rfl

/-- Everything about recording. -/
theorem record_pending (c : Cfg) (s : St) (kd : RKind) (k : PKey) (q : UInt16) (id : Option Bytes) (i : Option IfId)
    (d : Nat) (kd' : RKind) (k' : PKey) :
    pending (recordResend c s kd k q id i d) kd' k' =
      if (kd', k') = (kd, k) ∧ recordDenied c kd k i = false then
        some (match pending s kd k with
          | some r => (refreshResend s.now q id i (min d 65535) r).1
          | none => newResend s.now kd k q id i (min d 65535))
      else pending s kd' k' := by
  unfold recordResend
  cases hd : recordDenied c kd k i with
  | true => simp
  | false =>
    simp only [Bool.false_eq_true, if_false, and_true]
    cases hp : findResend s kd k with
    | some r =>
      simp only
      have hid : ∀ x : Resend, x.ident = (kd, k) → ((refreshResend s.now q id i (min d 65535) r).1).ident = (kd, k) := by
        intro x _
        have h1 : resendMatch kd k r = true := List.find?_some hp
        rw [← match_iff.1 h1]
        unfold refreshResend
        simp only
        split <;> rfl
      have key : ∀ l : List Resend, l.find? (resendMatch kd k) = some r →
          (modFirst (resendMatch kd k) (fun _ => (refreshResend s.now q id i (min d 65535) r).1) l).find? (resendMatch kd' k') =
          if (kd', k') = (kd, k) then some (refreshResend s.now q id i (min d 65535) r).1 else l.find? (resendMatch kd' k') := by
        intro l hl
        induction l with
        | nil => cases hl
        | cons x l ih =>
          unfold modFirst
          by_cases hm : resendMatch kd k x = true
          · rw [if_pos hm]
            have hx := match_iff.1 hm
            have h2 := hid x hx
            by_cases e : (kd', k') = (kd, k)
            · rw [if_pos e, List.find?_cons_of_pos (match_iff.2 (h2.trans e.symm))]
            · rw [if_neg e, List.find?_cons_of_neg (fun g => e ((match_iff.1 g).symm.trans h2)),
                List.find?_cons_of_neg (fun g => e ((match_iff.1 g).symm.trans hx))]
          · rw [if_neg hm]
            rw [List.find?_cons_of_neg hm] at hl
            by_cases g : resendMatch kd' k' x = true
            · have e : (kd', k') ≠ (kd, k) := fun e => hm (match_iff.2 ((match_iff.1 g).trans e))
              rw [if_neg e, List.find?_cons_of_pos g, List.find?_cons_of_pos g]
            · rw [List.find?_cons_of_neg g, ih hl, List.find?_cons_of_neg g]
      have hp' : pending s kd k = some r := hp
      rw [hp']
      simp only
      have : ∀ s1 : St, s1.resends = modFirst (resendMatch kd k) (fun _ => (refreshResend s.now q id i (min d 65535) r).1) s.resends →
          pending s1 kd' k' = if (kd', k') = (kd, k) then some (refreshResend s.now q id i (min d 65535) r).1 else pending s kd' k' := by
        intro s1 h1
        show s1.resends.find? (resendMatch kd' k') = _
        rw [h1, key _ hp]
        rfl
      split
      · exact this _ rfl
      · exact this _ (armResend_fields _ _).1
    | none =>
      have hp' : pending s kd k = none := hp
      rw [hp']
      simp only
      show (armResend _ _).resends.find? (resendMatch kd' k') = _
      rw [(armResend_fields _ _).1]
      have h2 : (newResend s.now kd k q id i (min d 65535)).ident = (kd, k) := rfl
      by_cases e : (kd', k') = (kd, k)
      · rw [if_pos e, List.find?_cons_of_pos (match_iff.2 (h2.trans e.symm))]
      · rw [if_neg e, List.find?_cons_of_neg (fun g => e ((match_iff.1 g).symm.trans h2))]
        rfl

theorem refresh_recorded (now : Timeval) (q : UInt16) (id : Option Bytes) (i : Option IfId) (d : Nat) (r : Resend) :
    Recorded now (refreshResend now q id i d r).1 := by
  unfold refreshResend
  simp only
  split <;> exact ⟨rfl, rfl⟩

theorem record_idents (c : Cfg) (s : St) (kd : RKind) (k : PKey) (q : UInt16) (id : Option Bytes) (i : Option IfId)
    (d : Nat) : (recordResend c s kd k q id i d).resends.map Resend.ident =
      if recordDenied c kd k i = false ∧ pending s kd k = none then (kd, k) :: s.resends.map Resend.ident
      else s.resends.map Resend.ident := by
  unfold recordResend
  cases hd : recordDenied c kd k i with
  | true => simp
  | false =>
    simp only [Bool.false_eq_true, if_false, true_and]
    cases hp : findResend s kd k with
    | some r =>
      have hp' : pending s kd k = some r := hp
      have h1 : r.ident = (kd, k) := match_iff.1 (List.find?_some hp)
      have h2 : (modFirst (resendMatch kd k) (fun _ => (refreshResend s.now q id i (min d 65535) r).1) s.resends).map Resend.ident =
          s.resends.map Resend.ident := by
        have hr : (refreshResend s.now q id i (min d 65535) r).1.ident = (kd, k) := by
          rw [← h1]; unfold refreshResend; simp only; split <;> rfl
        generalize s.resends = l
        induction l with
        | nil => rfl
        | cons x l ih =>
          unfold modFirst
          split
          · next hm => simp [hr, match_iff.1 hm]
          · simp [ih]
      rw [hp']
      simp only [reduceCtorEq, if_false]
      split
      · exact h2
      · rw [(armResend_fields _ _).1]; exact h2
    | none =>
      have hp' : pending s kd k = none := hp
      rw [hp']
      simp only [if_true]
      rw [(armResend_fields _ _).1]
      rfl

theorem rrel_record (c : Cfg) (s : St) (kd : RKind) (k : PKey) (q : UInt16) (id : Option Bytes) (i : Option IfId)
    (d : Nat) : RRel s (recordResend c s kd k q id i d) := by
  have hi := record_idents c s kd k q id i d
  refine ⟨(record_fields ..).1, ?_, ?_, fun kd' k' => ?_⟩
  · intro e he; rw [hi]; split
    · exact List.mem_cons_of_mem _ he
    · exact he
  · intro hn; rw [hi]; split
    · next h =>
      refine List.nodup_cons.2 ⟨fun hm => ?_, hn⟩
      obtain ⟨r, hr, e⟩ := List.mem_map.1 hm
      exact List.find?_eq_none.1 h.2 r hr (match_iff.2 e)
    · exact hn
  · rw [record_pending]
    by_cases h : (kd', k') = (kd, k) ∧ recordDenied c kd k i = false
    · rw [if_pos h]
      injection h.1 with e1 e2
      subst e1; subst e2
      cases pending s kd' k' with
      | none => exact .inl ⟨rfl, rfl⟩
      | some r => exact .inr (.inl (refresh_recorded ..))
    · rw [if_neg h]
      cases pending s kd' k' with
      | none => trivial
      | some r => exact .inl rfl

theorem sched_fields (s : St) (i : IfId) (u : Bool) : (scheduleUpdateFlush s i u).now = s.now ∧
    (scheduleUpdateFlush s i u).resends = s.resends ∧ (scheduleUpdateFlush s i u).resendTime = s.resendTime ∧
    (scheduleUpdateFlush s i u).out = s.out := by
  generalize hS : scheduleUpdateFlush s i u = S
  unfold scheduleUpdateFlush at hS
  split at hS
  · subst hS; exact ⟨rfl, rfl, rfl, rfl⟩
  · dsimp only at hS
    split at hS <;> subst hS <;> exact ⟨rfl, rfl, rfl, rfl⟩

variable {c : Cfg} {w : Option IfId} {P : Perm}

theorem Fine.rrel {s t : St} (h : Fine c P s t) : RRel s t := by
  cases h with
  | hard h => exact .of_eq h.now h.resends
  | update => exact .of_eq rfl rfl
  | clear => exact .of_eq rfl rfl
  | unset => exact .of_eq rfl rfl
  | push => exact .of_eq rfl rfl
  | sched => exact .of_eq (sched_fields ..).1 (sched_fields ..).2.1
  | timeout => exact .of_eq rfl rfl
  | satisfy => exact rrel_satisfy ..
  | record => exact rrel_record ..
  | request => exact .of_eq rfl rfl
  | mh => exact .of_eq rfl rfl

theorem Fines.rrel {s t : St} (h : Fines c P s t) : RRel s t := by
  induction h with
  | refl => exact .refl _
  | step _ m ih => exact ih.trans m.rrel

end Babel
