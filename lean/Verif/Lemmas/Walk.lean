import Verif.Lemmas.Resend
/-
The walk over the pending entries (`do_resend`) and what every event does to pending entries and requests.
-/
set_option linter.unusedSimpArgs false
set_option linter.unusedVariables false
set_option linter.unusedSectionVars false
namespace Babel
open Spec

/-- The fixed part of an interface. -/
def Iface.conf (x : Iface) : Iface :=
  { x with queue := [], queueCap := 0, updateFlush := ⟨0, 0⟩, updateTimeout := ⟨0, 0⟩ }

theorem modIf_conf (s : St) (i : IfId) (f : Iface → Iface) (hf : ∀ x, (f x).conf = x.conf) :
    (modIf s i f).ifaces.map Iface.conf = s.ifaces.map Iface.conf := by
  unfold modIf
  simp only [List.map_map]
  refine List.map_congr_left (fun x _ => ?_)
  simp only [Function.comp]
  split
  · exact hf x
  · rfl

theorem sched_ifaces (s : St) (i : IfId) (u : Bool) : ∃ f : Iface → Iface, (∀ x, f x = { x with updateFlush := (f x).updateFlush }) ∧
    (scheduleUpdateFlush s i u).ifaces = (modIf s i f).ifaces := by
  generalize hS : scheduleUpdateFlush s i u = S
  unfold scheduleUpdateFlush at hS
  have hid : ∀ s : St, s.ifaces = (modIf s i id).ifaces := by
    intro s; unfold modIf; simp
  split at hS
  · subst hS; exact ⟨id, fun _ => rfl, hid s⟩
  · dsimp only at hS
    split at hS
    · subst hS; exact ⟨id, fun _ => rfl, hid s⟩
    · subst hS; exact ⟨_, fun _ => rfl, rfl⟩

variable {c : Cfg} {w : Option IfId} {P : Perm}

theorem Fine.conf {s t : St} (h : Fine c P s t) : t.ifaces.map Iface.conf = s.ifaces.map Iface.conf := by
  cases h with
  | hard h => rw [h.ifaces]
  | update => rfl
  | clear => exact modIf_conf _ _ _ (fun _ => rfl)
  | unset => exact modIf_conf _ _ _ (fun _ => rfl)
  | push => exact modIf_conf _ _ _ (fun _ => rfl)
  | sched i u =>
    obtain ⟨f, h1, h2⟩ := sched_ifaces s i u
    rw [h2]; exact modIf_conf _ _ _ (fun x => by rw [h1]; rfl)
  | timeout => exact modIf_conf _ _ _ (fun _ => rfl)
  | satisfy => rw [(satisfy_fields ..).2.1]
  | record => rw [(record_fields ..).2.1]
  | request => rfl
  | mh => rfl

theorem Fines.conf {s t : St} (h : Fines c P s t) : t.ifaces.map Iface.conf = s.ifaces.map Iface.conf := by
  induction h with
  | refl => rfl
  | step _ m ih => exact m.conf.trans ih

theorem conf_getIf {s t : St} (h : t.ifaces.map Iface.conf = s.ifaces.map Iface.conf) (i : IfId) :
    (getIf t i).map Iface.conf = (getIf s i).map Iface.conf := by
  have : ∀ l : List Iface, (l.find? (·.ifindex == i)).map Iface.conf =
      (l.map Iface.conf).find? (·.ifindex == i) := by
    intro l
    rw [List.find?_map]
    rfl
  unfold getIf
  rw [this, this, h]

theorem conf_allIfs {s t : St} (h : t.ifaces.map Iface.conf = s.ifaces.map Iface.conf) : allIfs t = allIfs s := by
  have : ∀ s : St, allIfs s = (s.ifaces.map Iface.conf).map (·.ifindex) := by
    intro s; unfold allIfs; rw [List.map_map]; rfl
  rw [this, this, h]

theorem conf_ifUp {s t : St} (h : t.ifaces.map Iface.conf = s.ifaces.map Iface.conf) (i : IfId) : ifUp t i = ifUp s i := by
  have := conf_getIf h i
  unfold ifUp
  cases e1 : getIf t i <;> cases e2 : getIf s i <;> rw [e1, e2] at this <;> simp at this <;>
    first | rfl | exact (congrArg (fun x : Iface => x.up) this :)

theorem conf_ss {s t : St} (h : t.ifaces.map Iface.conf = s.ifaces.map Iface.conf) (i : IfId) (k : PKey) :
    ssBlocked t i k = ssBlocked s i k := by
  have := conf_getIf h i
  unfold ssBlocked
  cases e1 : getIf t i <;> cases e2 : getIf s i <;> rw [e1, e2] at this <;> simp at this <;>
    first | rfl | exact (congrArg (fun x : Iface => k.isSS && x.rfc6126) this :)

/-! ### Outputs -/

/-- Which seqno requests are in the outputs. -/
def MhOk (P : Perm) (o : Out) : Prop :=
  match o with
  | .mhRequest _ to k q id hop => P.mh to k q id hop
  | _ => True

theorem Fine.mhs {s t : St} (h : Fine c P s t) : ∃ new, t.out = new ++ s.out ∧ ∀ o ∈ new, MhOk P o := by
  cases h with
  | hard h =>
    obtain ⟨n, e, hn⟩ := h.out
    refine ⟨n, e, fun o ho => ?_⟩
    have := hn o ho
    cases o <;> first | trivial | cases this
  | update => exact ⟨[_], rfl, by simp [MhOk]⟩
  | clear => exact ⟨[], rfl, by simp⟩
  | unset => exact ⟨[], rfl, by simp⟩
  | push => exact ⟨[], rfl, by simp⟩
  | sched i u => exact ⟨[], (sched_fields ..).2.2.2, by simp⟩
  | timeout => exact ⟨[], rfl, by simp⟩
  | satisfy => exact ⟨[], (satisfy_fields ..).2.2, by simp⟩
  | record => exact ⟨[], (record_fields ..).2.2, by simp⟩
  | request => exact ⟨[_], rfl, by simp [MhOk]⟩
  | mh _ _ _ _ _ _ hp => exact ⟨[_], rfl, by simpa [MhOk] using hp⟩

theorem Fines.mhs {s t : St} (h : Fines c P s t) : ∃ new, t.out = new ++ s.out ∧ ∀ o ∈ new, MhOk P o := by
  induction h with
  | refl => exact ⟨[], rfl, by simp⟩
  | step _ m ih =>
    obtain ⟨n1, e1, h1⟩ := ih
    obtain ⟨n2, e2, h2⟩ := m.mhs
    refine ⟨n2 ++ n1, by rw [e2, e1, List.append_assoc], ?_⟩
    intro o ho
    rcases List.mem_append.1 ho with h | h
    · exact h2 o h
    · exact h1 o h

/-! ### The walk -/

/-- Nothing is recorded, only cancelled. -/
def SRel (s s' : St) : Prop :=
  s'.now = s.now ∧ s'.resends.length = s.resends.length ∧
  ∀ (j : Nat) r, s.resends[j]? = some r → ∃ r', s'.resends[j]? = some r' ∧
    (r' = r ∨ (r.kind = .request ∧ r' = satisfied r))

theorem SRel.of_eq {s s' : St} (h1 : s'.now = s.now) (h2 : s'.resends = s.resends) : SRel s s' :=
  ⟨h1, by rw [h2], fun j r h => ⟨r, by rw [h2]; exact h, .inl rfl⟩⟩

theorem SRel.refl (s : St) : SRel s s := .of_eq rfl rfl

theorem satisfied_twice (r : Resend) : satisfied (satisfied r) = satisfied r := rfl

theorem SRel.trans {a b d : St} (h : SRel a b) (g : SRel b d) : SRel a d := by
  refine ⟨g.1.trans h.1, g.2.1.trans h.2.1, fun j r hr => ?_⟩
  obtain ⟨r1, h1, e1⟩ := h.2.2 j r hr
  obtain ⟨r2, h2, e2⟩ := g.2.2 j r1 h1
  refine ⟨r2, h2, ?_⟩
  rcases e1 with rfl | ⟨k1, rfl⟩
  · exact e2
  · rcases e2 with rfl | ⟨-, rfl⟩
    · exact .inr ⟨k1, rfl⟩
    · exact .inr ⟨k1, satisfied_twice r⟩

theorem modFirst_length (p : Resend → Bool) (f : Resend → Resend) (l : List Resend) :
    (modFirst p f l).length = l.length := by
  induction l with
  | nil => rfl
  | cons r l ih => unfold modFirst; split <;> simp [ih]

theorem modFirst_get (p : Resend → Bool) (f : Resend → Resend) (l : List Resend) (j : Nat) (r : Resend)
    (h : l[j]? = some r) : (modFirst p f l)[j]? = some r ∨ (p r = true ∧ (modFirst p f l)[j]? = some (f r)) := by
  induction l generalizing j with
  | nil => simp at h
  | cons x l ih =>
    unfold modFirst
    cases j with
    | zero =>
      simp at h; subst h
      split
      · next hp => exact .inr ⟨hp, rfl⟩
      · exact .inl rfl
    | succ j =>
      simp at h
      split
      · exact .inl (by simpa using h)
      · simpa using ih j h

theorem srel_satisfy (s : St) (k : PKey) (q : UInt16) (id : Bytes) (i : Option IfId) :
    SRel s (satisfyRequest s k q id i) := by
  have hr := satisfy_resends s k q id i
  refine ⟨(satisfy_fields ..).1, by rw [hr, modFirst_length], fun j r h => ?_⟩
  rw [hr]
  rcases modFirst_get (resendMatch .request k) (fun r => if Satisfies r q id i then satisfied r else r) _ j r h with e | ⟨hp, e⟩
  · exact ⟨r, e, .inl rfl⟩
  · refine ⟨_, e, ?_⟩
    split
    · exact .inr ⟨congrArg Prod.fst (match_iff.1 hp), rfl⟩
    · exact .inl rfl

theorem Fine.srel (hn : ¬ P.recs) {s t : St} (h : Fine c P s t) : SRel s t := by
  cases h with
  | hard h => exact .of_eq h.now h.resends
  | update => exact .of_eq rfl rfl
  | clear => exact .of_eq rfl rfl
  | unset => exact .of_eq rfl rfl
  | push => exact .of_eq rfl rfl
  | sched => exact .of_eq (sched_fields ..).1 (sched_fields ..).2.1
  | timeout => exact .of_eq rfl rfl
  | satisfy => exact srel_satisfy ..
  | record _ _ _ _ _ _ h _ => exact absurd h hn
  | request => exact .of_eq rfl rfl
  | mh => exact .of_eq rfl rfl

theorem Fines.srel (hn : ¬ P.recs) {s t : St} (h : Fines c P s t) : SRel s t := by
  induction h with
  | refl => exact .refl _
  | step _ m ih => exact ih.trans (m.srel hn)

/-- What is sent for a pending entry. -/
def resendMsg (c : Cfg) (s : St) (r : Resend) : St :=
  match r.kind with
  | .request => sendMulticastMh c s r.ifp r.key r.seqno r.id 127
  | .update => sendUpdateOpt c s r.ifp r.key

/-- The entry after `do_resend` has sent it. -/
def resentEntry (r : Resend) : Resend := { r with delay := min 65535 (r.delay * 2), max := (r.max + 255) % 256 }

/-- Permission to send this very request. -/
def permFor (r : Resend) : Perm :=
  ⟨fun to k q id hop => r.kind = .request ∧ to = none ∧ k = r.key ∧ q = r.seqno ∧ id = r.id ∧ hop = 127, False⟩

theorem resendMsg_fines (c : Cfg) (s : St) (r : Resend) : Fines c (permFor r) s (resendMsg c s r) := by
  unfold resendMsg
  split
  · next h => exact (soft_mmh (w := none) (P := permFor r) s r.ifp r.key r.seqno r.id 127 ⟨h, rfl, rfl, rfl, rfl, rfl⟩).fine
  · exact (soft_updateOpt (w := none) s r.ifp r.key).fine

theorem lapsed_iff (now : Timeval) (r : Resend) : resendExpired now r = true ↔ Lapsed now r := by
  unfold resendExpired Lapsed REQUEST_TIMEOUT
  cases r.kind <;> simp

theorem due_iff (now : Timeval) (r : Resend) :
    (resendLive now r && decide (timevalCompare now (resendDue r) ≥ 0)) = true ↔ Due now r := by
  unfold resendLive Due resendDue
  rw [← lapsed_iff]
  simp only [Bool.and_eq_true, decide_eq_true_eq, Bool.not_eq_true', Bool.not_eq_true]
  grind

theorem doResendOne_eq (c : Cfg) (s : St) (j : Nat) (r : Resend) (h : s.resends[j]? = some r) :
    (Due s.now r → doResendOne c s j = { resendMsg c s r with resends := (resendMsg c s r).resends.modify j resentEntry }) ∧
    (¬ Due s.now r → doResendOne c s j = s) := by
  unfold doResendOne
  rw [h]
  simp only
  constructor
  · intro hd
    rw [if_pos ((due_iff ..).2 hd)]
    rfl
  · intro hd
    rw [if_neg (fun g => hd ((due_iff ..).1 g))]

theorem doResendOne_none (c : Cfg) (s : St) (j : Nat) (h : s.resends[j]? = none) : doResendOne c s j = s := by
  unfold doResendOne; rw [h]

/-- Effect of one step of the walk on the entry at position `p`. -/
theorem doResendOne_entry (c : Cfg) (s : St) (j p : Nat) (r : Resend) (h : s.resends[p]? = some r) :
    ∃ r', (doResendOne c s j).resends[p]? = some r' ∧ (doResendOne c s j).now = s.now ∧
      (doResendOne c s j).resends.length = s.resends.length ∧
      (j ≠ p → r' = r ∨ (r.kind = .request ∧ r' = satisfied r)) ∧
      (j = p → Due s.now r → r' = resentEntry r ∨ (r.kind = .request ∧ r' = resentEntry (satisfied r))) ∧
      (j = p → ¬ Due s.now r → r' = r) := by
  cases hj : s.resends[j]? with
  | none =>
    rw [doResendOne_none _ _ _ hj]
    refine ⟨r, h, rfl, rfl, fun _ => .inl rfl, fun e => ?_, fun _ _ => rfl⟩
    subst e; rw [hj] at h; cases h
  | some rj =>
    obtain ⟨e1, e2⟩ := doResendOne_eq c s j rj hj
    by_cases hd : Due s.now rj
    · rw [e1 hd]
      have hs : SRel s (resendMsg c s rj) := (resendMsg_fines c s rj).srel (fun h => h)
      obtain ⟨r1, g1, g2⟩ := hs.2.2 p r h
      by_cases e : j = p
      · subst e
        rw [hj] at h; cases h
        refine ⟨resentEntry r1, ?_, hs.1, ?_, fun h => absurd rfl h, fun _ _ => ?_, fun _ h => absurd hd h⟩
        · simp [g1]
        · simp [hs.2.1]
        · rcases g2 with rfl | ⟨k, rfl⟩
          · exact .inl rfl
          · exact .inr ⟨k, rfl⟩
      · refine ⟨r1, ?_, hs.1, ?_, fun _ => g2, fun h => absurd h e, fun h => absurd h e⟩
        · simp [g1, e]
        · simp [hs.2.1]
    · rw [e2 hd]
      refine ⟨r, h, rfl, rfl, fun _ => .inl rfl, fun e => ?_, fun _ _ => rfl⟩
      subst e; rw [hj] at h; cases h
      exact fun h => absurd h hd

theorem cancelled_satisfied {r : Resend} (h : r.kind = .request) : Cancelled (satisfied r) := ⟨h, rfl⟩
theorem cancelled_keeps {r r' : Resend} (h : Cancelled r) (e : r' = r ∨ r' = satisfied r ∨ r' = resentEntry r ∨
    r' = resentEntry (satisfied r)) : Cancelled r' := by
  rcases e with rfl | rfl | rfl | rfl
  · exact h
  · exact ⟨h.1, rfl⟩
  · exact ⟨h.1, h.2⟩
  · exact ⟨h.1, rfl⟩

/-- The entry has not been touched, except that its identity, origin, seqno and interface are kept. -/
def SameAsk (r r' : Resend) : Prop := r'.kind = r.kind ∧ r'.key = r.key ∧ r'.seqno = r.seqno ∧ r'.id = r.id ∧ r'.ifp = r.ifp

theorem sameAsk_satisfied (r : Resend) : SameAsk r (satisfied r) := ⟨rfl, rfl, rfl, rfl, rfl⟩
theorem sameAsk_resent (r : Resend) : SameAsk r (resentEntry r) := ⟨rfl, rfl, rfl, rfl, rfl⟩
theorem SameAsk.trans {a b d : Resend} (h : SameAsk a b) (g : SameAsk b d) : SameAsk a d :=
  ⟨g.1.trans h.1, g.2.1.trans h.2.1, g.2.2.1.trans h.2.2.1, g.2.2.2.1.trans h.2.2.2.1, g.2.2.2.2.trans h.2.2.2.2⟩

/-- The walk up to position `n`. -/
theorem walk_entry (c : Cfg) (s : St) (n p : Nat) (r : Resend) (h : s.resends[p]? = some r) :
    ∃ r', ((List.range n).foldl (doResendOne c) s).resends[p]? = some r' ∧
      ((List.range n).foldl (doResendOne c) s).now = s.now ∧
      ((List.range n).foldl (doResendOne c) s).resends.length = s.resends.length ∧ SameAsk r r' ∧
      (¬ Cancelled r' → (p < n ∧ Due s.now r ∧ r' = resentEntry r) ∨ ((n ≤ p ∨ ¬ Due s.now r) ∧ r' = r)) ∧
      (n ≤ p → r' = r ∨ (r.kind = .request ∧ r' = satisfied r)) := by
  induction n with
  | zero => exact ⟨r, h, rfl, rfl, ⟨rfl, rfl, rfl, rfl, rfl⟩, fun _ => .inr ⟨.inl (Nat.zero_le _), rfl⟩, fun _ => .inl rfl⟩
  | succ n ih =>
    obtain ⟨r1, h1, h2, h3, h4, h5, h6⟩ := ih
    rw [List.range_succ, List.foldl_append]
    simp only [List.foldl_cons, List.foldl_nil]
    generalize (List.range n).foldl (doResendOne c) s = s1 at h1 h2 h3
    obtain ⟨r2, g1, g2, g3, g4, g5, g6⟩ := doResendOne_entry c s1 n p r1 h1
    rw [h2] at g5 g6
    refine ⟨r2, g1, g2.trans h2, g3.trans h3, ?_, ?_, ?_⟩
    · refine h4.trans ?_
      by_cases e : n = p
      · by_cases hd : Due s.now r1
        · rcases g5 e hd with rfl | ⟨-, rfl⟩
          · exact sameAsk_resent _
          · exact sameAsk_resent _
        · rw [g6 e hd]; exact ⟨rfl, rfl, rfl, rfl, rfl⟩
      · rcases g4 e with rfl | ⟨-, rfl⟩
        · exact ⟨rfl, rfl, rfl, rfl, rfl⟩
        · exact sameAsk_satisfied _
    · intro hc
      have hc1 : ¬ Cancelled r1 := by
        intro hc1
        refine hc (cancelled_keeps hc1 ?_)
        by_cases e : n = p
        · by_cases hd : Due s.now r1
          · rcases g5 e hd with h | ⟨-, h⟩
            · exact .inr (.inr (.inl h))
            · exact .inr (.inr (.inr h))
          · exact .inl (g6 e hd)
        · rcases g4 e with h | ⟨-, h⟩
          · exact .inl h
          · exact .inr (.inl h)
      by_cases e : n = p
      · have h7 : r1 = r := by
          rcases h6 (by omega) with h | ⟨k, h⟩
          · exact h
          · exact absurd (h ▸ cancelled_satisfied k) hc1
        rw [h7] at g5 g6
        by_cases hd : Due s.now r
        · rcases g5 e hd with h | ⟨k, h⟩
          · exact .inl ⟨by omega, hd, h⟩
          · exact absurd (h ▸ (⟨k, rfl⟩ : Cancelled (resentEntry (satisfied r)))) hc
        · exact .inr ⟨.inr hd, g6 e hd⟩
      · have h8 : r2 = r1 := by
          rcases g4 e with h | ⟨k, h⟩
          · exact h
          · exact absurd (h ▸ cancelled_satisfied k) hc
        rw [h8]
        rcases h5 hc1 with ⟨a, b, d⟩ | ⟨a, b⟩
        · exact .inl ⟨by omega, b, d⟩
        · refine .inr ⟨?_, b⟩
          rcases a with a | a
          · exact .inl (by omega)
          · exact .inr a
    · intro hle
      rcases g4 (by omega) with h0 | ⟨k, h0⟩
      · rw [h0]; exact h6 (by omega)
      · right
        rcases h6 (by omega) with h7 | ⟨k7, h7⟩
        · subst h7; exact ⟨k, h0⟩
        · subst h7; exact ⟨k7, h0⟩

theorem walk_conf (c : Cfg) (s : St) (n : Nat) :
    ((List.range n).foldl (doResendOne c) s).ifaces.map Iface.conf = s.ifaces.map Iface.conf := by
  induction n with
  | zero => rfl
  | succ n ih =>
    rw [List.range_succ, List.foldl_append]
    simp only [List.foldl_cons, List.foldl_nil]
    generalize (List.range n).foldl (doResendOne c) s = s1 at ih ⊢
    rw [← ih]
    cases hj : s1.resends[n]? with
    | none => rw [doResendOne_none _ _ _ hj]
    | some r =>
      obtain ⟨e1, e2⟩ := doResendOne_eq c s1 n r hj
      by_cases hd : Due s1.now r
      · rw [e1 hd]; exact (resendMsg_fines c s1 r).conf
      · rw [e2 hd]

/-- Requests sent by the walk. -/
theorem walk_out (c : Cfg) (s : St) (n : Nat) : ∃ new, ((List.range n).foldl (doResendOne c) s).out = new ++ s.out ∧
    ∀ o ∈ new, ∀ i to k q id hop, o = .mhRequest i to k q id hop →
      ∃ r ∈ s.resends, Due s.now r ∧ r.kind = .request ∧ to = none ∧ k = r.key ∧ q = r.seqno ∧ id = r.id ∧ hop = 127 := by
  induction n with
  | zero => exact ⟨[], rfl, by simp⟩
  | succ n ih =>
    rw [List.range_succ, List.foldl_append]
    simp only [List.foldl_cons, List.foldl_nil]
    obtain ⟨new, h1, h2⟩ := ih
    have hw : ∀ r', ((List.range n).foldl (doResendOne c) s).resends[n]? = some r' →
        ((List.range n).foldl (doResendOne c) s).now = s.now ∧ ∃ r ∈ s.resends, r' = r ∨ Cancelled r' ∧ r' = satisfied r := by
      intro r' hr'
      cases hs : s.resends[n]? with
      | none =>
        exfalso
        rw [List.getElem?_eq_none_iff] at hs
        have : n < ((List.range n).foldl (doResendOne c) s).resends.length := (List.getElem?_eq_some_iff.1 hr').1
        by_cases he : s.resends = []
        · have : ∀ n, (List.range n).foldl (doResendOne c) s = s := by
            intro n
            induction n with
            | zero => rfl
            | succ n ih =>
              rw [List.range_succ, List.foldl_append, ih]
              exact doResendOne_none _ _ _ (by rw [he]; rfl)
          rw [this] at hr'
          rw [he] at hr'
          simp at hr'
        · obtain ⟨r0, l, e⟩ := List.exists_cons_of_ne_nil he
          obtain ⟨-, -, -, h3, -⟩ := walk_entry c s n 0 r0 (by rw [e]; rfl)
          omega
      | some r =>
        obtain ⟨r'', e1, e2, -, -, -, e3⟩ := walk_entry c s n n r hs
        rw [hr'] at e1; cases e1
        refine ⟨e2, r, List.mem_of_getElem? hs, ?_⟩
        rcases e3 (Nat.le_refl _) with e | ⟨k, e⟩
        · exact .inl e
        · exact .inr ⟨e ▸ cancelled_satisfied k, e⟩
    generalize (List.range n).foldl (doResendOne c) s = s1 at h1 hw ⊢
    cases hj : s1.resends[n]? with
    | none => rw [doResendOne_none _ _ _ hj]; exact ⟨new, h1, h2⟩
    | some r' =>
      obtain ⟨e1, e2⟩ := doResendOne_eq c s1 n r' hj
      by_cases hd : Due s1.now r'
      · rw [e1 hd]
        obtain ⟨new2, h3, h4⟩ := (resendMsg_fines c s1 r').mhs
        refine ⟨new2 ++ new, by show (resendMsg c s1 r').out = _; rw [h3, h1, List.append_assoc], ?_⟩
        intro o ho i to k q id hop e
        rcases List.mem_append.1 ho with ho | ho
        · have := h4 o ho
          rw [e] at this
          obtain ⟨g1, g2, g3, g4, g5, g6⟩ := this
          obtain ⟨hn, r, hr, hc⟩ := hw r' hj
          rcases hc with rfl | ⟨-, hc⟩
          · exact ⟨r', hr, hn ▸ hd, g1, g2, g3, g4, g5, g6⟩
          · exfalso
            have : r'.max = 0 := by rw [hc]; rfl
            have := hd.2.2.1
            omega
        · exact h2 o ho i to k q id hop e
      · rw [e2 hd]; exact ⟨new, h1, h2⟩

end Babel
