import Verif.Lemmas.Walk2
import Verif.Lemmas.Demo
/-
C38 retransmission.
-/
set_option linter.unusedSimpArgs false
set_option linter.unusedVariables false
namespace Babel
open Spec

/-! ### C38 -/

/-- C38: there is at most one pending request and one pending update per destination. -/
theorem C38_one_entry {c : Cfg} {s : St} (h : Reachable c s) :
    (s.resends.map (fun r => (r.kind, r.key))).Nodup := h.rinv.nodup

/-- C38: a pending entry is to be sent at most three more times (or has been cancelled), and delays are at most
65535 ms. -/
theorem C38_bounds {c : Cfg} {s : St} (h : Reachable c s) {kd : RKind} {k : PKey} {r : Resend}
    (hp : pending s kd k = some r) : (r.max ≤ 3 ∨ Cancelled r) ∧ r.delay ≤ 65535 := by
  have := h.rinv.bound r ((pending_iff h.rinv).1 hp).1
  exact ⟨this.2.2, this.2.1⟩

/-- A cancelled request counts as lapsed, once the clock is past 66 s. -/
theorem C38_cancelled {now : Timeval} {r : Resend} (hn : TvOk now) (ht : TvOk r.time) (h66 : 66 ≤ now.sec)
    (hc : Cancelled r) : Lapsed now r ∧ ¬ Due now r := by
  have hl : Lapsed now r := by
    unfold Lapsed
    rw [hc.1]
    simp only
    obtain ⟨h1, h2, h3, h4⟩ := C03_minus_msec now r.time hn ht
    have e : r.time.sec = 0 := hc.2
    unfold TvOk at hn ht
    by_cases hbig : 2000000 < now.sec - r.time.sec
    · rw [h3 hbig]; omega
    · have := h2 (by unfold micros; omega) (by omega)
      unfold micros at this
      omega
  exact ⟨hl, fun hd => hd.1 hl⟩

/-- C38: when the retransmission timer runs, an entry that is due is sent with the delay doubled and one less to
go; an entry that is not due is left alone; unless the entry has been cancelled by an update sent meanwhile. -/
theorem C38_retransmit {c : Cfg} {s : St} (h : Reachable c s) {kd : RKind} {k : PKey} :
    match pending s kd k, pending (step c s .doResend) kd k with
    | none, none => True
    | some r, some r' => Cancelled r' ∨ (Due s.now r ∧ Resent r r') ∨ (¬ Due s.now r ∧ r' = r)
    | _, _ => False := by
  have hinv := h.rinv
  have hinv' := (h.step .doResend).rinv
  generalize hn : s.resends.length = n
  have hst : (step c s .doResend).resends = ((List.range n).foldl (doResendOne c) s).resends := by
    rw [← hn]; rfl
  cases hp : pending s kd k with
  | none =>
    cases hp' : pending (step c s .doResend) kd k with
    | none => trivial
    | some r' =>
      exfalso
      have hm := (pending_iff hinv').1 hp'
      rw [hst] at hm
      obtain ⟨p, hp2⟩ := List.mem_iff_getElem?.1 hm.1
      cases hs : s.resends[p]? with
      | some r =>
        obtain ⟨r2, h1, -, -, h2, -⟩ := walk_entry c s n p r hs
        rw [hp2] at h1; cases h1
        have : pending s kd k = some r := (pending_iff hinv).2 ⟨List.mem_of_getElem? hs, h2.1 ▸ hm.2.1, h2.2.1 ▸ hm.2.2⟩
        rw [hp] at this; cases this
      | none =>
        rw [List.getElem?_eq_none_iff] at hs
        have hlt := (List.getElem?_eq_some_iff.1 hp2).1
        by_cases he : s.resends = []
        · rw [he] at hn
          simp at hn
          subst hn
          rw [List.range_zero, List.foldl_nil, he] at hlt
          simp at hlt
        · obtain ⟨r0, l, e⟩ := List.exists_cons_of_ne_nil he
          obtain ⟨-, -, -, h3, -⟩ := walk_entry c s n 0 r0 (by rw [e]; rfl)
          omega
  | some r =>
    obtain ⟨hm, h1, h2⟩ := (pending_iff hinv).1 hp
    obtain ⟨p, hp2⟩ := List.mem_iff_getElem?.1 hm
    obtain ⟨r', e1, -, -, e2, e3, -⟩ := walk_entry c s n p r hp2
    have hlt := (List.getElem?_eq_some_iff.1 hp2).1
    have : pending (step c s .doResend) kd k = some r' := by
      refine (pending_iff hinv').2 ⟨?_, e2.1.trans h1, e2.2.1.trans h2⟩
      rw [hst]; exact List.mem_of_getElem? e1
    rw [this]
    simp only
    by_cases hc : Cancelled r'
    · exact .inl hc
    · right
      rcases e3 hc with ⟨-, hd, e⟩ | ⟨hd, e⟩
      · left
        refine ⟨hd, ?_⟩
        have hb := hinv.bound r hm
        have h0 := hd.2.2.1
        rw [e]
        unfold Resent resentEntry
        congr 1
        · omega
        · omega
      · right
        exact ⟨by rcases hd with hd | hd; · omega
                  · exact hd, e⟩

/-- C38: when the retransmission timer runs, only pending requests that are due are sent, with hop count 127. -/
theorem C38_only_due {c : Cfg} {s : St} (h : Reachable c s) {i : IfId} {to : Option NeighId} {k : PKey} {q : UInt16}
    {id : Bytes} {hop : Nat} (ho : Out.mhRequest i to k q id hop ∈ sent c s .doResend) :
    ∃ r, pending s .request k = some r ∧ Due s.now r ∧ q = r.seqno ∧ id = r.id ∧ to = none ∧ hop = 127 := by
  obtain ⟨new, h1, h2⟩ := walk_out c { s with out := [] } s.resends.length
  have ho : Out.mhRequest i to k q id hop ∈ ((List.range s.resends.length).foldl (doResendOne c) { s with out := [] }).out := ho
  rw [h1, List.append_nil] at ho
  obtain ⟨r, g1, g2, g3, g4, g5, g6, g7, g8⟩ := h2 _ ho i to k q id hop rfl
  exact ⟨r, (pending_iff h.rinv).2 ⟨g1, g3, g5.symm⟩, g2, g6, g7, g4, g8⟩

/-- C38: when the retransmission timer runs, a request that is due is sent on its interface, or on all interfaces
if it has none (if they are up, and not restricted to the old protocol if the request is source-specific), unless it has been cancelled. -/
theorem C38_due_sent {c : Cfg} {s : St} (h : Reachable c s) {k : PKey} {r r' : Resend} (hp : pending s .request k = some r)
    (hd : Due s.now r) (hp' : pending (after c s .doResend) .request k = some r') (hc : ¬ Cancelled r')
    {i : IfId} (hi : r.ifp = none ∨ r.ifp = some i) (hu : ifUp s i = true) (hb : ssBlocked s i k = false) :
    Out.mhRequest i none k r.seqno r.id 127 ∈ sent c s .doResend := by
  obtain ⟨hm, h1, h2⟩ := (pending_iff h.rinv).1 hp
  obtain ⟨p, hp2⟩ := List.mem_iff_getElem?.1 hm
  obtain ⟨r2, e1, -, -, e2, -, -⟩ := walk_entry c { s with out := [] } s.resends.length p r hp2
  have hr2 : pending (after c s .doResend) .request k = some r2 := by
    refine (pending_iff (h.take.step .doResend).rinv).2 ⟨?_, e2.1.trans h1, e2.2.1.trans h2⟩
    exact List.mem_of_getElem? e1
  rw [hr2] at hp'; cases hp'
  have := walk_sends c { s with out := [] } s.resends.length p r r' hp2 (List.getElem?_eq_some_iff.1 hp2).1 e1 hc hd h1 i hi hu
    (by rw [h2]; exact hb)
  rw [h2] at this
  exact this

/-- C38: no other event sends an entry again or forgets it: an entry stays as it is unless it is recorded anew or
cancelled. -/
theorem C38_other {c : Cfg} (s : St) {ev : Ev} (h1 : ev ≠ .doResend) (h2 : ev ≠ .expireResend) (kd : RKind) (k : PKey) :
    match pending s kd k, pending (step c s ev) kd k with
    | none, none => True
    | none, some r' => Recorded s.now r' ∨ Cancelled r'
    | some _, none => False
    | some r, some r' => r' = r ∨ Recorded s.now r' ∨ Cancelled r' := by
  cases hs : Ev.special ev with
  | false =>
    exact (soft_step (P := Perm.all) s ev hs (fun _ _ _ _ _ _ _ _ _ => trivial)).fine.rrel.2.2.2 kd k
  | true =>
    cases ev <;> first | cases hs | skip
    · show match pending s kd k, pending s kd k with
        | none, none => True
        | none, some r' => Recorded s.now r' ∨ Cancelled r'
        | some _, none => False
        | some r, some r' => r' = r ∨ Recorded s.now r' ∨ Cancelled r'
      cases pending s kd k with
      | none => trivial
      | some r => exact .inl rfl
    · exact (ifDown_fines (P := Perm.all) c s _).rrel.2.2.2 kd k
    · exact (ifUp_fines (P := Perm.all) c s _ _).rrel.2.2.2 kd k
    · exact absurd rfl h2
    · exact absurd rfl h1

/-- C38: the periodic cleanup removes exactly the entries that have lapsed: requests after 65 s, updates that were
sent as often as required. -/
theorem C38_expire {c : Cfg} {s : St} (h : Reachable c s) (kd : RKind) (k : PKey) (r : Resend) :
    pending (step c s .expireResend) kd k = some r ↔ pending s kd k = some r ∧ ¬ Lapsed s.now r := by
  rw [pending_iff (h.step .expireResend).rinv, pending_iff h.rinv]
  have e : (step c s .expireResend).resends = s.resends.filter (fun r => !resendExpired s.now r) := expireResend_resends s
  rw [e, List.mem_filter, ← lapsed_iff]
  simp only [Bool.not_eq_true', Bool.not_eq_true]
  grind

/-- Requests for `k` are among the messages. -/
def asksFor (k : PKey) (l : List Out) : Bool :=
  l.any (fun o => match o with | .mhRequest _ _ k' _ _ _ => k' == k | _ => false)

/-- 1 if the retransmission timer runs and sends a request for `k`. -/
def resentNow (c : Cfg) (k : PKey) (s : St) : Ev → Nat
  | .doResend => if asksFor k (sent c s .doResend) then 1 else 0
  | _ => 0

/-- How often the retransmission timer sends a request for `k` during a run. -/
def resentTimes (c : Cfg) (k : PKey) : St → List Ev → Nat
  | _, [] => 0
  | s, ev :: evs => resentNow c k s ev + resentTimes c k (step c s ev) evs

/-- During the run, no request for `k` is recorded, the clock is past 66 s and times are normalised. -/
def NotRecorded (c : Cfg) (k : PKey) : St → List Ev → Prop
  | _, [] => True
  | s, ev :: evs => 66 ≤ s.now.sec ∧ TvOk s.now ∧ (∀ r, pending s .request k = some r → TvOk r.time) ∧
      (∀ r', pending (step c s ev) .request k = some r' → Recorded s.now r' → pending s .request k = some r') ∧
      NotRecorded c k (step c s ev) evs

/-- C38: as long as the request is not recorded again, it is sent again at most three times. -/
theorem C38_at_most_three {c : Cfg} {s : St} (h : Reachable c s) (k : PKey) (evs : List Ev)
    (hn : NotRecorded c k s evs) : resentTimes c k s evs ≤ 3 := by
  have key : ∀ (evs : List Ev) (s : St), Reachable c s → NotRecorded c k s evs →
      resentTimes c k s evs = 0 ∨
      ∃ r, pending s .request k = some r ∧ ¬ Cancelled r ∧ resentTimes c k s evs ≤ r.max := by
    intro evs
    induction evs with
    | nil => intro s _ _; exact .inl rfl
    | cons ev evs ih =>
      intro s hr hn
      obtain ⟨h66, hok, hokr, hrec, hn⟩ := hn
      have ih' := ih _ (hr.step ev) hn
      unfold resentTimes
      by_cases e1 : ev = .doResend
      · subst e1
        unfold resentNow
        have hre := C38_retransmit hr (kd := .request) (k := k)
        cases hs : asksFor k (sent c s .doResend) with
        | false =>
          simp only [Bool.false_eq_true, if_false, Nat.zero_add]
          rcases ih' with h0 | ⟨r', hp', hc', hle⟩
          · exact .inl h0
          · rw [hp'] at hre
            cases hp : pending s .request k with
            | none => rw [hp] at hre; exact hre.elim
            | some r =>
              rw [hp] at hre
              simp only at hre
              rcases hre with h | ⟨hd, h⟩ | ⟨-, h⟩
              · exact absurd h hc'
              · refine .inr ⟨r, rfl, fun hc => hc' (h ▸ hc), ?_⟩
                have : r'.max = r.max - 1 := by rw [h]
                omega
              · subst h; exact .inr ⟨r', rfl, hc', hle⟩
        | true =>
          simp only [if_true]
          unfold asksFor at hs
          obtain ⟨o, ho, hm⟩ := List.any_eq_true.1 hs
          cases o with
          | mhRequest i to k' q id hop =>
            simp only [beq_iff_eq] at hm
            subst hm
            obtain ⟨r, hp, hd, -⟩ := C38_only_due hr ho
            have hnc : ¬ Cancelled r := fun hc => (C38_cancelled hok (hokr r hp) h66 hc).2 hd
            have h0 := hd.2.2.1
            rw [hp] at hre
            refine .inr ⟨r, hp, hnc, ?_⟩
            rcases ih' with h0' | ⟨r', hp', hc', hle⟩
            · omega
            · rw [hp'] at hre
              simp only at hre
              rcases hre with h | ⟨-, h⟩ | ⟨h, -⟩
              · exact absurd h hc'
              · have : r'.max = r.max - 1 := by rw [h]
                omega
              · exact absurd hd h
          | _ => cases hm
      · have e0 : resentNow c k s ev = 0 := by
          clear ih' hrec hn
          cases ev <;> first | rfl | exact absurd rfl e1
        rw [e0, Nat.zero_add]
        rcases ih' with h0 | ⟨r', hp', hc', hle⟩
        · exact .inl h0
        · refine .inr ⟨r', ?_, hc', hle⟩
          by_cases e2 : ev = .expireResend
          · subst e2; exact ((C38_expire hr _ _ _).1 hp').1
          · have ho := C38_other (c := c) s e1 e2 .request k
            rw [hp'] at ho
            cases hp : pending s .request k with
            | none =>
              rw [hp] at ho
              rcases ho with h | h
              · rw [← hp]; exact hrec r' hp' h
              · exact absurd h hc'
            | some r =>
              rw [hp] at ho
              rcases ho with h | h | h
              · rw [h]
              · rw [← hp]; exact hrec r' hp' h
              · exact absurd h hc'
  rcases key evs s h hn with h0 | ⟨r, hp, hc, hle⟩
  · omega
  · rcases (C38_bounds h hp).1 with h | h
    · omega
    · exact absurd h hc

instance (a b : UInt16) : Decidable (NewerEq a b) := by unfold NewerEq; infer_instance

/-- C38: an update for `k` that answers the pending request cancels it: an update with another origin, or with a
sequence number for which the request is not newer (and, when sent on one interface, if the request came from there). Nothing else changes. -/
theorem C38_satisfy (s : St) (k : PKey) (q : UInt16) (id : Bytes) (i : Option IfId) (kd : RKind) (k' : PKey) :
    pending (satisfyRequest s k q id i) kd k' = (pending s kd k').map (fun r =>
      if kd = .request ∧ k' = k ∧ (i = none ∨ r.ifp = i) ∧ (r.id = id → ¬ NewerEq r.seqno q) then
        { r with max := 0, time := ⟨0, r.time.usec⟩ } else r) := by
  have hid : ∀ r : Resend, ((fun r => if Satisfies r q id i then satisfied r else r) r).ident = r.ident := by
    intro r; simp only; split <;> rfl
  have hsat : ∀ r : Resend, Satisfies r q id i ↔ (i = none ∨ r.ifp = i) ∧ (r.id = id → ¬ NewerEq r.seqno q) := by
    intro r
    unfold Satisfies
    rw [← seqnoCompare_pos]
    refine and_congr Iff.rfl ?_
    constructor
    · rintro (h | h) e
      · exact absurd e h
      · omega
    · intro h
      by_cases e : r.id = id
      · exact .inr (by have := h e; omega)
      · exact .inl e
  have : pending (satisfyRequest s k q id i) kd k' =
        if (kd, k') = (.request, k) then (pending s .request k).map (fun r => if Satisfies r q id i then satisfied r else r)
        else pending s kd k' := by
    rw [← pending_eq, ← pending_eq, ← pending_eq]
    unfold findResend
    rw [satisfy_resends, find_modFirst _ _ _ _ _ _ hid]
  rw [this]
  by_cases e : (kd, k') = (.request, k)
  · rw [if_pos e]
    injection e with e1 e2
    subst e1; subst e2
    cases pending s .request k' with
    | none => rfl
    | some r =>
      simp only [Option.map_some, true_and]
      congr 1
      by_cases hs : Satisfies r q id i
      · rw [if_pos hs, if_pos ((hsat r).1 hs)]; rfl
      · rw [if_neg hs, if_neg (fun g => hs ((hsat r).2 g))]
  · rw [if_neg e]
    cases pending s kd k' with
    | none => rfl
    | some r =>
      simp only [Option.map_some]
      rw [if_neg]
      rintro ⟨e1, e2, -⟩
      exact e (by rw [e1, e2])

theorem denied_iff (c : Cfg) (kd : RKind) (k : PKey) (i : Option IfId) : recordDenied c kd k i = true ↔ FilteredOut c kd k i := by
  unfold recordDenied FilteredOut INFINITY
  cases kd <;> simp

/-- C38: nothing is recorded if a filter denies it. -/
theorem C38_denied (c : Cfg) (s : St) (kd : RKind) (k : PKey) (q : UInt16) (id : Option Bytes) (i : Option IfId) (d : Nat)
    (hd : FilteredOut c kd k i) : recordResend c s kd k q id i d = s := by
  unfold recordResend
  rw [(denied_iff ..).2 hd]
  rfl

/-- C38: recording a request or an update (unless a filter denies it) gives it three transmissions from now on; a pending
entry keeps its shorter delay; it keeps what it asks for if that is newer, else asks for the new sequence number, on all
interfaces if it came from different ones.  Entries for other destinations are not affected. -/
theorem C38_record (c : Cfg) (s : St) (kd : RKind) (k : PKey) (q : UInt16) (id : Option Bytes) (i : Option IfId) (d : Nat)
    (hf : ¬ FilteredOut c kd k i) :
    (∀ kd' k', (kd', k') ≠ (kd, k) → pending (recordResend c s kd k q id i d) kd' k' = pending s kd' k') ∧
    ∃ r', pending (recordResend c s kd k q id i d) kd k = some r' ∧ Recorded s.now r' ∧
      (pending s kd k = none → r'.delay = min d 65535 ∧ r'.seqno = q ∧ r'.id = id.getD [0,0,0,0,0,0,0,0] ∧ r'.ifp = i) ∧
      (∀ r, pending s kd k = some r →
        (r'.delay = if r.delay = 0 then min d 65535 else if d = 0 then r.delay else min r.delay (min d 65535)) ∧
        (id = some r.id ∧ NewerEq r.seqno q → r'.seqno = r.seqno ∧ r'.id = r.id ∧ r'.ifp = r.ifp) ∧
        (¬ (id = some r.id ∧ NewerEq r.seqno q) → r'.seqno = q ∧ r'.id = id.getD [0,0,0,0,0,0,0,0] ∧
          r'.ifp = if r.ifp = i then i else none)) := by
  have hd : recordDenied c kd k i = false := by rw [← denied_iff] at hf; simpa using hf
  have hp := record_pending c s kd k q id i d
  refine ⟨fun kd' k' hne => ?_, ?_⟩
  · rw [hp, if_neg (fun g => hne g.1)]
  · rw [hp, if_pos ⟨rfl, hd⟩]
    refine ⟨_, rfl, ?_, ?_, ?_⟩
    · cases pending s kd k with
      | none => exact ⟨rfl, rfl⟩
      | some r => exact refresh_recorded ..
    · intro e; rw [e]; exact ⟨rfl, rfl, rfl, rfl⟩
    · intro r e
      rw [e]
      simp only
      unfold refreshResend
      simp only
      refine ⟨?_, ?_, ?_⟩
      · have : (if r.delay ≠ 0 ∧ min d 65535 ≠ 0 then min r.delay (min d 65535)
             else if min d 65535 ≠ 0 then min d 65535 else r.delay) =
            if r.delay = 0 then min d 65535 else if d = 0 then r.delay else min r.delay (min d 65535) := by
          by_cases h1 : r.delay = 0 <;> by_cases h2 : d = 0 <;> simp [h1, h2]
          all_goals omega
        split <;> exact this
      · intro h
        rw [if_pos ⟨h.1, seqnoCompare_pos.2 h.2⟩]
        exact ⟨rfl, rfl, rfl⟩
      · intro h
        rw [if_neg (fun g => h ⟨g.1, seqnoCompare_pos.1 g.2⟩)]
        refine ⟨rfl, rfl, ?_⟩
        show (if r.ifp ≠ i then none else r.ifp) = _
        by_cases e : r.ifp = i <;> simp [e]

/-- The timer `t` is set, not later than `u`. -/
def ArmedBy (t u : Timeval) : Prop := t.sec ≠ 0 ∧ micros t ≤ micros u

/-- Something is still to be sent for the entry. -/
def Live (now : Timeval) (r : Resend) : Prop := ¬ Lapsed now r ∧ 0 < r.delay ∧ 0 < r.max

theorem live_iff (now : Timeval) (r : Resend) : resendLive now r = true ↔ Live now r := by
  unfold resendLive Live
  rw [← lapsed_iff]
  simp only [Bool.and_eq_true, decide_eq_true_eq, Bool.not_eq_true', Bool.not_eq_true]
  grind

theorem recompute_armed {s : St} (hok : ∀ r ∈ s.resends, TvOk r.time ∧ 0 < r.time.sec ∨ ¬ Live s.now r) :
    (∀ r ∈ s.resends, Live s.now r → ArmedBy (recomputeResendTime s).resendTime (timevalAddMsec r.time r.delay)) ∧
    ((recomputeResendTime s).resendTime.sec ≠ 0 →
      ∃ r ∈ s.resends, Live s.now r ∧ (recomputeResendTime s).resendTime = timevalAddMsec r.time r.delay) := by
  have key : ∀ (l : List Resend) (t : Timeval), TvOk t → (∀ r ∈ l, TvOk r.time ∧ 0 < r.time.sec ∨ ¬ Live s.now r) →
      let t' := l.foldl (fun t r => if resendLive s.now r then timevalMin t (resendDue r) else t) t
      (∀ r ∈ l, Live s.now r → ArmedBy t' (timevalAddMsec r.time r.delay)) ∧ (t.sec ≠ 0 → ArmedBy t' t) ∧
      (t' = t ∨ ∃ r ∈ l, Live s.now r ∧ t' = timevalAddMsec r.time r.delay) := by
    intro l
    induction l with
    | nil => intro t ht _; exact ⟨by simp, fun h => ⟨h, by simp⟩, .inl rfl⟩
    | cons r l ih =>
      intro t ht hok
      rw [List.foldl_cons]
      by_cases hl : Live s.now r
      · have hr : TvOk r.time ∧ 0 < r.time.sec := by
          rcases hok r (by simp) with h | h
          · exact h
          · exact absurd hl h
        rw [if_pos ((live_iff ..).2 hl)]
        obtain ⟨a1, a2⟩ := C03_add_msec_exact r.time (r.delay : Int) hr.1 (by omega)
        have hsec : (resendDue r).sec ≠ 0 := by
          have : r.time.sec ≤ (timevalAddMsec r.time (r.delay : Int)).sec := by
            unfold micros at a1
            unfold TvOk at a2
            have h0 := hr.1
            unfold TvOk at h0
            omega
          show (timevalAddMsec r.time (r.delay : Int)).sec ≠ 0
          omega
        obtain ⟨-, m2, m3⟩ := C03_min t (resendDue r) ht a2
        have hmin : TvOk (timevalMin t (resendDue r)) ∧ (timevalMin t (resendDue r)).sec ≠ 0 ∧
            micros (timevalMin t (resendDue r)) ≤ micros (resendDue r) ∧
            (t.sec ≠ 0 → micros (timevalMin t (resendDue r)) ≤ micros t) ∧
            (timevalMin t (resendDue r) = t ∨ timevalMin t (resendDue r) = resendDue r) := by
          by_cases h0 : t.sec = 0
          · rw [m2 hsec h0]
            exact ⟨a2, hsec, Int.le_refl _, fun h => absurd h0 h, .inr rfl⟩
          · obtain ⟨b1, b2⟩ := m3 hsec h0
            refine ⟨?_, ?_, by rw [b2]; omega, fun _ => by rw [b2]; omega, b1⟩
            · rcases b1 with b | b <;> rw [b]
              · exact ht
              · exact a2
            · rcases b1 with b | b <;> rw [b]
              · exact h0
              · exact hsec
        obtain ⟨n1, n2, n3, n4, n5⟩ := hmin
        obtain ⟨i1, i2, i3⟩ := ih _ n1 (fun r' h' => hok r' (List.mem_cons_of_mem _ h'))
        have i2' := i2 n2
        refine ⟨?_, fun h => ⟨i2'.1, Int.le_trans i2'.2 (n4 h)⟩, ?_⟩
        · intro r' h' hl'
          rcases List.mem_cons.1 h' with rfl | h'
          · exact ⟨i2'.1, Int.le_trans i2'.2 n3⟩
          · exact i1 r' h' hl'
        · rcases i3 with e | ⟨r', h', e⟩
          · rcases n5 with e' | e'
            · exact .inl (e.trans e')
            · exact .inr ⟨r, by simp, hl, e.trans e'⟩
          · exact .inr ⟨r', List.mem_cons_of_mem _ h', e⟩
      · rw [if_neg (fun g => hl ((live_iff ..).1 g))]
        obtain ⟨i1, i2, i3⟩ := ih t ht (fun r' h' => hok r' (List.mem_cons_of_mem _ h'))
        refine ⟨?_, i2, ?_⟩
        · intro r' h' hl'
          rcases List.mem_cons.1 h' with rfl | h'
          · exact absurd hl' hl
          · exact i1 r' h' hl'
        · rcases i3 with e | ⟨r', h', e⟩
          · exact .inl e
          · exact .inr ⟨r', List.mem_cons_of_mem _ h', e⟩
  obtain ⟨k1, -, k3⟩ := key s.resends ⟨0, 0⟩ ⟨by decide, by decide⟩ hok
  refine ⟨k1, fun h => ?_⟩
  rcases k3 with e | e
  · have : (recomputeResendTime s).resendTime = ⟨0, 0⟩ := e
    rw [this] at h
    exact absurd rfl h
  · exact e

/-- C38: after each run of the retransmission timer it is set again for exactly the earliest of the entries that are still
to be sent (provided that their times are normalised, and past the first second). -/
theorem C38_timer (c : Cfg) (s : St) (hok : ∀ r ∈ (step c s .doResend).resends,
      TvOk r.time ∧ 0 < r.time.sec ∨ ¬ Live (step c s .doResend).now r) :
    (∀ r ∈ (step c s .doResend).resends, Live (step c s .doResend).now r →
      ArmedBy (step c s .doResend).resendTime (timevalAddMsec r.time r.delay)) ∧
    ((step c s .doResend).resendTime.sec ≠ 0 → ∃ r ∈ (step c s .doResend).resends, Live (step c s .doResend).now r ∧
      (step c s .doResend).resendTime = timevalAddMsec r.time r.delay) :=
  recompute_armed (s := (List.range s.resends.length).foldl (doResendOne c) s) hok

/-- C38: recording a new entry with a delay sets the timer no later than the entry is due, and no later than before. -/
theorem C38_armed (c : Cfg) (s : St) (kd : RKind) (k : PKey) (q : UInt16) (id : Option Bytes) (i : Option IfId) (d : Nat)
    (hf : ¬ FilteredOut c kd k i) (hn : TvOk s.now) (h1 : 0 < s.now.sec) (ht : TvOk s.resendTime)
    (hnew : ∀ r, pending s kd k = some r → ¬ (id = some r.id ∧ NewerEq r.seqno q)) {r' : Resend}
    (hr : pending (recordResend c s kd k q id i d) kd k = some r') (h0 : 0 < r'.delay) :
    ArmedBy (recordResend c s kd k q id i d).resendTime (timevalAddMsec s.now r'.delay) ∧
    (s.resendTime.sec ≠ 0 → ArmedBy (recordResend c s kd k q id i d).resendTime s.resendTime) := by
  have hd : recordDenied c kd k i = false := by rw [← denied_iff] at hf; simpa using hf
  have harm : ∀ (s1 : St) (r : Resend), s1.resendTime = s.resendTime → r.time = s.now → 0 < r.delay →
      ArmedBy (armResend s1 r).resendTime (timevalAddMsec s.now r.delay) ∧
      (s.resendTime.sec ≠ 0 → ArmedBy (armResend s1 r).resendTime s.resendTime) := by
    intro s1 r e1 e2 hd
    unfold armResend
    rw [if_pos (by omega)]
    show ArmedBy (timevalMin s1.resendTime (resendDue r)) _ ∧ (_ → ArmedBy (timevalMin s1.resendTime (resendDue r)) _)
    rw [e1]
    unfold resendDue
    rw [e2]
    obtain ⟨a1, a2⟩ := C03_add_msec_exact s.now (r.delay : Int) hn (by omega)
    have hsec : (timevalAddMsec s.now (r.delay : Int)).sec ≠ 0 := by
      unfold micros at a1
      unfold TvOk at a2 hn
      omega
    obtain ⟨-, m2, m3⟩ := C03_min s.resendTime _ ht a2
    by_cases hz : s.resendTime.sec = 0
    · rw [m2 hsec hz]
      exact ⟨⟨hsec, Int.le_refl _⟩, fun h => absurd hz h⟩
    · obtain ⟨b1, b2⟩ := m3 hsec hz
      have : (timevalMin s.resendTime (timevalAddMsec s.now (r.delay : Int))).sec ≠ 0 := by
        rcases b1 with b | b <;> rw [b]
        · exact hz
        · exact hsec
      exact ⟨⟨this, by rw [b2]; omega⟩, fun _ => ⟨this, by rw [b2]; omega⟩⟩
  have hp := record_pending c s kd k q id i d kd k
  rw [hr, if_pos ⟨rfl, hd⟩, Option.some.injEq] at hp
  have hpe : pending s kd k = findResend s kd k := rfl
  unfold recordResend
  rw [hd]
  simp only [Bool.false_eq_true, if_false]
  cases hf : findResend s kd k with
  | none =>
    rw [hpe, hf] at hp
    simp only at hp ⊢
    subst hp
    exact harm _ _ rfl rfl h0
  | some r =>
    rw [hpe, hf] at hp
    simp only at hp ⊢
    have hne := hnew r (hpe.trans hf)
    have : (refreshResend s.now q id i (min d 65535) r).2 = false := by
      unfold refreshResend
      simp only
      rw [if_neg (fun g => hne ⟨g.1, seqnoCompare_pos.1 g.2⟩)]
    rw [this]
    simp only [Bool.false_eq_true, if_false]
    rw [← hp]
    rw [hp]
    rw [← hp]
    exact harm _ _ rfl (by rw [hp]; exact (refresh_recorded ..).2) h0

namespace Demo38
open Demo

/-- The selected route through neighbour 1 is lost; the route through neighbour 2 is unfeasible: a request is recorded. -/
def lost : List Ev :=
  [.update (some (rid 9)) (key 1) 7 200 400 1 (some (ll 1)), .flushUpdates 10, .flushUpdates 20,
   .update (some (rid 9)) (key 1) 7 600 400 2 (some (ll 2)), .flushNeigh 1]

def timers : List Ev :=
  [.tick ⟨1002, 0⟩, .doResend, .tick ⟨1004, 0⟩, .doResend, .tick ⟨1006, 0⟩, .doResend, .tick ⟨1008, 0⟩, .doResend,
   .tick ⟨1012, 0⟩, .doResend, .tick ⟨1016, 0⟩, .doResend, .tick ⟨1024, 0⟩, .doResend]

/-- It is sent again three times, after 2, 4 and 8 seconds from the time it was recorded. -/
example : resentTimes cfg (key 1) (run cfg start lost) timers = 3 ∧
    (pending (run cfg start lost) .request (key 1)).map (fun r => (r.max, r.delay, r.time.sec)) = some (3, 2000, 1000) ∧
    (pending (run cfg start (lost ++ timers.take 2)) .request (key 1)).map (fun r => (r.max, r.delay)) = some (2, 4000) ∧
    (run cfg start (lost ++ timers.take 2)).resendTime = ⟨1004, 0⟩ := by
  decide +kernel

example : NotRecorded cfg (key 1) (run cfg start lost) [.tick ⟨1002, 0⟩, .doResend] := by
  refine ⟨by decide +kernel, by unfold TvOk; decide +kernel, ?_, ?_, by decide +kernel, by unfold TvOk; decide +kernel, ?_, ?_, trivial⟩
  · have : ((pending (run cfg start lost) .request (key 1)).all fun r => decide (0 ≤ r.time.usec) && decide (r.time.usec < 1000000)) = true := by
      decide +kernel
    intro r hr; rw [hr] at this; simpa [TvOk] using this
  · intro r hr _; exact hr
  · have : ((pending (step cfg (run cfg start lost) (.tick ⟨1002, 0⟩)) .request (key 1)).all fun r => decide (0 ≤ r.time.usec) && decide (r.time.usec < 1000000)) = true := by
      decide +kernel
    intro r hr; rw [hr] at this; simpa [TvOk] using this
  · intro r hr h
    have : ((pending (step cfg (step cfg (run cfg start lost) (.tick ⟨1002, 0⟩)) .doResend) .request (key 1)).all fun r => decide (r.max ≠ 3)) = true := by
      decide +kernel
    rw [hr] at this
    simp at this
    exact absurd h.1 this

/-- Nothing may be announced. -/
def mute : Cfg := { cfg with outputFilter := fun _ _ _ => INFINITY }

/-- As `lost`, but before the route is lost a request of neighbour 3 for a newer sequence number is passed on. -/
def askedBefore : List Ev := lost.take 4 ++ [.seqnoRequest 3 (key 1) 5 20 (rid 9), .flushNeigh 1]

/-- A newer update cancels the request, once it has been passed on. -/
example : (pending (run cfg start (lost ++ [.update (some (rid 9)) (key 1) 8 300 400 2 (some (ll 2)),
      .flushUpdates 10, .flushUpdates 20])) .request (key 1)).map (fun r => (r.max, r.time.sec)) = some (0, 0) := by
  decide +kernel

end Demo38

/-- C38: the hypothesis of `C38_armed` about the sequence number is needed.  If a newer sequence number has been asked for before, the request
of the daemon is recorded and is to be sent again, but the timer is not set. -/
theorem C38_armed_false : let s := run Demo38.mute Demo.start Demo38.askedBefore
    (pending s .request (Demo.key 1)).map (fun r => (r.max, r.delay, r.time, decide (timevalMinusMsec s.now r.time < 65000))) =
      some (3, 2000, ⟨1000, 0⟩, true) ∧ s.resendTime = ⟨0, 0⟩ ∧ (run Demo38.mute Demo.start Demo38.lost).resendTime = ⟨1002, 0⟩ := by
  decide +kernel

end Babel
