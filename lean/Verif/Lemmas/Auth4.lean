import Verif.Lemmas.Auth3
/-
Replays and challenges in histories.
-/
set_option linter.unusedSimpArgs false
set_option linter.unusedVariables false
namespace Babel
open Spec

theorem about_packet {x : Bytes} {c : RIf} {p : Rx} (h : p.env.sender = x) : about x (.packet c p) = true := by
  simp [about, h]

theorem authentic_answered {o : Effect} (h : o.verdict = .answered) : authentic o = true := by simp [authentic, h]

theorem copy_about {x P mc ev o} (h : copy x P mc ev o = true) : about x ev = true ∧ authentic o = true := by
  cases ev with
  | packet c p =>
    simp only [copy, Bool.and_eq_true, beq_iff_eq] at h
    exact ⟨about_packet h.1.1.1, h.2⟩
  | flush a => simp [copy] at h

/-- After a packet has been accepted, its counter is past, until a challenge succeeds. -/
theorem past_step {r : Nonces} {s s' : AState} {x : Bytes} {ev : AEv} {o : Effect} (hev : EvOk ev)
    (h : AStep r s x s' ev o) (hw : (s.ent x).Wf) (mc : Bool) (pc ix : Bytes)
    (hp : (s.ent x).Past mc pc ix) (hn : answeredBy x ev o = false) : (s'.ent x).Past mc pc ix := by
  rcases astep_counter hev h hw with ⟨he, -, -⟩ | ⟨h1, h2, h3⟩ | ⟨c, p, ts, pc', ix', rfl, hx, hts, hc, h1, h2, hv⟩
  · intro ix' hi; rw [he] at hi; cases hi
  · intro ix' hi
    rw [h1] at hi
    rw [h2]
    exact hp ix' hi
  · rcases hv with ⟨hv, _⟩ | ⟨hv, h3, h4, h5⟩
    · simp [answeredBy, about_packet hx, hv] at hn
    · intro ix'' hi
      rw [h1] at hi
      have := hp ix'' (by rw [h3]; exact hi)
      refine ⟨this.1, ?_⟩
      by_cases hmc : mc = multicast p.dst
      · subst hmc; rw [h2]; omega
      · rw [h5 mc hmc]; exact this.2

theorem past_run {r : Nonces} {x : Bytes} (mc : Bool) (pc ix : Bytes) :
    ∀ evs s s' os, (∀ ev ∈ evs, EvOk ev) → arun r s evs = some (s', os) → (s.ent x).Wf →
      tally (answeredBy x) evs os = 0 → (s.ent x).Past mc pc ix → (s'.ent x).Past mc pc ix := by
  intro evs
  induction evs with
  | nil =>
    intro s s' os _ h _ _ hi
    simp only [arun, Option.some.injEq, Prod.mk.injEq] at h
    rw [← h.1]; exact hi
  | cons ev evs ih =>
    intro s s' os hok h hw ht hi
    obtain ⟨s1, o, h1, h2⟩ := astep_ok r s ev (hok ev (by simp))
    simp only [arun, h1, Option.bind_eq_bind, Option.bind_some] at h
    cases h3 : arun r s1 evs with
    | none => simp [h3] at h
    | some q =>
      obtain ⟨s2, os'⟩ := q
      simp [h3] at h
      rw [← h.1]
      rw [← h.2] at ht
      simp only [tally] at ht
      have hn : answeredBy x ev o = false := by
        cases ha : answeredBy x ev o
        · rfl
        · simp [ha] at ht
      exact ih s1 s2 os' (fun e he => hok e (by simp [he])) h3 (astep_wf (hok ev (by simp)) (h2 x) hw) (by simp [hn] at ht; exact ht)
        (past_step (hok ev (by simp)) (h2 x) hw mc pc ix hi hn)

/-- Each copy of a packet that is accepted is accounted for by a successful challenge. -/
theorem copies_run {r : Nonces} {x P : Bytes} {ts : List Tlv} (hts : TlvsOf P ts) (mc : Bool) (pc ix : Bytes)
    (hc : counter mc ts = some (pc, ix)) :
    ∀ evs s s' os, (∀ ev ∈ evs, EvOk ev) → arun r s evs = some (s', os) → (s.ent x).Wf →
      tally (copy x P mc) evs os ≤ tally (answeredBy x) evs os + 1 ∧
      ((s.ent x).Blocked mc pc ix → tally (copy x P mc) evs os ≤ tally (answeredBy x) evs os) := by
  intro evs s s' os hok h
  refine arun_ind r x (fun s evs os => (s.ent x).Wf → tally (copy x P mc) evs os ≤ tally (answeredBy x) evs os + 1 ∧
    ((s.ent x).Blocked mc pc ix → tally (copy x P mc) evs os ≤ tally (answeredBy x) evs os)) ?_ ?_ evs s s' os hok h
  · intro s _; simp [tally]
  · intro s s1 s2 ev o evs os hev hst hrun ih hw
    obtain ⟨ih1, ih2⟩ := ih (astep_wf hev hst hw)
    simp only [tally]
    rcases astep_counter hev hst hw with ⟨he, rfl, ha⟩ | ⟨h1, h2, h3⟩ | ⟨c, p, ts', pc', ix', rfl, hx, hts', hc', h1, h2, hv⟩
    · have hb : (s1.ent x).Blocked mc pc ix := by intro hi; rw [he] at hi; cases hi
      have := ih2 hb
      have hcp : copy x P mc (.flush x) o = false := rfl
      rw [hcp]
      simp only [Bool.false_eq_true, if_false]
      exact ⟨by omega, fun _ => by omega⟩
    · have hcp : copy x P mc ev o = false := by
        cases hcc : copy x P mc ev o
        · rfl
        · have := copy_about hcc
          rw [h3 this.1] at this
          exact absurd this.2 (by simp)
      rw [hcp]
      simp only [Bool.false_eq_true, if_false]
      have hbb : (s.ent x).Blocked mc pc ix → (s1.ent x).Blocked mc pc ix := by
        intro hb hi; rw [h1] at hi; rw [h2]; exact hb hi
      exact ⟨by omega, fun hb => by have := ih2 (hbb hb); omega⟩
    · have hcopy : copy x P mc (.packet c p) o = true → ix' = ix ∧ pc' = pc ∧ multicast p.dst = mc := by
        intro hcc
        simp only [copy, Bool.and_eq_true, beq_iff_eq] at hcc
        obtain ⟨⟨⟨_, hP⟩, hm⟩, _⟩ := hcc
        rw [hP] at hts'
        rw [tlvsOf_unique hts' hts, hm, hc] at hc'
        simp at hc'
        exact ⟨hc'.2.symm, hc'.1.symm, hm⟩
      rcases hv with ⟨hv, hall⟩ | ⟨hv, h3, h4, h5⟩
      · have ha : answeredBy x (.packet c p) o = true := by simp [answeredBy, about_packet hx, hv]
        rw [ha]
        simp only [if_true]
        cases hcc : copy x P mc (.packet c p) o with
        | false => simp only [Bool.false_eq_true, if_false]; exact ⟨by omega, fun _ => by omega⟩
        | true =>
          obtain ⟨rfl, rfl, rfl⟩ := hcopy hcc
          have := ih2 (fun _ => by rw [hall]; exact Nat.le_refl _)
          simp only [if_true]
          exact ⟨by omega, fun _ => by omega⟩
      · have ha : answeredBy x (.packet c p) o = false := by simp [answeredBy, hv]
        rw [ha]
        simp only [Bool.false_eq_true, if_false]
        cases hcc : copy x P mc (.packet c p) o with
        | false =>
          simp only [Bool.false_eq_true, if_false]
          refine ⟨by omega, fun hb => ?_⟩
          have : (s1.ent x).Blocked mc pc ix := by
            intro hi
            rw [h1] at hi
            have hb' := hb (by rw [h3, hi])
            by_cases hmc : mc = multicast p.dst
            · subst hmc; rw [h2]; omega
            · rw [h5 mc hmc]; exact hb'
          have := ih2 this
          omega
        | true =>
          obtain ⟨rfl, rfl, rfl⟩ := hcopy hcc
          have := ih2 (fun _ => by rw [h2]; exact Nat.le_refl _)
          simp only [if_true]
          refine ⟨by omega, fun hb => ?_⟩
          have := hb h3
          omega

/-! Challenges -/

theorem answers_iff {now : Timeval} {a : NAuth} {bs : List Bytes} (hn : TvOk now) (hd : TvOk a.deadline) :
    answers now a bs = true ↔ micros now ≤ micros a.deadline ∧ a.nonce.length = 8 ∧ a.nonce ∈ bs := by
  unfold answers
  simp only [Bool.and_eq_true, Bool.not_eq_true', decide_eq_true_eq, decide_eq_false_iff_not]
  rw [compare_pos hn hd]
  constructor
  · rintro ⟨⟨h1, h2⟩, h3⟩; exact ⟨by omega, h2, h3⟩
  · rintro ⟨h1, h2, h3⟩; exact ⟨⟨by omega, h2⟩, h3⟩

theorem tv_eq_zero {t : Timeval} (h : TvOk t) : t = ⟨0, 0⟩ ↔ micros t = 0 := by
  obtain ⟨a, b⟩ := t
  unfold TvOk micros at *
  simp only [Timeval.mk.injEq]
  simp only at h
  omega

theorem challenged_reply {o : Effect} {out : List Challenge} (h : out = [] ∨ ∃ n, out = [.reply n])
    (ho : o.challenges = out) : challenged o = false := by
  rcases h with rfl | ⟨n, rfl⟩ <;> simp [challenged, ho]

/-- The effect of a step on the outstanding challenge. -/
theorem astep_deadline {r : Nonces} {s s' : AState} {x : Bytes} {ev : AEv} {o : Effect} (hev : EvOk ev)
    (h : AStep r s x s' ev o) (hw : (s.ent x).Wf) :
    ((s'.ent x).deadline = (s.ent x).deadline ∧ (s'.ent x).nonce = (s.ent x).nonce ∧
      answeredBy x ev o = false ∧ challengedBy x ev o = false ∧ ev ≠ .flush x) ∨
    ((s'.ent x).deadline = ⟨0, 0⟩ ∧ challengedBy x ev o = false ∧
      (answeredBy x ev o = true → (s.ent x).deadline ≠ ⟨0, 0⟩) ∧
      (ev = .flush x ∨ ∃ c p ts, ev = .packet c p ∧ p.env.sender = x ∧ TlvsOf p.bytes ts ∧
        (s.ent x).nonce ∈ replies (multicast p.dst) ts)) ∨
    (∃ c p n, ev = .packet c p ∧ p.env.sender = x ∧ .request n ∈ o.challenges ∧ (s'.ent x).nonce = n ∧
      (s'.ent x).deadline = timevalAddMsec p.now 30000 ∧ challengedBy x ev o = true ∧ answeredBy x ev o = false ∧
      RxOk p) ∨
    ((r s.draws).2 = false ∧ (s'.ent x).deadline = (s.ent x).deadline ∧ answeredBy x ev o = false ∧
      challengedBy x ev o = false ∧ ev ≠ .flush x) := by
  cases h with
  | other h0 h =>
    refine .inl ⟨by rw [h], by rw [h], by simp [answeredBy, h0], by simp [challengedBy, h0], ?_⟩
    rintro rfl
    simp [about] at h0
  | flush h => exact .inr (.inl ⟨by rw [h], by simp [challengedBy, challenged], by simp [answeredBy], .inl rfl⟩)
  | plain hx h _ hc hv =>
    refine .inl ⟨by rw [h], by rw [h], ?_, by simp [challengedBy, challenged, hc], by simp⟩
    rcases hv with hv | hv <;> simp [answeredBy, hv]
  | @signed c p o k ts hx hk hl hp hs hts hj hi =>
    have hans := answers_iff (bs := replies (multicast p.dst) ts) hp.2.2.1 hw.d
    have hne : answers p.now (s.ent x) (replies (multicast p.dst) ts) = true → (s.ent x).deadline ≠ ⟨0, 0⟩ := by
      intro h hz
      have := (hans.1 h).1
      rw [hz] at this
      have h2 := hp.2.2.2
      simp [micros] at this h2
      omega
    obtain ⟨rl, out, hout, ⟨-, e⟩ | ⟨pc, ix, hc, ⟨hh, e⟩ | ⟨-, ⟨-, -, e⟩ | ⟨-, -, -, e⟩ | ⟨-, -, hr, e⟩ | ⟨-, -, e⟩ |
      ⟨hix, hm, e⟩⟩⟩⟩ := judged_cases r (multicast p.dst) p.now s.draws (s.ent x) ts <;>
      rw [e] at hj <;> simp only [Prod.mk.injEq] at hj <;> obtain ⟨j1, j2, j3, j4⟩ := hj
    · by_cases hh : answers p.now (s.ent x) (replies (multicast p.dst) ts) = true
      · rw [if_pos hh] at j1
        refine .inr (.inl ⟨by rw [j1], by simp [challengedBy, challenged_reply hout j4], fun _ => hne hh,
          .inr ⟨c, p, ts, rfl, hx, hts, (hans.1 hh).2.2⟩⟩)
      · rw [if_neg hh] at j1
        exact .inl ⟨by rw [j1], by rw [j1], by simp [answeredBy, j3], by simp [challengedBy, challenged_reply hout j4], by simp⟩
    · refine .inr (.inl ⟨by rw [j1], by simp [challengedBy, challenged_reply hout j4], fun _ => hne hh,
        .inr ⟨c, p, ts, rfl, hx, hts, (hans.1 hh).2.2⟩⟩)
    · exact .inl ⟨by rw [j1], by rw [j1], by simp [answeredBy, j3], by simp [challengedBy, challenged_reply hout j4], by simp⟩
    · refine .inr (.inr (.inl ⟨c, p, (r s.draws).1, rfl, hx, by simp [j4], by rw [j1], by rw [j1],
        by simp [challengedBy, challenged, j4, about_packet hx], by simp [answeredBy, j3], hp⟩))
    · exact .inr (.inr (.inr ⟨hr, by rw [j1], by simp [answeredBy, j3], by simp [challengedBy, challenged_reply hout j4], by simp⟩))
    · exact .inl ⟨by rw [j1], by rw [j1], by simp [answeredBy, j3], by simp [challengedBy, challenged_reply hout j4], by simp⟩
    · refine .inl ⟨?_, ?_, by simp [answeredBy, j3], by simp [challengedBy, challenged_reply hout j4], by simp⟩ <;>
        rw [j1] <;> cases multicast p.dst <;> rfl

theorem answered_run {r : Nonces} {x : Bytes} :
    ∀ evs s s' os, (∀ ev ∈ evs, EvOk ev) → arun r s evs = some (s', os) → (s.ent x).Wf →
      tally (answeredBy x) evs os ≤ tally (challengedBy x) evs os + 1 ∧
      ((s.ent x).deadline = ⟨0, 0⟩ → tally (answeredBy x) evs os ≤ tally (challengedBy x) evs os) := by
  intro evs s s' os hok h
  refine arun_ind r x (fun s evs os => (s.ent x).Wf →
      tally (answeredBy x) evs os ≤ tally (challengedBy x) evs os + 1 ∧
      ((s.ent x).deadline = ⟨0, 0⟩ → tally (answeredBy x) evs os ≤ tally (challengedBy x) evs os))
    ?_ ?_ evs s s' os hok h
  · intro s _; simp [tally]
  · intro s s1 s2 ev o evs os hev hst hrun ih hw
    obtain ⟨ih1, ih2⟩ := ih (astep_wf hev hst hw)
    simp only [tally]
    rcases astep_deadline hev hst hw with ⟨h1, -, h2, h3, -⟩ | ⟨h1, h2, h3, -⟩ | ⟨c, p, n, -, -, -, -, -, h1, h2, -⟩ |
      ⟨-, h1, h2, h3, -⟩
    · rw [h2, h3]
      rw [h1] at ih2
      simp only [Bool.false_eq_true, if_false]
      exact ⟨by omega, fun h => by have := ih2 h; omega⟩
    · have := ih2 h1
      rw [h2]
      simp only [Bool.false_eq_true, if_false]
      cases ha : answeredBy x ev o with
      | true => exact ⟨by simp; omega, fun h => absurd h (h3 ha)⟩
      | false => simp only [Bool.false_eq_true, if_false]; exact ⟨by omega, fun _ => by omega⟩
    · rw [h1, h2]
      simp only [Bool.false_eq_true, if_false, if_true]
      exact ⟨by omega, fun _ => by omega⟩
    · rw [h2, h3]
      rw [h1] at ih2
      simp only [Bool.false_eq_true, if_false]
      exact ⟨by omega, fun h => by have := ih2 h; omega⟩

/-- An outstanding challenge was sent in the history. -/
theorem pending_run {r : Nonces} (hr : ∀ n, (r n).2 = true) {x : Bytes} :
    ∀ evs s s' os, (∀ ev ∈ evs, EvOk ev) → arun r s evs = some (s', os) → (s.ent x).Wf →
      (s'.ent x).deadline ≠ ⟨0, 0⟩ →
      ((s'.ent x).deadline = (s.ent x).deadline ∧ (s'.ent x).nonce = (s.ent x).nonce ∧
        tally (answeredBy x) evs os = 0 ∧ tally (challengedBy x) evs os = 0 ∧ .flush x ∉ evs) ∨
      ∃ evs1 c p evs2 os1 o os2, evs = evs1 ++ .packet c p :: evs2 ∧ os = os1 ++ o :: os2 ∧ evs1.length = os1.length ∧
        p.env.sender = x ∧ .request (s'.ent x).nonce ∈ o.challenges ∧
        (s'.ent x).deadline = timevalAddMsec p.now 30000 ∧ RxOk p ∧
        tally (answeredBy x) evs2 os2 = 0 ∧ tally (challengedBy x) evs2 os2 = 0 ∧ .flush x ∉ evs2 := by
  intro evs
  induction evs with
  | nil =>
    intro s s' os _ h hw hd
    simp only [arun, Option.some.injEq, Prod.mk.injEq] at h
    rw [← h.1, ← h.2]
    exact .inl ⟨rfl, rfl, rfl, rfl, by simp⟩
  | cons ev evs ih =>
    intro s s' os hok h hw hd
    obtain ⟨s1, o, h1, h2⟩ := astep_ok r s ev (hok ev (by simp))
    simp only [arun, h1, Option.bind_eq_bind, Option.bind_some] at h
    cases h3 : arun r s1 evs with
    | none => simp [h3] at h
    | some q =>
      obtain ⟨s2, os'⟩ := q
      simp [h3] at h
      obtain ⟨rfl, rfl⟩ := h
      rcases ih s1 s2 os' (fun e he => hok e (by simp [he])) h3 (astep_wf (hok ev (by simp)) (h2 x) hw) hd with
        ⟨e1, e2, e3, e4, e5⟩ | ⟨evs1, c, p, evs2, os1, o', os2, rfl, rfl, hlen, rest⟩
      · rcases astep_deadline (hok ev (by simp)) (h2 x) hw with ⟨g1, g2, g3, g4, g5⟩ | ⟨g1, -⟩ |
          ⟨c, p, n, rfl, g2, g3, g4, g5, g6, g7, g8⟩ | ⟨g, -⟩
        · refine .inl ⟨by rw [e1, g1], by rw [e2, g2], by simp [tally, g3, e3], by simp [tally, g4, e4], ?_⟩
          simp only [List.mem_cons, not_or]
          exact ⟨fun h => g5 h.symm, e5⟩
        · rw [e1, g1] at hd; exact absurd rfl hd
        · exact .inr ⟨[], c, p, evs, [], o, os', rfl, rfl, rfl, g2, by rw [e2, g4]; exact g3, by rw [e1, g5], g8, e3, e4, e5⟩
        · rw [hr] at g; cases g
      · exact .inr ⟨ev :: evs1, c, p, evs2, o :: os1, o', os2, rfl, rfl, by simp [hlen], rest⟩

end Babel
