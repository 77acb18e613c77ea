import Verif.Lemmas.Loop
import Verif.Props.Requests
/-
C66: the main loop does everything in time.
-/
namespace Babel
open Spec

section
variable {δ : Int} {c : LoopCfg} {j : Jobs} {s : Loop}

/-- C66: the loop sleeps until the earliest deadline, or at most a second longer if that is in whole seconds. -/
theorem C66_wake (hc : LoopCfgOk c) (hj : JobsOk δ j) (hδ : 0 ≤ δ) (h : LoopReach δ c j s) (r : Timer → Nat) :
    (∀ t, Used c s t → (s.due t).sec ≠ 0 →
      if t.secs = true then (s.wake c r).sec ≤ (s.due t).sec else micros (s.wake c r) ≤ micros (s.due t)) ∧
    ∃ t, Used c s t ∧ (s.due t).sec ≠ 0 ∧ if t.secs = true then (s.wake c r).sec = (s.due t).sec else s.wake c r = s.due t :=
  (wake_spec (reach_inv hc hj hδ h).1 r).2.2

/-- C66: packets are read if nothing is due; if they are read, then nothing is due, except jobs in whole seconds, since less than a
second. -/
theorem C66_polls (hc : LoopCfgOk c) (hj : JobsOk δ j) (hδ : 0 ≤ δ) (h : LoopReach δ c j s) (r : Timer → Nat) {now : Timeval} (hn : TvOk now) :
    ((∀ t, Used c s t → (s.due t).sec = 0 ∨ micros now < micros (s.due t)) → s.polls c r now = true) ∧
    (s.polls c r now = true → ∀ t, Used c s t → (s.due t).sec = 0 ∨
      micros now < micros (s.due t) + if t.secs = true then 1000000 else 0) := by
  obtain ⟨a, b, d, t, ht, h0, e⟩ := wake_spec (reach_inv hc hj hδ h).1 r
  have hi := (reach_inv hc hj hδ h).1
  have hp : s.polls c r now = true ↔ micros now < micros (s.wake c r) := by
    unfold Loop.polls
    rw [decide_eq_true_eq, compare_pos a hn]
  rw [hp]
  refine ⟨fun hall => ?_, fun hlt x hx => ?_⟩
  · rcases hall t ht with h' | h'
    · exact absurd h' h0
    · cases hs : t.secs with
      | true =>
        rw [hs, if_pos rfl] at e
        have hu := (hi.secs t hs).1
        unfold TvOk at a
        unfold micros at h' ⊢
        omega
      | false =>
        rw [hs, if_neg (by decide)] at e
        rw [e]
        exact h'
  · by_cases h0 : (s.due x).sec = 0
    · exact .inl h0
    · have d := d x hx h0
      right
      cases hs : x.secs with
      | true =>
        rw [hs, if_pos rfl] at d
        rw [if_pos rfl]
        have := (hi.tv x).1
        unfold TvOk at a this
        unfold micros at hlt ⊢
        omega
      | false =>
        rw [hs, if_neg (by decide)] at d
        rw [if_neg (by decide)]
        omega

/-- C66: after each turn, no deadline has passed. -/
theorem C66_deadlines (hc : LoopCfgOk c) (hj : JobsOk δ j) (hδ : 0 ≤ δ) (h : LoopReach δ c j s) {t : Timer} (ht : Used c s t) :
    (s.due t).sec = 0 ∨ micros s.now < micros (s.due t) ∨ (t = .nbrs ∨ t = .ifs) ∧ micros s.now = micros (s.due t) := by
  rcases (reach_inv hc hj hδ h).2 t ht with e | e | e | ⟨rfl, e, _⟩
  · exact .inl e
  · exact .inr (.inl e)
  · exact .inr (.inr e)
  · have : 0 < c.check := ht
    omega

/-- C66: what is done in a turn is done because its deadline has come (or addresses have changed), and not later than twice the delay of
the loop, and a second if the deadline is in whole seconds. -/
theorem C66_served (hc : LoopCfgOk c) (hj : JobsOk δ j) (hδ : 0 ≤ δ) (h : LoopReach δ c j s) {T : Turn} (hT : Prompt δ c s T) :
    ∃ new, (s.turn c j T).log = new ++ s.log ∧ ∀ e ∈ new, e.1 = T.finish ∧ (Used c s e.2.1 → e.2.2.sec ≠ 0 →
      (micros e.2.2 ≤ micros T.finish ∨ e.2.1 = .dump ∧ T.force = true) ∧
      micros T.finish ≤ micros e.2.2 + 2 * δ + if e.2.1.secs = true then 1000000 else 0) := by
  obtain ⟨hi, hf⟩ := reach_inv hc hj hδ h
  obtain ⟨_, _, _, new, e, p⟩ := turn_spec hi hf hc hj hδ hT
  refine ⟨new, e, fun x hx => ⟨(p x hx).1, fun hu h0 => ?_⟩⟩
  obtain ⟨a, b⟩ := (p x hx).2 hu h0
  refine ⟨a.symm, ?_⟩
  unfold slack at b
  omega

/-- C66: at any time, each interface that is up has made a full update and sent a hello not longer ago than 5/4 of the interval and
twice the delay of the loop. -/
theorem C66_interval (hc : LoopCfgOk c) (hj : JobsOk δ j) (hδ : 0 ≤ δ) (h : LoopReach δ c j s) {T : Turn} (hT : Prompt δ c s T)
    {t : Timer} {n : Nat} (ht : Used c s t) (hn : Every c t = some n) :
    ∃ t₁ D, (t₁, t, D) ∈ s.log ∧ micros T.finish ≤ micros t₁ + 1250 * n + 2 * δ := by
  obtain ⟨hi, hf⟩ := reach_inv hc hj hδ h
  obtain ⟨h1, t₁, D, hm, hd⟩ := hi.up t n ht hn
  refine ⟨t₁, D, hm, ?_⟩
  have hs : slack δ t = 2 * δ := by
    cases t <;> cases hn <;> (unfold slack; rw [if_neg (by nofun)]; omega)
  rcases prompt_recent hi hf hδ hT t ht with e | e
  · omega
  · omega

/-- C66: a hello, or full update, that is sent because it is time is sent not sooner than 3/4 of the interval after any one before. -/
theorem C66_spaced (hc : LoopCfgOk c) (hj : JobsOk δ j) (hδ : 0 ≤ δ) (h : LoopReach δ c j s) :
    s.log.Pairwise fun later sooner => ∀ n, later.2.1 = sooner.2.1 → Every c sooner.2.1 = some n → later.2.2.sec ≠ 0 →
      micros sooner.1 + 1000 * (3 * n / 4 : Nat) ≤ micros later.1 :=
  (reach_inv hc hj hδ h).1.spaced

end

/-- C66: when requests and updates are resent less than their delay too late, none is due again at once. -/
theorem C66_resend {c : Cfg} {s : St} (h : Reachable c s) (hn : TvOk s.now) (h66 : 66 ≤ s.now.sec)
    (hok : ∀ r ∈ (step c s .doResend).resends, TvOk r.time ∧ (0 < r.time.sec ∨ r.time.sec = 0 ∧ r.kind = .request))
    (hd : ∀ r ∈ s.resends, Due s.now r → micros s.now < micros r.time + 2000 * r.delay ∧ 2 * r.delay ≤ 65535) :
    (step c s .doResend).resendTime.sec = 0 ∨ micros s.now < micros (step c s .doResend).resendTime := by
  by_cases h0 : (step c s .doResend).resendTime.sec = 0
  · exact .inl h0
  right
  have hinv := h.rinv
  have hinv' := (h.step .doResend).rinv
  have hnow : ∀ r ∈ s.resends, (step c s .doResend).now = s.now := fun r hr => by
    obtain ⟨p, hp⟩ := List.getElem?_of_mem hr
    obtain ⟨_, _, e, _⟩ := walk_entry c s s.resends.length p r hp
    exact e
  have hmem : ∀ r' ∈ (step c s .doResend).resends, ∃ r ∈ s.resends, Cancelled r' ∨ (Due s.now r ∧ Resent r r') ∨ (¬ Due s.now r ∧ r' = r) := by
    intro r' hr'
    have hp' := (pending_iff hinv').2 ⟨hr', rfl, rfl⟩
    have := C38_retransmit (c := c) h (kd := r'.kind) (k := r'.key)
    rw [hp'] at this
    cases hp : pending s r'.kind r'.key with
    | none => rw [hp] at this; exact this.elim
    | some r =>
      rw [hp] at this
      exact ⟨r, ((pending_iff hinv).1 hp).1, this⟩
  obtain ⟨r', hr', hl, e⟩ := (C38_timer c s fun r' hr' => by
    obtain ⟨r, hr, _⟩ := hmem r' hr'
    obtain ⟨h1, h2⟩ := hok r' hr'
    by_cases hz : 0 < r'.time.sec
    · exact .inl ⟨h1, hz⟩
    · right
      rw [hnow r hr]
      refine fun hl => hl.1 (C38_cancelled hn h1 h66 ⟨?_, ?_⟩).1
      · rcases h2 with h2 | h2
        · exact absurd h2 hz
        · exact h2.2
      · rcases h2 with h2 | h2
        · exact absurd h2 hz
        · exact h2.1).2 h0
  obtain ⟨r, hr, hc⟩ := hmem r' hr'
  rw [hnow r hr] at hl
  obtain ⟨ht, _⟩ := hok r' hr'
  obtain ⟨a1, a2⟩ := C03_add_msec_exact r'.time (r'.delay : Int) ht (by omega)
  rw [e, a1]
  rcases hc with hc | ⟨h1, h2⟩ | ⟨h1, h2⟩
  · exact absurd (C38_cancelled hn ht h66 hc).1 hl.1
  · obtain ⟨b1, b2⟩ := hd r hr h1
    have : r'.time = r.time ∧ r'.delay = 2 * r.delay := by rw [h2]; exact ⟨rfl, by show min 65535 (2 * r.delay) = _; omega⟩
    rw [this.1, this.2]
    omega
  · subst h2
    have : ¬ (timevalCompare s.now (timevalAddMsec r'.time (r'.delay : Int)) ≥ 0) := fun g => h1 ⟨hl.1, hl.2.1, hl.2.2, g⟩
    rw [compare_nonneg hn a2, a1] at this
    omega

/-- 1 s late. -/
example : let s := run Demo.cfg Demo.start (Demo38.lost ++ [.tick ⟨1003, 0⟩])
    (step Demo.cfg s .doResend).resendTime.sec = 0 ∨ micros s.now < micros (step Demo.cfg s .doResend).resendTime := by
  intro s
  refine C66_resend (Demo.reachable_run (.init ..) _) ⟨by decide +kernel, by decide +kernel⟩ (by decide +kernel) ?_ ?_
  · have : ((step Demo.cfg s .doResend).resends.all fun r => decide (0 ≤ r.time.usec) && decide (r.time.usec < 1000000) && decide (0 < r.time.sec)) = true := by
      decide +kernel
    intro r hr
    have := List.all_eq_true.1 this r hr
    simp only [Bool.and_eq_true, decide_eq_true_eq] at this
    exact ⟨⟨this.1.1, this.1.2⟩, .inl this.2⟩
  · have : (s.resends.all fun r => decide (micros s.now < micros r.time + 2000 * r.delay) && decide (2 * r.delay ≤ 65535)) = true := by
      decide +kernel
    intro r hr _
    have := List.all_eq_true.1 this r hr
    simp only [Bool.and_eq_true, decide_eq_true_eq] at this
    exact this

/-- C66: a request that is resent too late is sent several times at once. -/
theorem C66_resend_twice : let s := run Demo.cfg Demo.start (Demo38.lost ++ [.tick ⟨1030, 0⟩])
    let s1 := step Demo.cfg s .doResend
    let s2 := step Demo.cfg s1 .doResend
    asksFor (Demo.key 1) (sent Demo.cfg s .doResend) = true ∧ asksFor (Demo.key 1) (sent Demo.cfg s1 .doResend) = true ∧
    asksFor (Demo.key 1) (sent Demo.cfg s2 .doResend) = true ∧ (s1.now, s1.resendTime, s2.now, s2.resendTime) =
      (⟨1030, 0⟩, ⟨1004, 0⟩, ⟨1030, 0⟩, ⟨1008, 0⟩) := by
  decide +kernel

namespace LoopDemo

def c : LoopCfg := ⟨fun _ => 4000, fun _ => 16000, 30⟩

/-- A hello is buffered, an update is queued; requests are resent once. -/
def jobs : Jobs where
  work _ t :=
    match t with
    | .hello i => ⟨0, 0, ⟨0, 0⟩, [.set (.buf i) 0 2000], false⟩
    | .update i => ⟨0, 0, ⟨0, 0⟩, [.set (.flush i) 0 2000], false⟩
    | _ => ⟨0, 5000, ⟨0, 0⟩, [], false⟩

/-- Interface 10 has come up at 1000 s. -/
def start : Loop where
  now := ⟨1000, 0⟩
  due
    | .nbrs => ⟨1005, 0⟩
    | .ifs => ⟨1030, 0⟩
    | .expiry => ⟨1030, 0⟩
    | .sources => ⟨1300, 0⟩
    | .dump => ⟨1030, 0⟩
    | .resend => ⟨0, 0⟩
    | .buf _ => ⟨0, 0⟩
    | .hello _ => ⟨1003, 500000⟩
    | .update _ => ⟨1012, 0⟩
    | .flush _ => ⟨0, 0⟩
    | .nbuf _ => ⟨0, 0⟩
  ifs := [(10, true)]
  nbrs := []
  log := [(⟨1000, 0⟩, .update 10, ⟨0, 0⟩), (⟨1000, 0⟩, .hello 10, ⟨0, 0⟩)]

/-- The loop begins after 50 ms, and is woken up 30 ms late. -/
def wakeUp : Turn := ⟨⟨1000, 50000⟩, fun _ => 0, ⟨1003, 530000⟩, [], false, false⟩

theorem cfgOk : LoopCfgOk c := fun _ => ⟨(by decide : 1 ≤ 4000), (by decide : 1 ≤ 16000)⟩

theorem jobsOk : JobsOk 100000 jobs where
  ok s t w hw := by
    cases t <;> first | (cases hw; done) | (rw [List.mem_singleton.1 hw])
    · exact ⟨by decide, .inl ⟨_, rfl⟩⟩
    · exact ⟨by decide, .inr (.inl ⟨_, rfl⟩)⟩
  settled s t _ w hw := by
    cases t <;> first | (cases hw; done) | (rw [List.mem_singleton.1 hw]; trivial)
  signs s t := by cases t <;> rfl
  next s := ⟨(⟨by decide, by decide⟩ : TvOk ⟨0, 0⟩), Int.le_refl 0, fun _ _ => .inl rfl⟩

theorem startOk : LoopStart c start where
  now := ⟨⟨by decide, by decide⟩, by decide⟩
  tv t := by cases t <;> (unfold TvOk start; simp only; omega)
  secs t ht := by cases t <;> first | (cases ht; done) | exact ⟨rfl, by decide⟩
  later t _ := by cases t <;> first | exact .inl rfl | (right; unfold micros start; simp only; omega)
  base := ⟨by decide, by decide⟩
  log e he := by
    simp only [start, List.mem_cons, List.not_mem_nil, or_false] at he
    rcases he with rfl | rfl <;> exact ⟨by decide, rfl⟩
  gap e he n hn := by
    simp only [start, List.mem_cons, List.not_mem_nil, or_false] at he
    rcases he with rfl | rfl <;> (cases hn; decide)
  up t n hu hn := by
    cases t <;> cases hn
    · cases hu with
      | head => exact ⟨by decide, ⟨1000, 0⟩, ⟨0, 0⟩, by decide, by decide⟩
      | tail _ h => cases h
    · cases hu with
      | head => exact ⟨by decide, ⟨1000, 0⟩, ⟨0, 0⟩, by decide, by decide⟩
      | tail _ h => cases h

theorem prompt : Prompt 100000 c start wakeUp where
  start := ⟨by decide, by decide⟩
  finish := ⟨by decide, by decide⟩
  begins := ⟨by decide, by decide⟩
  wakes := ⟨by decide, by decide +kernel⟩
  input := nofun

theorem reached : LoopReach 100000 c jobs (start.turn c jobs wakeUp) := .turn wakeUp (.init _ startOk) prompt

/-- It has slept until the hello was due, and sent it; the next hello is due in 3 to 5 s, and the packet is sent after 1.5 to 2.5 s. -/
example : start.wake c (fun _ => 0) = ⟨1003, 500000⟩ ∧ start.polls c (fun _ => 0) ⟨1000, 50000⟩ = true ∧
    (start.turn c jobs wakeUp).log.take 2 = [(⟨1003, 530000⟩, .flush 10, ⟨0, 0⟩), (⟨1003, 530000⟩, .hello 10, ⟨1003, 500000⟩)] ∧
    (start.turn c jobs wakeUp).due (.hello 10) = ⟨1006, 530000⟩ ∧ (start.turn c jobs wakeUp).due (.buf 10) = ⟨1005, 30000⟩ := by
  decide +kernel

end LoopDemo
end Babel
