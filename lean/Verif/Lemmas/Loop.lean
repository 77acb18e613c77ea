import Verif.Spec.Loop
import Verif.Props.Util
import Verif.Lemmas.Auth2
import Verif.Lemmas.Buffer10
/-
Timers of the main loop.
-/
set_option linter.unusedSimpArgs false
set_option linter.unusedVariables false
set_option linter.unusedSectionVars false
namespace Babel
open Spec

theorem sec_pos {a b : Timeval} (ha : TvOk a) (hb : TvOk b) (h : micros a ≤ micros b) : a.sec ≤ b.sec := by
  unfold TvOk at ha hb
  unfold micros at h
  omega

theorem setTimeout_spec {now : Timeval} (hn : TvOk now) (h1 : 1 ≤ now.sec) (r ms : Nat) (hm : 1 ≤ ms) :
    TvOk (setTimeout now r ms) ∧ 1 ≤ (setTimeout now r ms).sec ∧ micros now < micros (setTimeout now r ms) ∧
      micros (setTimeout now r ms) ≤ micros now + 1250 * ms ∧ micros now + 1000 * (3 * ms / 4 : Nat) ≤ micros (setTimeout now r ms) := by
  have hr := roughly_le r (ms : Int) (by omega)
  have hr1 : 1 ≤ roughly r (ms : Int) ∧ ((3 * ms / 4 : Nat) : Int) ≤ roughly r (ms : Int) := by
    by_cases h : (ms : Int) ≤ 1
    · rw [C02_roughly_small r _ (by omega) h]; omega
    · have := C02_roughly_bounds r (ms : Int) (by omega); omega
  obtain ⟨h2, h3⟩ := C03_add_msec_exact now (roughly r ms) hn hr.1
  unfold setTimeout
  refine ⟨h3, ?_, by omega, by omega, by omega⟩
  have := sec_pos hn h3 (by omega)
  omega

theorem compare_neg {a b : Timeval} (ha : TvOk a) (hb : TvOk b) : timevalCompare a b < 0 ↔ micros a < micros b := by
  obtain ⟨h1, h2, h3, _⟩ := C03_compare a b ha hb
  rcases Int.lt_trichotomy (micros a) (micros b) with x | x | x
  · rw [h1.2 x]; omega
  · rw [h2.2 x]; omega
  · rw [h3.2 x]; omega

theorem compare_nonneg {a b : Timeval} (ha : TvOk a) (hb : TvOk b) : timevalCompare a b ≥ 0 ↔ micros b ≤ micros a := by
  have := compare_neg ha hb
  omega

structure LoopInv (c : LoopCfg) (s : Loop) : Prop where
  now : TvOk s.now ∧ 1 ≤ s.now.sec
  tv : ∀ t, TvOk (s.due t) ∧ 0 ≤ (s.due t).sec
  secs : ∀ t, t.secs = true → (s.due t).usec = 0 ∧ 1 ≤ (s.due t).sec
  base : 1 ≤ (s.due .nbrs).sec ∧ 1 ≤ (s.due .ifs).sec
  past : ∀ e ∈ s.log, micros e.1 ≤ micros s.now
  gap : ∀ e ∈ s.log, ∀ n, Every c e.2.1 = some n → micros e.1 + 1000 * (3 * n / 4 : Nat) ≤ micros (s.due e.2.1)
  up : ∀ t n, Used c s t → Every c t = some n →
    1 ≤ (s.due t).sec ∧ ∃ T D, (T, t, D) ∈ s.log ∧ micros (s.due t) ≤ micros T + 1250 * n
  spaced : s.log.Pairwise fun e' e => ∀ n, e'.2.1 = e.2.1 → Every c e.2.1 = some n → e'.2.2.sec ≠ 0 →
    micros e.1 + 1000 * (3 * n / 4 : Nat) ≤ micros e'.1

/-- A deadline that need not be met now. -/
def NotDue (c : LoopCfg) (s : Loop) (t : Timer) : Prop :=
  (s.due t).sec = 0 ∨ micros s.now < micros (s.due t) ∨ ((t = .nbrs ∨ t = .ifs) ∧ micros s.now = micros (s.due t)) ∨
    (t = .dump ∧ c.check = 0 ∧ micros s.now ≤ micros (s.due t) + 1000000)

/-- How late a job may be done, in microseconds. -/
def slack (δ : Int) (t : Timer) : Int := 2 * δ + if t.secs = true then 1000000 else 0

/-- A deadline that is not long past. -/
def Recent (δ : Int) (s : Loop) (t : Timer) : Prop := (s.due t).sec = 0 ∨ micros s.now ≤ micros (s.due t) + slack δ t

/-- A log entry in time. -/
def InTime (δ : Int) (force : Bool) (P : Timer → Prop) (x : Timeval) (e : Timeval × Timer × Timeval) : Prop :=
  e.1 = x ∧ (P e.2.1 → e.2.2.sec ≠ 0 → (e.2.1 = .dump ∧ force = true ∨ micros e.2.2 ≤ micros x) ∧ micros x ≤ micros e.2.2 + slack δ e.2.1)

/-- From one state to another, at the same time. -/
structure Goes (δ : Int) (force : Bool) (P : Timer → Prop) (c : LoopCfg) (s s' : Loop) : Prop where
  inv : LoopInv c s'
  now : s'.now = s.now
  fresh : ∀ t, NotDue c s t → NotDue c s' t
  recent : ∀ t, Recent δ s t → Recent δ s' t
  log : ∃ new, s'.log = new ++ s.log ∧ ((∀ t, P t → Recent δ s t) → ∀ e ∈ new, InTime δ force P s.now e)

variable {δ : Int} {force : Bool} {P : Timer → Prop} {c : LoopCfg}

theorem Goes.refl {s : Loop} (h : LoopInv c s) : Goes δ force P c s s :=
  ⟨h, rfl, fun _ h => h, fun _ h => h, [], rfl, fun _ _ h => by cases h⟩

theorem Goes.trans {s s1 s2 : Loop} (h1 : Goes δ force P c s s1) (h2 : Goes δ force P c s1 s2) : Goes δ force P c s s2 where
  inv := h2.inv
  now := h2.now.trans h1.now
  fresh t h := h2.fresh t (h1.fresh t h)
  recent t h := h2.recent t (h1.recent t h)
  log := by
    obtain ⟨n1, e1, p1⟩ := h1.log
    obtain ⟨n2, e2, p2⟩ := h2.log
    refine ⟨n2 ++ n1, by rw [e2, e1, List.append_assoc], fun h e he => ?_⟩
    rcases List.mem_append.1 he with he | he
    · have := p2 (fun t ht => h1.recent t (h t ht)) e he
      rw [h1.now] at this
      exact this
    · exact p1 h e he

/-- What is required of the new deadline of a timer. -/
structure NewDue (c : LoopCfg) (s : Loop) (t : Timer) (v : Timeval) : Prop where
  tv : TvOk v ∧ 0 ≤ v.sec
  fresh : v.sec = 0 ∨ micros s.now < micros v ∨ ((t = .nbrs ∨ t = .ifs) ∧ micros s.now = micros v) ∨
      (t = .dump ∧ c.check = 0 ∧ micros s.now ≤ micros v + 1000000)
  secs : t.secs = true → v.usec = 0 ∧ 1 ≤ v.sec
  base : t = .nbrs ∨ t = .ifs → 1 ≤ v.sec
  every : ∀ n, Every c t = some n → 1 ≤ v.sec ∧ micros v ≤ micros s.now + 1250 * n ∧ micros s.now + 1000 * (3 * n / 4 : Nat) ≤ micros v

theorem NewDue.recent {s : Loop} (hδ : 0 ≤ δ) {t : Timer} {v : Timeval} (hv : NewDue c s t v) :
    v.sec = 0 ∨ micros s.now ≤ micros v + slack δ t := by
  have hsl : 0 ≤ slack δ t := by unfold slack; split <;> omega
  rcases hv.fresh with hf | hf | ⟨_, hf⟩ | ⟨rfl, _, hf⟩
  · exact .inl hf
  · right; omega
  · right; omega
  · right; unfold slack; rw [if_pos (show Timer.dump.secs = true from rfl)]; omega

theorem used_put {s : Loop} {t : Timer} {v : Timeval} (x : Timer) : Used c (s.put t v) x ↔ Used c s x := by
  cases x <;> exact Iff.rfl

/-- Setting a timer that interfaces do not rely on. -/
theorem Goes.put {s : Loop} (h : LoopInv c s) (hδ : 0 ≤ δ) {t : Timer} {v : Timeval} (hv : NewDue c s t v)
    (he : Every c t = none) : Goes δ force P c s (s.put t v) := by
  have hd : ∀ x, (s.put t v).due x = if x = t then v else s.due x := fun _ => rfl
  refine ⟨⟨h.now, fun x => ?_, fun x hx => ?_, ⟨?_, ?_⟩, h.past, fun e hm n hn => ?_, fun x n hu hn => ?_, h.spaced⟩, rfl, fun x hx => ?_,
    fun x hx => ?_, [], rfl, fun _ _ h => by cases h⟩
  · rw [hd]; split
    · exact hv.tv
    · exact h.tv x
  · rw [hd]; split
    · next he => exact hv.secs (he ▸ hx)
    · exact h.secs x hx
  · rw [hd]; split
    · next he => exact hv.base (.inl he.symm)
    · exact h.base.1
  · rw [hd]; split
    · next he => exact hv.base (.inr he.symm)
    · exact h.base.2
  · rw [hd, if_neg (fun e => by rw [e, he] at hn; cases hn)]
    exact h.gap e hm n hn
  · rw [hd, if_neg (fun e => by rw [e, he] at hn; cases hn)]
    exact h.up x n ((used_put x).1 hu) hn
  · unfold NotDue
    rw [hd]
    split
    · next he => subst he; exact hv.fresh
    · exact hx
  · unfold Recent
    rw [hd]
    split
    · next he => subst he; exact hv.recent hδ
    · exact hx

/-- A job is done and its timer is set. -/
theorem Goes.did {s : Loop} (h : LoopInv c s) (hδ : 0 ≤ δ) {t : Timer} {v D : Timeval} (hv : NewDue c s t v)
    (hD : D.sec = 0 ∨ (∀ n, Every c t = some n → micros D ≤ micros s.now ∧ micros D = micros (s.due t)))
    (hP : P t → D.sec = 0) :
    Goes δ force P c s { s.put t v with log := (s.now, t, D) :: s.log } := by
  have hd : ∀ x, (s.put t v).due x = if x = t then v else s.due x := fun _ => rfl
  refine ⟨⟨h.now, fun x => ?_, fun x hx => ?_, ⟨?_, ?_⟩, fun e hm => ?_, fun e hm n hn => ?_, fun x n hu hn => ?_, ?_⟩, rfl, fun x hx => ?_,
    fun x hx => ?_, [(s.now, t, D)], rfl, fun hR e hm => ?_⟩
  · show TvOk ((s.put t v).due x) ∧ 0 ≤ ((s.put t v).due x).sec
    rw [hd]; split
    · exact hv.tv
    · exact h.tv x
  · show ((s.put t v).due x).usec = 0 ∧ 1 ≤ ((s.put t v).due x).sec
    rw [hd]; split
    · next he => exact hv.secs (he ▸ hx)
    · exact h.secs x hx
  · show 1 ≤ ((s.put t v).due .nbrs).sec
    rw [hd]; split
    · next he => exact hv.base (.inl he.symm)
    · exact h.base.1
  · show 1 ≤ ((s.put t v).due .ifs).sec
    rw [hd]; split
    · next he => exact hv.base (.inr he.symm)
    · exact h.base.2
  · rcases List.mem_cons.1 hm with rfl | hm
    · exact Int.le_refl _
    · exact h.past e hm
  · show micros e.1 + 1000 * _ ≤ micros ((s.put t v).due e.2.1)
    rw [hd]
    split
    · next he =>
      have := (hv.every n (he ▸ hn)).2.2
      rcases List.mem_cons.1 hm with rfl | hm
      · exact this
      · have := h.past e hm
        omega
    · next he =>
      rcases List.mem_cons.1 hm with rfl | hm
      · exact absurd rfl he
      · exact h.gap e hm n hn
  · show 1 ≤ ((s.put t v).due x).sec ∧ ∃ T D', (T, x, D') ∈ (s.now, t, D) :: s.log ∧ micros ((s.put t v).due x) ≤ micros T + 1250 * n
    rw [hd]
    split
    · next he =>
      subst he
      obtain ⟨a, b, _⟩ := hv.every n hn
      exact ⟨a, s.now, D, List.mem_cons_self .., b⟩
    · have hu : Used c s x := by cases x <;> exact hu
      obtain ⟨a, T, D', b, d⟩ := h.up x n hu hn
      exact ⟨a, T, D', List.mem_cons_of_mem _ b, d⟩
  · refine List.pairwise_cons.2 ⟨fun e hm n he hn h0 => ?_, h.spaced⟩
    have hg := h.gap e hm n hn
    have he : t = e.2.1 := he
    show _ ≤ micros s.now
    rw [← he] at hg hn
    rcases hD with hD | hD
    · exact absurd hD h0
    · have := hD n hn
      omega
  · show ((s.put t v).due x).sec = 0 ∨ micros s.now < micros ((s.put t v).due x) ∨ ((x = .nbrs ∨ x = .ifs) ∧ micros s.now = micros ((s.put t v).due x)) ∨
      (x = .dump ∧ c.check = 0 ∧ micros s.now ≤ micros ((s.put t v).due x) + 1000000)
    rw [hd]
    split
    · next he => subst he; exact hv.fresh
    · exact hx
  · show ((s.put t v).due x).sec = 0 ∨ micros s.now ≤ micros ((s.put t v).due x) + slack δ x
    rw [hd]
    split
    · next he => subst he; exact hv.recent hδ
    · exact hx
  · rw [List.mem_singleton.1 hm]
    exact ⟨rfl, fun h h0 => absurd (hP h) h0⟩

theorem base_off {t : Timer} {p : Prop} (h1 : t ≠ .nbrs) (h2 : t ≠ .ifs) : t = .nbrs ∨ t = .ifs → p :=
  fun h => h.elim (fun e => absurd e h1) fun e => absurd e h2

/-- Other interfaces and neighbours. -/
theorem Goes.these {s : Loop} (h : LoopInv c s) (ifs : List (IfId × Bool)) (nbrs : List NeighId)
    (hi : ∀ t n, Used c { s with ifs := ifs, nbrs := nbrs } t → Every c t = some n →
      1 ≤ (s.due t).sec ∧ ∃ T D, (T, t, D) ∈ s.log ∧ micros (s.due t) ≤ micros T + 1250 * n) :
    Goes δ force P c s { s with ifs := ifs, nbrs := nbrs } where
  inv := ⟨h.now, h.tv, h.secs, h.base, h.past, h.gap, hi, h.spaced⟩
  now := rfl
  fresh t h := h
  recent t h := h
  log := ⟨[], rfl, fun _ _ h => by cases h⟩

/-- `set_timeout` with the interval of an interface. -/
theorem newDue_every {s : Loop} (h : LoopInv c s) (hc : LoopCfgOk c) (r : Nat) {t : Timer} {n : Nat} (hn : Every c t = some n) :
    NewDue c s t (setTimeout s.now r n) := by
  have h1 : 1 ≤ n := by cases t <;> cases hn; exact (hc _).1; exact (hc _).2
  obtain ⟨a, b, d, e, f⟩ := setTimeout_spec h.now.1 h.now.2 r n h1
  refine ⟨⟨a, by omega⟩, .inr (.inl d), fun e' => ?_, fun _ => b, fun m hm => ?_⟩
  · cases t <;> cases hn <;> cases e'
  · rw [hn] at hm
    cases hm
    exact ⟨b, e, f⟩

theorem Goes.apply {s : Loop} (h : LoopInv c s) (hc : LoopCfgOk c) (hδ : 0 ≤ δ) (w : Write) (hw : WriteOk w) :
    Goes δ force P c s (s.apply c w) := by
  have hz : TvOk ⟨0, 0⟩ ∧ (0 : Int) ≤ (⟨0, 0⟩ : Timeval).sec := ⟨⟨by decide, by decide⟩, by decide⟩
  cases w with
  | set t r ms =>
    obtain ⟨h1, h2, h3, _⟩ := setTimeout_spec h.now.1 h.now.2 r ms hw.1
    have ht := hw.2
    refine Goes.put h hδ ⟨⟨h1, by omega⟩, .inr (.inl h3), fun e => ?_, fun _ => h2, fun n e => ?_⟩ ?_
    · rcases ht with ⟨i, rfl⟩ | ⟨i, rfl⟩ | ⟨i, rfl⟩ | rfl <;> cases e
    · rcases ht with ⟨i, rfl⟩ | ⟨i, rfl⟩ | ⟨i, rfl⟩ | rfl <;> cases e
    · rcases ht with ⟨i, rfl⟩ | ⟨i, rfl⟩ | ⟨i, rfl⟩ | rfl <;> rfl
  | clear t =>
    have ht : (∃ i, t = .buf i) ∨ (∃ i, t = .flush i) ∨ (∃ n, t = .nbuf n) ∨ t = .resend := hw
    refine Goes.put h hδ ⟨hz, .inl rfl, fun e => ?_, fun e => ?_, fun n e => ?_⟩ ?_
    · rcases ht with ⟨i, rfl⟩ | ⟨i, rfl⟩ | ⟨i, rfl⟩ | rfl <;> cases e
    · rcases ht with ⟨i, rfl⟩ | ⟨i, rfl⟩ | ⟨i, rfl⟩ | rfl <;> rcases e with e | e <;> cases e
    · rcases ht with ⟨i, rfl⟩ | ⟨i, rfl⟩ | ⟨i, rfl⟩ | rfl <;> cases e
    · rcases ht with ⟨i, rfl⟩ | ⟨i, rfl⟩ | ⟨i, rfl⟩ | rfl <;> rfl
  | sooner t r ms =>
    obtain ⟨h1, h2, h3, _⟩ := setTimeout_spec h.now.1 h.now.2 r ms hw.1
    have ht := hw.2
    have hb : 1 ≤ (s.due t).sec := by rcases ht with rfl | rfl; exact h.base.1; exact h.base.2
    have hm := (C03_min (s.due t) (setTimeout s.now r ms) (h.tv t).1 h1).2.2 (by omega) (by omega)
    show Goes δ force P c s (s.put t (timevalMin (s.due t) (setTimeout s.now r ms)))
    rcases hm.1 with e | e
    · rw [e]
      have : s.put t (s.due t) = s := by
        unfold Loop.put
        have : (fun x => if x = t then s.due t else s.due x) = s.due := by
          funext x
          split
          · next e => rw [e]
          · rfl
        rw [this]
      rw [this]
      exact .refl h
    · rw [e]
      refine Goes.put h hδ ⟨⟨h1, by omega⟩, .inr (.inl h3), fun e => ?_, fun _ => h2, fun n e => ?_⟩ ?_
      · rcases ht with rfl | rfl <;> cases e
      · rcases ht with rfl | rfl <;> cases e
      · rcases ht with rfl | rfl <;> rfl
  | dumped i r => exact Goes.did h hδ (newDue_every h hc r (t := .update i) rfl) (.inl rfl) fun _ => rfl
  | addNbr n =>
    have g1 : Goes δ force P c s (s.put (.nbuf n) ⟨0, 0⟩) := Goes.put h hδ ⟨hz, .inl rfl, nofun, base_off nofun nofun, nofun⟩ rfl
    refine g1.trans (Goes.these g1.inv s.ifs (n :: s.nbrs) fun t m hu hm => g1.inv.up t m ?_ hm)
    cases t <;> cases hm <;> exact hu
  | delNbr n =>
    refine Goes.these h s.ifs _ fun t m hu hm => h.up t m ?_ hm
    cases t <;> cases hm <;> exact hu
  | down i =>
    refine Goes.these h _ s.nbrs fun t m hu hm => h.up t m ?_ hm
    have hk : ∀ x, (x, true) ∈ (s.ifs.map fun p => if p.1 = i then (i, false) else p) → (x, true) ∈ s.ifs := fun x hx => by
      obtain ⟨p, hp, he⟩ := List.mem_map.1 hx
      split at he
      · cases he
      · exact he ▸ hp
    cases t <;> cases hm <;> exact hk _ hu
  | up i r1 r2 r3 =>
    have g1 : Goes δ force P c s { s.put (.hello i) (setTimeout s.now r3 (c.hello i)) with log := (s.now, .hello i, ⟨0, 0⟩) :: s.log } :=
      Goes.did h hδ (newDue_every h hc r3 (t := .hello i) rfl) (.inl rfl) fun _ => rfl
    obtain ⟨s1, hs1⟩ : ∃ s1, s1 = ({ s.put (.hello i) (setTimeout s.now r3 (c.hello i)) with log := (s.now, .hello i, ⟨0, 0⟩) :: s.log } : Loop) := ⟨_, rfl⟩
    rw [← hs1] at g1
    have g2 : Goes δ force P c s1 { s1.put (.update i) (setTimeout s1.now r2 (c.update i)) with log := (s1.now, .update i, ⟨0, 0⟩) :: s1.log } :=
      Goes.did g1.inv hδ (newDue_every g1.inv hc r2 (t := .update i) rfl) (.inl rfl) fun _ => rfl
    obtain ⟨s2, hs2⟩ : ∃ s2, s2 = ({ s1.put (.update i) (setTimeout s1.now r2 (c.update i)) with log := (s1.now, .update i, ⟨0, 0⟩) :: s1.log } : Loop) := ⟨_, rfl⟩
    rw [← hs2] at g2
    have i2 : s2.ifs = s.ifs := by rw [hs2, hs1]; rfl
    have l2 : s2.log = (s.now, .update i, ⟨0, 0⟩) :: (s.now, .hello i, ⟨0, 0⟩) :: s.log := by rw [hs2, hs1]; rfl
    have d1 : s2.due (.hello i) = setTimeout s.now r3 (c.hello i) := by rw [hs2, hs1]; simp [Loop.put]
    have d2 : s2.due (.update i) = setTimeout s.now r2 (c.update i) := by rw [hs2, hs1]; simp [Loop.put]
    have g3 := Goes.these (δ := δ) (force := force) (P := P) g2.inv ((i, true) :: s.ifs.filter (·.1 != i)) s.nbrs (fun t m hu hm => by
      by_cases e1 : t = .hello i
      · subst e1
        cases hm
        rw [d1, l2]
        obtain ⟨_, b, _, d, _⟩ := setTimeout_spec h.now.1 h.now.2 r3 (c.hello i) (hc i).1
        exact ⟨b, s.now, ⟨0, 0⟩, by simp, d⟩
      · by_cases e2 : t = .update i
        · subst e2
          cases hm
          rw [d2, l2]
          obtain ⟨_, b, _, d, _⟩ := setTimeout_spec h.now.1 h.now.2 r2 (c.update i) (hc i).2
          exact ⟨b, s.now, ⟨0, 0⟩, by simp, d⟩
        · refine g2.inv.up t m ?_ hm
          have hk : ∀ x, x ≠ i → (x, true) ∈ (i, true) :: s.ifs.filter (·.1 != i) → (x, true) ∈ s2.ifs := fun x hx hy => by
            rcases List.mem_cons.1 hy with e | hy
            · cases e; exact absurd rfl hx
            · rw [i2]; exact (List.mem_filter.1 hy).1
          cases t <;> cases hm
          · exact hk _ (fun e => e1 (by rw [e])) hu
          · exact hk _ (fun e => e2 (by rw [e])) hu)
    have he : s.apply c (.up i r1 r2 r3) = { s2 with ifs := (i, true) :: s.ifs.filter (·.1 != i), nbrs := s.nbrs } := by
      rw [hs2, hs1]
      unfold Loop.apply Loop.put
      simp only [Loop.mk.injEq, true_and, and_true]
      funext x
      by_cases ex : x = .hello i
      · subst ex; simp
      · by_cases ey : x = .update i
        · subst ey; simp
        · simp [ex, ey]
    rw [he]
    exact g1.trans (g2.trans g3)

theorem Goes.applies (hc : LoopCfgOk c) (hδ : 0 ≤ δ) (l : List Write) : ∀ {s : Loop}, LoopInv c s → (∀ w ∈ l, WriteOk w) →
    Goes δ force P c s (l.foldl (Loop.apply c) s) := by
  induction l with
  | nil => intro s h _; exact .refl h
  | cons w l ih =>
    intro s h hw
    have g := Goes.apply (δ := δ) (force := force) (P := P) h hc hδ w (hw w (List.mem_cons_self ..))
    exact g.trans (ih g.inv fun x hx => hw x (List.mem_cons_of_mem _ hx))

/-- A time that has come. -/
theorem ready_due {s : Loop} (h : LoopInv c s) {t : Timer} (hr : s.ready c t = true) (h0 : (s.due t).sec ≠ 0) :
    micros (s.due t) ≤ micros s.now := by
  have hn := h.now
  have ht := h.tv t
  have hs := h.secs t
  cases t <;> simp only [Loop.ready, Bool.and_eq_true, decide_eq_true_eq, compare_neg ht.1 hn.1, compare_nonneg hn.1 ht.1] at hr
  case nbrs => omega
  case ifs => omega
  case expiry => obtain ⟨a, b⟩ := hs rfl; unfold micros; unfold TvOk at hn; omega
  case sources => obtain ⟨a, b⟩ := hs rfl; unfold micros; unfold TvOk at hn; omega
  case dump => obtain ⟨a, b⟩ := hs rfl; unfold micros; unfold TvOk at hn; omega
  case resend => exact hr.2
  case buf => exact hr.2
  case hello => exact hr
  case update => exact hr
  case flush => exact hr
  case nbuf => exact hr.2

/-- A time that has not come. -/
theorem not_ready {s : Loop} (h : LoopInv c s) {t : Timer} (hr : s.ready c t = false) (hd : t = .dump → 0 < c.check) :
    NotDue c s t := by
  have hn := h.now
  have ht := h.tv t
  have hs := h.secs t
  unfold NotDue
  cases t <;> simp only [Loop.ready, Bool.and_eq_false_iff, decide_eq_false_iff_not, compare_neg ht.1 hn.1, compare_nonneg hn.1 ht.1] at hr
  case nbrs =>
    by_cases e : micros s.now = micros (s.due .nbrs)
    · exact .inr (.inr (.inl ⟨.inl rfl, e⟩))
    · exact .inr (.inl (by omega))
  case ifs =>
    by_cases e : micros s.now = micros (s.due .ifs)
    · exact .inr (.inr (.inl ⟨.inr rfl, e⟩))
    · exact .inr (.inl (by omega))
  case expiry => obtain ⟨a, b⟩ := hs rfl; right; left; unfold micros; unfold TvOk at hn; omega
  case sources => obtain ⟨a, b⟩ := hs rfl; right; left; unfold micros; unfold TvOk at hn; omega
  case dump => obtain ⟨a, b⟩ := hs rfl; have := hd rfl; right; left; unfold micros; unfold TvOk at hn; omega
  case resend => rcases hr with hr | hr; exact .inl (by omega); exact .inr (.inl (by omega))
  case buf => rcases hr with hr | hr; exact .inl (by omega); exact .inr (.inl (by omega))
  case hello => exact .inr (.inl (by omega))
  case update => exact .inr (.inl (by omega))
  case flush => exact .inr (.inl (by omega))
  case nbuf => rcases hr with hr | hr; exact .inl (by omega); exact .inr (.inl (by omega))

theorem roughly_pos (r : Nat) (v : Int) (hv : 1 ≤ v) : 1 ≤ roughly r v := by
  by_cases h : v ≤ 1
  · rw [C02_roughly_small r _ (by omega) h]; omega
  · have := C02_roughly_bounds r v (by omega); omega

/-- The deadline that is set for a job that has just been done. -/
theorem again_ok {s : Loop} (h : LoopInv c s) (hc : LoopCfgOk c) (w : Work)
    (hs : w.failed = false) (t : Timer) (hn : t = .resend → TvOk w.next ∧ 0 ≤ w.next.sec ∧ (w.next.sec = 0 ∨ micros s.now < micros w.next)) :
    NewDue c s t (s.again c w t) := by
  have hz : (TvOk ⟨0, 0⟩ ∧ (0 : Int) ≤ (⟨0, 0⟩ : Timeval).sec) := ⟨⟨by decide, by decide⟩, by decide⟩
  obtain ⟨hw, h1⟩ := h.now
  have hu : 0 ≤ s.now.usec ∧ s.now.usec < 1000000 := hw
  have hsec : ∀ x : Int, 1 ≤ x → (TvOk ⟨s.now.sec + x, 0⟩ ∧ (0 : Int) ≤ s.now.sec + x) ∧
      micros s.now < micros ⟨s.now.sec + x, 0⟩ ∧ 1 ≤ s.now.sec + x := fun x hx => by
    refine ⟨⟨⟨Int.le_refl 0, (by decide : (0 : Int) < 1000000)⟩, by omega⟩, ?_, by omega⟩
    unfold micros; simp only; omega
  cases t with
  | nbrs =>
    obtain ⟨a, b, c', _⟩ := setTimeout_spec hw h1 w.r (max (3 * w.msecs / 2) 10) (by omega)
    have e : s.again c w .nbrs = setTimeout s.now w.r ((max (3 * w.msecs / 2) 10 : Nat) : Int) := by
      show setTimeout s.now w.r _ = _
      congr 1
      omega
    rw [e]
    exact ⟨⟨a, by omega⟩, .inr (.inl c'), nofun, fun _ => b, nofun⟩
  | ifs =>
    obtain ⟨a, b, c', _⟩ := setTimeout_spec hw h1 w.r 30000 (by omega)
    exact ⟨⟨a, Int.le_trans (by decide) b⟩, .inr (.inl c'), nofun, fun _ => b, nofun⟩
  | expiry =>
    obtain ⟨a, b, c'⟩ := hsec (roughly w.r 30) (roughly_pos _ _ (by omega))
    exact ⟨a, .inr (.inl b), fun _ => ⟨rfl, c'⟩, base_off nofun nofun, nofun⟩
  | sources =>
    obtain ⟨a, b, c'⟩ := hsec (roughly w.r 300) (roughly_pos _ _ (by omega))
    exact ⟨a, .inr (.inl b), fun _ => ⟨rfl, c'⟩, base_off nofun nofun, nofun⟩
  | dump =>
    by_cases h0 : c.check = 0
    · have hr : roughly w.r c.check = 0 := by rw [h0]; exact C02_roughly_small w.r _ (by decide) (by decide)
      have e : s.again c w .dump = ⟨s.now.sec, 0⟩ := by
        show (⟨s.now.sec + roughly w.r c.check, 0⟩ : Timeval) = _
        rw [hr, Int.add_zero]
      rw [e]
      refine ⟨⟨⟨Int.le_refl 0, (by decide : (0 : Int) < 1000000)⟩, by show (0 : Int) ≤ s.now.sec; omega⟩, .inr (.inr (.inr ⟨rfl, h0, ?_⟩)), fun _ => ⟨rfl, h1⟩,
        base_off nofun nofun, nofun⟩
      unfold micros; simp only; omega
    · obtain ⟨a, b, c'⟩ := hsec (roughly w.r c.check) (roughly_pos _ _ (by omega))
      exact ⟨a, .inr (.inl b), fun _ => ⟨rfl, c'⟩, base_off nofun nofun, nofun⟩
  | resend =>
    have hn := hn rfl
    refine ⟨⟨hn.1, hn.2.1⟩, ?_, nofun, base_off nofun nofun, nofun⟩
    rcases hn.2.2 with e | e
    · exact .inl e
    · exact .inr (.inl e)
  | buf i =>
    have e : s.again c w (.buf i) = ⟨0, 0⟩ := by show (if w.failed = true then _ else _) = _; rw [hs]; rfl
    rw [e]
    exact ⟨hz, .inl rfl, nofun, base_off nofun nofun, nofun⟩
  | flush i => exact ⟨hz, .inl rfl, nofun, base_off nofun nofun, nofun⟩
  | nbuf i =>
    have e : s.again c w (.nbuf i) = ⟨0, 0⟩ := by show (if w.failed = true then _ else _) = _; rw [hs]; rfl
    rw [e]
    exact ⟨hz, .inl rfl, nofun, base_off nofun nofun, nofun⟩
  | hello i => exact newDue_every h hc w.r (t := .hello i) rfl
  | update i => exact newDue_every h hc w.r (t := .update i) rfl

variable {j : Jobs}

/-- The same interfaces and neighbours. -/
def SameIfs (s s' : Loop) : Prop := s'.ifs = s.ifs ∧ s'.nbrs = s.nbrs

theorem apply_settled (s : Loop) (w : Write) (hw : Settled w) : SameIfs s (s.apply c w) := by
  cases w <;> first | exact ⟨rfl, rfl⟩ | exact hw.elim

theorem applies_settled (l : List Write) : ∀ s : Loop, (∀ w ∈ l, Settled w) → SameIfs s (l.foldl (Loop.apply c) s) := by
  induction l with
  | nil => intro s _; exact ⟨rfl, rfl⟩
  | cons w l ih =>
    intro s h
    have h1 := apply_settled (c := c) s w (h w (List.mem_cons_self ..))
    have h2 := ih (s.apply c w) fun x hx => h x (List.mem_cons_of_mem _ hx)
    exact ⟨h2.1.trans h1.1, h2.2.trans h1.2⟩

theorem apply_every (s : Loop) (w : Write) (hw : Settled w) (ho : WriteOk w) (t : Timer) (n : Nat) (ht : Every c t = some n) :
    (s.apply c w).due t = s.due t := by
  have hp : ∀ x v, Every c x = none → (s.put x v).due t = s.due t := fun x v hx => by
    show (if t = x then v else s.due t) = _
    rw [if_neg (fun e => by rw [e, hx] at ht; cases ht)]
  cases w with
  | set x r ms => exact hp x _ (by rcases ho.2 with ⟨i, rfl⟩ | ⟨i, rfl⟩ | ⟨i, rfl⟩ | rfl <;> rfl)
  | clear x => exact hp x _ (by rcases (ho : (∃ i, x = .buf i) ∨ (∃ i, x = .flush i) ∨ (∃ n, x = .nbuf n) ∨ x = .resend) with
      ⟨i, rfl⟩ | ⟨i, rfl⟩ | ⟨i, rfl⟩ | rfl <;> rfl)
  | sooner x r ms => exact hp x _ (by rcases ho.2 with rfl | rfl <;> rfl)
  | _ => exact hw.elim

theorem applies_every (t : Timer) (n : Nat) (ht : Every c t = some n) (l : List Write) : ∀ s : Loop, (∀ w ∈ l, Settled w) → (∀ w ∈ l, WriteOk w) →
    (l.foldl (Loop.apply c) s).due t = s.due t := by
  induction l with
  | nil => intro s _ _; rfl
  | cons w l ih =>
    intro s h h'
    exact (ih (s.apply c w) (fun x hx => h x (List.mem_cons_of_mem _ hx)) fun x hx => h' x (List.mem_cons_of_mem _ hx)).trans
      (apply_every s w (h w (List.mem_cons_self ..)) (h' w (List.mem_cons_self ..)) t n ht)

/-- A job is done: its timer has been set to a later time. -/
theorem Goes.serve {s : Loop} (h : LoopInv c s) (hc : LoopCfgOk c) (hj : JobsOk δ j) (hδ : 0 ≤ δ) (t : Timer)
    (hr : s.ready c t = true ∨ (t = .dump ∧ force = true)) (hR : t = .resend → Recent δ s t) :
    Goes δ force P c s (s.serve c j t) ∧ NotDue c (s.serve c j t) t := by
  have g := Goes.applies (δ := δ) (force := force) (P := P) hc hδ (j.work s t).writes h (hj.ok s t)
  obtain ⟨s2, hs2⟩ : ∃ s2, s2 = (j.work s t).writes.foldl (Loop.apply c) s := ⟨_, rfl⟩
  rw [← hs2] at g
  have hv := again_ok g.inv hc (j.work s t) (hj.signs s t) t fun e => by
    subst e
    obtain ⟨n1, n2, n3⟩ := hj.next s
    have h0 : (s.due .resend).sec ≠ 0 := by
      rcases hr with hr | ⟨hr, _⟩
      · simp only [Loop.ready, Bool.and_eq_true, decide_eq_true_eq] at hr
        exact hr.1
      · cases hr
    refine ⟨n1, n2, ?_⟩
    rw [g.now]
    refine n3 h0 ?_
    rcases hR rfl with e | e
    · exact absurd e h0
    · have : slack δ .resend = 2 * δ := by unfold slack; rw [if_neg (by decide)]; omega
      omega
  have e : s.serve c j t = { s2.put t (s2.again c (j.work s t) t) with log := (s2.now, t, s.due t) :: s2.log } := by
    rw [g.now, hs2]; rfl
  have hd : (s.due t).sec = 0 ∨ (t = .dump ∧ force = true) ∨ micros (s.due t) ≤ micros s.now := by
    by_cases h0 : (s.due t).sec = 0
    · exact .inl h0
    · rcases hr with hr | hr
      · exact .inr (.inr (ready_due h hr h0))
      · exact .inr (.inl hr)
  have g2 : Goes δ force (fun _ => False) c s2 (s.serve c j t) := by
    rw [e]
    refine Goes.did g.inv hδ hv ?_ False.elim
    rcases hd with hd | ⟨rfl, _⟩ | hd
    · exact .inl hd
    · exact .inr nofun
    · refine .inr fun n hn => ?_
      have hu : Unsettling t = false := by cases t <;> cases hn <;> rfl
      rw [g.now, hs2, applies_every t n hn _ s (hj.settled s t hu) (hj.ok s t)]
      exact ⟨hd, rfl⟩
  refine ⟨⟨g2.inv, g2.now.trans g.now, fun x hx => g2.fresh x (g.fresh x hx), fun x hx => g2.recent x (g.recent x hx), ?_⟩, ?_⟩
  · obtain ⟨new, e1, h1⟩ := g.log
    refine ⟨(s2.now, t, s.due t) :: new, by rw [e]; show _ :: s2.log = _; rw [e1]; rfl, fun hR x hx => ?_⟩
    rcases List.mem_cons.1 hx with rfl | hx
    · refine ⟨g.now, fun hP h0 => ⟨?_, ?_⟩⟩
      · rcases hd with hd | hd
        · exact absurd hd h0
        · exact hd
      · rcases hR t hP with e | e
        · exact absurd e h0
        · exact e
    · exact h1 hR x hx
  · rw [e]
    unfold NotDue
    have : ({ s2.put t (s2.again c (j.work s t) t) with log := (s2.now, t, s.due t) :: s2.log } : Loop).due t = s2.again c (j.work s t) t := by
      simp [Loop.put]
    rw [this]
    exact hv.fresh

theorem Goes.test {s : Loop} (h : LoopInv c s) (hc : LoopCfgOk c) (hj : JobsOk δ j) (hδ : 0 ≤ δ) (t : Timer) (hR : t = .resend → Recent δ s t) :
    Goes δ force P c s (s.test c j t) ∧ ((t = .dump → 0 < c.check) → NotDue c (s.test c j t) t) := by
  unfold Loop.test
  by_cases hr : s.ready c t = true
  · rw [if_pos hr]
    have := Goes.serve (δ := δ) (force := force) (P := P) h hc hj hδ t (.inl hr) hR
    exact ⟨this.1, fun _ => this.2⟩
  · rw [if_neg hr]
    exact ⟨.refl h, fun hd => not_ready h (by simpa using hr) hd⟩

theorem Goes.tests (hc : LoopCfgOk c) (hj : JobsOk δ j) (hδ : 0 ≤ δ) (l : List Timer) (hl : Timer.dump ∉ l) (hl' : Timer.resend ∉ l) : ∀ {s : Loop}, LoopInv c s →
    Goes δ force P c s (l.foldl (Loop.test c j) s) ∧ ∀ t ∈ l, NotDue c (l.foldl (Loop.test c j) s) t := by
  induction l with
  | nil => intro s h; exact ⟨.refl h, nofun⟩
  | cons t l ih =>
    intro s h
    obtain ⟨g1, f1⟩ := Goes.test (δ := δ) (force := force) (P := P) h hc hj hδ t (fun e => absurd (e ▸ List.mem_cons_self ..) hl')
    obtain ⟨g2, f2⟩ := ih (fun x => hl (List.mem_cons_of_mem _ x)) (fun x => hl' (List.mem_cons_of_mem _ x)) g1.inv
    refine ⟨g1.trans g2, fun x hx => ?_⟩
    rcases List.mem_cons.1 hx with rfl | hx
    · exact g2.fresh _ (f1 fun e => absurd (e ▸ List.mem_cons_self ..) hl)
    · exact f2 x hx

theorem test_settled (hj : JobsOk δ j) (s : Loop) (t : Timer) (ht : Unsettling t = false) : SameIfs s (s.test c j t) := by
  unfold Loop.test
  split
  · exact applies_settled (c := c) (j.work s t).writes s (hj.settled s t ht)
  · exact ⟨rfl, rfl⟩

theorem tests_settled (hj : JobsOk δ j) (l : List Timer) : ∀ s : Loop, (∀ t ∈ l, Unsettling t = false) → SameIfs s (l.foldl (Loop.test c j) s) := by
  induction l with
  | nil => intro s _; exact ⟨rfl, rfl⟩
  | cons w l ih =>
    intro s h
    have h1 := test_settled (c := c) hj s w (h w (List.mem_cons_self ..))
    have h2 := ih (s.test c j w) fun x hx => h x (List.mem_cons_of_mem _ hx)
    exact ⟨h2.1.trans h1.1, h2.2.trans h1.2⟩

theorem mem_live (s : Loop) (i : IfId) : i ∈ s.live ↔ (i, true) ∈ s.ifs := by
  unfold Loop.live
  simp [List.mem_map, List.mem_filter]

theorem mem_timers (s : Loop) (t : Timer) : t ∈ s.timers c ↔ t = .nbrs ∨ t = .ifs ∨ t = .expiry ∨ t = .sources ∨ t = .resend ∨
    (t = .dump ∧ 0 < c.check) ∨ (∃ i, (i, true) ∈ s.ifs ∧ (t = .buf i ∨ t = .hello i ∨ t = .update i ∨ t = .flush i)) ∨
    ∃ n ∈ s.nbrs, t = .nbuf n := by
  unfold Loop.timers
  simp only [List.mem_append, List.mem_cons, List.not_mem_nil, or_false, List.mem_flatMap, List.mem_filter, List.mem_map, Prod.exists]
  constructor
  · rintro ((((h | h) | h) | h) | ⟨n, h, rfl⟩)
    · rcases h with h | h | h | h <;> simp [h]
    · split at h
      · next hc => rw [List.mem_singleton.1 h]; simp [show 0 < c.check from hc]
      · cases h
    · simp [h]
    · obtain ⟨i, b, ⟨h1, h2⟩, h3⟩ := h
      cases h2
      exact .inr (.inr (.inr (.inr (.inr (.inr (.inl ⟨i, h1, h3⟩))))))
    · exact .inr (.inr (.inr (.inr (.inr (.inr (.inr ⟨n, h, rfl⟩))))))
  · rintro (h | h | h | h | h | ⟨h, hc⟩ | ⟨i, h, h1⟩ | ⟨n, h, rfl⟩)
    · simp [h]
    · simp [h]
    · simp [h]
    · simp [h]
    · simp [h]
    · simp [h, hc]
    · exact .inl (.inr ⟨i, true, ⟨h, rfl⟩, h1⟩)
    · exact .inr ⟨n, h, rfl⟩

/-- Everything is done whose time has come. -/
theorem Goes.pass {s : Loop} (h : LoopInv c s) (hc : LoopCfgOk c) (hj : JobsOk δ j) (hδ : 0 ≤ δ) (hR : Recent δ s .resend) :
    Goes δ force P c s (s.pass c j force) ∧ ∀ t ∈ (s.pass c j force).timers c, NotDue c (s.pass c j force) t := by
  obtain ⟨s0, hs0⟩ : ∃ x, x = if force then s.serve c j .dump else s.test c j .dump := ⟨_, rfl⟩
  have g0 : Goes δ force P c s s0 ∧ (0 < c.check → NotDue c s0 .dump) := by
    rw [hs0]
    cases hf : force with
    | true =>
      have := Goes.serve (δ := δ) (force := true) (P := P) h hc hj hδ .dump (.inr ⟨rfl, rfl⟩) nofun
      exact ⟨this.1, fun _ => this.2⟩
    | false =>
      have := Goes.test (δ := δ) (force := false) (P := P) h hc hj hδ .dump nofun
      exact ⟨this.1, fun h => this.2 fun _ => h⟩
  obtain ⟨s1, hs1⟩ : ∃ x, x = [Timer.nbrs, .ifs, .expiry, .sources].foldl (Loop.test c j) s0 := ⟨_, rfl⟩
  obtain ⟨s2, hs2⟩ : ∃ x, x = (s1.live.flatMap fun i => [Timer.hello i, .update i, .flush i]).foldl (Loop.test c j) s1 := ⟨_, rfl⟩
  obtain ⟨s3, hs3⟩ : ∃ x, x = s2.test c j .resend := ⟨_, rfl⟩
  obtain ⟨s4, hs4⟩ : ∃ x, x = (s3.live.map Timer.buf).foldl (Loop.test c j) s3 := ⟨_, rfl⟩
  obtain ⟨s5, hs5⟩ : ∃ x, x = (s4.nbrs.map Timer.nbuf).foldl (Loop.test c j) s4 := ⟨_, rfl⟩
  have e : s.pass c j force = s5 := by
    rw [hs5, hs4, hs3, hs2, hs1, hs0]
    rfl
  have g1 := Goes.tests (δ := δ) (force := force) (P := P) hc hj hδ [Timer.nbrs, .ifs, .expiry, .sources] (by decide) (by decide) g0.1.inv
  rw [← hs1] at g1
  have g2 := Goes.tests (δ := δ) (force := force) (P := P) hc hj hδ (s1.live.flatMap fun i => [Timer.hello i, .update i, .flush i])
    (by simp) (by simp) g1.1.inv
  rw [← hs2] at g2
  have k2 := tests_settled (c := c) hj (s1.live.flatMap fun i => [Timer.hello i, .update i, .flush i]) s1 (fun t ht => by
    obtain ⟨i, _, h⟩ := List.mem_flatMap.1 ht
    simp only [List.mem_cons, List.not_mem_nil, or_false] at h
    rcases h with rfl | rfl | rfl <;> rfl)
  rw [← hs2] at k2
  have g3 := Goes.test (δ := δ) (force := force) (P := P) g2.1.inv hc hj hδ .resend fun _ => g2.1.recent _ (g1.1.recent _ (g0.1.recent _ hR))
  rw [← hs3] at g3
  have k3 := test_settled (c := c) hj s2 .resend rfl
  rw [← hs3] at k3
  have g4 := Goes.tests (δ := δ) (force := force) (P := P) hc hj hδ (s3.live.map Timer.buf) (by simp) (by simp) g3.1.inv
  rw [← hs4] at g4
  have k4 := tests_settled (c := c) hj (s3.live.map Timer.buf) s3 (fun t ht => by
    obtain ⟨i, _, rfl⟩ := List.mem_map.1 ht
    rfl)
  rw [← hs4] at k4
  have g5 := Goes.tests (δ := δ) (force := force) (P := P) hc hj hδ (s4.nbrs.map Timer.nbuf) (by simp) (by simp) g4.1.inv
  rw [← hs5] at g5
  have k5 := tests_settled (c := c) hj (s4.nbrs.map Timer.nbuf) s4 (fun t ht => by
    obtain ⟨i, _, rfl⟩ := List.mem_map.1 ht
    rfl)
  rw [← hs5] at k5
  rw [e]
  have g45 := g4.1.trans g5.1
  have g35 := g3.1.trans g45
  have g25 := g2.1.trans g35
  have g15 := g1.1.trans g25
  refine ⟨g0.1.trans g15, fun t ht => ?_⟩
  rcases (mem_timers s5 t).1 ht with rfl | rfl | rfl | rfl | rfl | ⟨rfl, h0⟩ | ⟨i, hi, ht⟩ | ⟨n, hn, rfl⟩
  · exact g25.fresh _ (g1.2 _ (by decide))
  · exact g25.fresh _ (g1.2 _ (by decide))
  · exact g25.fresh _ (g1.2 _ (by decide))
  · exact g25.fresh _ (g1.2 _ (by decide))
  · exact g45.fresh _ (g3.2 nofun)
  · exact g15.fresh _ (g0.2 h0)
  · rw [k5.1, k4.1] at hi
    have hi1 := hi
    rw [k3.1, k2.1] at hi1
    have hi3 := (mem_live s3 i).2 hi
    have hi1 := (mem_live s1 i).2 hi1
    rcases ht with rfl | rfl | rfl | rfl
    · exact g5.1.fresh _ (g4.2 _ (List.mem_map.2 ⟨i, hi3, rfl⟩))
    · exact g35.fresh _ (g2.2 _ (List.mem_flatMap.2 ⟨i, hi1, by simp⟩))
    · exact g35.fresh _ (g2.2 _ (List.mem_flatMap.2 ⟨i, hi1, by simp⟩))
    · exact g35.fresh _ (g2.2 _ (List.mem_flatMap.2 ⟨i, hi1, by simp⟩))
  · rw [k5.2] at hn
    exact g5.2 _ (List.mem_map.2 ⟨n, hn, rfl⟩)

theorem used_timers (s : Loop) (t : Timer) : t ∈ s.timers c ↔ Used c s t := by
  rw [mem_timers]
  cases t <;> simp [Used]

/-- What is left of the minimum: it is one of the deadlines, and not later than any. -/
theorem meet_fold {s : Loop} (h : LoopInv c s) (r : Timer → Nat) (l : List Timer) : ∀ tv : Timeval, TvOk tv → 1 ≤ tv.sec →
    let W := l.foldl (s.meet r) tv
    TvOk W ∧ 1 ≤ W.sec ∧ micros W ≤ micros tv ∧
    (∀ t ∈ l, (s.due t).sec ≠ 0 → if t.secs = true then W.sec ≤ (s.due t).sec else micros W ≤ micros (s.due t)) ∧
    (W = tv ∨ ∃ t ∈ l, (s.due t).sec ≠ 0 ∧ if t.secs = true then W.sec = (s.due t).sec else W = s.due t) := by
  induction l with
  | nil => intro tv h1 h2; exact ⟨h1, h2, Int.le_refl _, nofun, .inl rfl⟩
  | cons t l ih =>
    intro tv h1 h2
    have ht := h.tv t
    have key : TvOk (s.meet r tv t) ∧ 1 ≤ (s.meet r tv t).sec ∧ micros (s.meet r tv t) ≤ micros tv ∧
        ((s.due t).sec ≠ 0 → if t.secs = true then (s.meet r tv t).sec ≤ (s.due t).sec else micros (s.meet r tv t) ≤ micros (s.due t)) ∧
        (s.meet r tv t = tv ∨ (s.due t).sec ≠ 0 ∧ if t.secs = true then (s.meet r tv t).sec = (s.due t).sec else s.meet r tv t = s.due t) := by
      unfold Loop.meet
      cases hs : t.secs with
      | true =>
        rw [if_pos rfl]
        simp only [if_true]
        obtain ⟨a1, a2, a3, a4, _⟩ := C03_min_sec (r t) tv (s.due t).sec h1
        have hd := (h.secs t hs).2
        have a3 := a3 (by omega)
        refine ⟨a1, by omega, ?_, fun _ => a2, ?_⟩
        · by_cases hle : tv.sec ≤ (s.due t).sec
          · rw [a4 (by omega) hle]; exact Int.le_refl _
          · unfold TvOk at a1 h1; unfold micros; omega
        · by_cases hle : tv.sec ≤ (s.due t).sec
          · exact .inl (a4 (by omega) hle)
          · exact .inr ⟨by omega, by omega⟩
      | false =>
        rw [if_neg (by decide)]
        simp only [Bool.false_eq_true, if_false]
        obtain ⟨a1, a2, a3⟩ := C03_min tv (s.due t) h1 ht.1
        by_cases h0 : (s.due t).sec = 0
        · rw [a1 h0]
          exact ⟨h1, h2, Int.le_refl _, fun h => absurd h0 h, .inl rfl⟩
        · obtain ⟨a3, a4⟩ := a3 h0 (by omega)
          refine ⟨?_, ?_, by omega, fun _ => by omega, ?_⟩
          · rcases a3 with e | e <;> rw [e]
            · exact h1
            · exact ht.1
          · rcases a3 with e | e <;> rw [e]
            · exact h2
            · omega
          · rcases a3 with e | e
            · exact .inl e
            · exact .inr ⟨h0, e⟩
    obtain ⟨k1, k2, k3, k4, k5⟩ := key
    obtain ⟨i1, i2, i3, i4, i5⟩ := ih (s.meet r tv t) k1 k2
    show TvOk (l.foldl (s.meet r) (s.meet r tv t)) ∧ _
    refine ⟨i1, i2, by simp only [List.foldl_cons]; omega, fun x hx h0 => ?_, ?_⟩
    · rcases List.mem_cons.1 hx with rfl | hx
      · have k4 := k4 h0
        simp only [List.foldl_cons]
        cases hs : x.secs with
        | true =>
          rw [hs] at k4
          simp only [if_true] at k4 ⊢
          have := sec_pos i1 k1 i3
          omega
        | false =>
          rw [hs] at k4
          simp only [Bool.false_eq_true, if_false] at k4 ⊢
          omega
      · exact i4 x hx h0
    · rcases i5 with e | ⟨x, hx, h3⟩
      · rcases k5 with e' | h3
        · exact .inl (by rw [List.foldl_cons, e, e'])
        · exact .inr ⟨t, List.mem_cons_self .., by rw [List.foldl_cons, e]; exact h3⟩
      · exact .inr ⟨x, List.mem_cons_of_mem _ hx, h3⟩

theorem wake_spec {s : Loop} (h : LoopInv c s) (r : Timer → Nat) :
    TvOk (s.wake c r) ∧ 1 ≤ (s.wake c r).sec ∧
    (∀ t, Used c s t → (s.due t).sec ≠ 0 → if t.secs = true then (s.wake c r).sec ≤ (s.due t).sec else micros (s.wake c r) ≤ micros (s.due t)) ∧
    (∃ t, Used c s t ∧ (s.due t).sec ≠ 0 ∧ if t.secs = true then (s.wake c r).sec = (s.due t).sec else s.wake c r = s.due t) := by
  obtain ⟨l, hl⟩ : ∃ l, s.timers c = .nbrs :: l := ⟨_, rfl⟩
  have e : s.wake c r = l.foldl (s.meet r) (s.due .nbrs) := by unfold Loop.wake; rw [hl]
  obtain ⟨a, b, d, f, g⟩ := meet_fold h r l (s.due .nbrs) (h.tv _).1 h.base.1
  rw [e]
  refine ⟨a, b, fun t ht h0 => ?_, ?_⟩
  · have := (used_timers s t).2 ht
    rw [hl] at this
    rcases List.mem_cons.1 this with rfl | ht
    · exact d
    · exact f t ht h0
  · rcases g with g | ⟨t, ht, g⟩
    · refine ⟨.nbrs, trivial, by have := h.base.1; omega, ?_⟩
      exact g
    · exact ⟨t, (used_timers s t).1 (hl ▸ List.mem_cons_of_mem _ ht), g⟩

/-- At the beginning of a turn, no deadline is long past. -/
theorem prompt_recent {s : Loop} (h : LoopInv c s) (hf : ∀ t, Used c s t → NotDue c s t) (hδ : 0 ≤ δ) {T : Turn} (hT : Prompt δ c s T) (t : Timer)
    (ht : Used c s t) : (s.due t).sec = 0 ∨ micros T.finish ≤ micros (s.due t) + slack δ t := by
  by_cases h0 : (s.due t).sec = 0
  · exact .inl h0
  · right
    obtain ⟨a, b, d, _⟩ := wake_spec h T.rnd
    have d := d t ht h0
    have h1 := hT.begins
    have h2 := hT.wakes
    have h3 : micros s.now ≤ micros (s.due t) := by
      rcases hf t ht with e | e | ⟨_, e⟩ | ⟨e, e', _⟩
      · exact absurd e h0
      · omega
      · omega
      · subst e
        have : 0 < c.check := ht
        omega
    have h4 : micros (s.wake c T.rnd) ≤ micros (s.due t) + if t.secs = true then 1000000 else 0 := by
      cases hs : t.secs with
      | true =>
        rw [hs] at d
        simp only [if_true] at d ⊢
        have := (h.tv t).1
        unfold TvOk at a this
        unfold micros
        omega
      | false =>
        rw [hs] at d
        simp only [Bool.false_eq_true, if_false] at d ⊢
        omega
    unfold slack
    have : (0 : Int) ≤ if t.secs = true then 1000000 else 0 := by split <;> omega
    omega

theorem reopen_inv {s : Loop} (h : LoopInv c s) (hδ : 0 ≤ δ) : LoopInv c s.reopen ∧ s.reopen.log = s.log ∧ s.reopen.now = s.now ∧
    ∀ t, Recent δ s t → Recent δ s.reopen t := by
  have hd : ∀ t, s.reopen.due t = s.due t ∨ (t = .dump ∧ s.reopen.due t = ⟨s.now.sec, 0⟩) ∨ (t = .nbrs ∧ s.reopen.due t = s.now) ∨
      (t = .expiry ∧ s.reopen.due t = ⟨s.now.sec, 0⟩) := fun t => by
    by_cases e1 : t = .dump
    · subst e1; exact .inr (.inl ⟨rfl, rfl⟩)
    · by_cases e2 : t = .nbrs
      · subst e2; exact .inr (.inr (.inl ⟨rfl, rfl⟩))
      · by_cases e3 : t = .expiry
        · subst e3; exact .inr (.inr (.inr ⟨rfl, rfl⟩))
        · left
          unfold Loop.reopen Loop.put
          simp only [if_neg e1, if_neg e2, if_neg e3]
  have hn := h.now
  have hz : TvOk ⟨s.now.sec, 0⟩ := ⟨Int.le_refl 0, (by decide : (0 : Int) < 1000000)⟩
  have he : ∀ t n, Every c t = some n → s.reopen.due t = s.due t := fun t n ht => by cases t <;> cases ht <;> rfl
  refine ⟨⟨hn, fun t => ?_, fun t ht => ?_, ⟨?_, ?_⟩, h.past, fun e hm n hn => ?_, fun t n hu hn => ?_, h.spaced⟩, rfl, rfl, fun t ht => ?_⟩
  · rcases hd t with e | ⟨rfl, e⟩ | ⟨rfl, e⟩ | ⟨rfl, e⟩ <;> rw [e]
    · exact h.tv t
    · exact ⟨hz, by show (0 : Int) ≤ s.now.sec; omega⟩
    · exact ⟨hn.1, by omega⟩
    · exact ⟨hz, by show (0 : Int) ≤ s.now.sec; omega⟩
  · rcases hd t with e | ⟨rfl, e⟩ | ⟨rfl, e⟩ | ⟨rfl, e⟩
    · rw [e]; exact h.secs t ht
    · rw [e]; exact ⟨rfl, hn.2⟩
    · cases ht
    · rw [e]; exact ⟨rfl, hn.2⟩
  · exact hn.2
  · exact h.base.2
  · rw [he _ n hn]; exact h.gap e hm n hn
  · rw [he _ n hn]
    have hu : Used c s t := by cases t <;> exact hu
    exact h.up t n hu hn
  · have hsl : 0 ≤ slack δ t := by unfold slack; split <;> omega
    have hu : s.now.usec < 1000000 := hn.1.2
    unfold Recent
    rcases hd t with e | ⟨rfl, e⟩ | ⟨rfl, e⟩ | ⟨rfl, e⟩
    · rw [e]; exact ht
    · rw [e]; right; show micros s.now ≤ _; unfold slack; rw [if_pos (show Timer.dump.secs = true from rfl)]; unfold micros; simp only; omega
    · rw [e]; right; show micros s.now ≤ _; omega
    · rw [e]; right; show micros s.now ≤ _; unfold slack; rw [if_pos (show Timer.expiry.secs = true from rfl)]; unfold micros; simp only; omega

/-- A turn. -/
theorem turn_spec {s : Loop} (h : LoopInv c s) (hf : ∀ t, Used c s t → NotDue c s t) (hc : LoopCfgOk c) (hj : JobsOk δ j) (hδ : 0 ≤ δ) {T : Turn}
    (hT : Prompt δ c s T) : LoopInv c (s.turn c j T) ∧ (∀ t, Used c (s.turn c j T) t → NotDue c (s.turn c j T) t) ∧ (s.turn c j T).now = T.finish ∧
    ∃ new, (s.turn c j T).log = new ++ s.log ∧ ∀ e ∈ new, InTime δ T.force (Used c s) T.finish e := by
  obtain ⟨s0, hs0⟩ : ∃ x, x = ({ s with now := T.finish } : Loop) := ⟨_, rfl⟩
  have hle : micros s.now ≤ micros T.finish := by have := hT.begins; have := hT.wakes; omega
  have i0 : LoopInv c s0 := by
    rw [hs0]
    refine ⟨⟨hT.finish, ?_⟩, h.tv, h.secs, h.base, fun e he => ?_, h.gap, fun t n hu hn => ?_, h.spaced⟩
    · have := sec_pos h.now.1 hT.finish hle
      have := h.now.2
      show 1 ≤ T.finish.sec
      omega
    · have := h.past e he
      show _ ≤ micros T.finish
      omega
    · have hu : Used c s t := by cases t <;> exact hu
      exact h.up t n hu hn
  have r0 : ∀ t, Used c s t → Recent δ s0 t := by
    rw [hs0]
    exact fun t ht => prompt_recent h hf hδ hT t ht
  obtain ⟨s1, hs1⟩ : ∃ x, x = if s.polls c T.rnd T.start = true then T.input.foldl (Loop.apply c) s0 else s0 := ⟨_, rfl⟩
  have g1 : Goes δ T.force (Used c s) c s0 s1 := by
    rw [hs1]
    split
    · exact Goes.applies hc hδ T.input i0 hT.input
    · exact .refl i0
  obtain ⟨s2, hs2⟩ : ∃ x, x = if T.reopen = true then s1.reopen else s1 := ⟨_, rfl⟩
  have g2 : LoopInv c s2 ∧ s2.log = s1.log ∧ s2.now = s1.now ∧ ∀ t, Recent δ s1 t → Recent δ s2 t := by
    rw [hs2]
    split
    · exact reopen_inv g1.inv hδ
    · exact ⟨g1.inv, rfl, rfl, fun _ h => h⟩
  have g3 := Goes.pass (δ := δ) (force := T.force) (P := Used c s) g2.1 hc hj hδ (g2.2.2.2 _ (g1.recent _ (r0 _ trivial)))
  have e : s.turn c j T = s2.pass c j T.force := by rw [hs2, hs1, hs0]; rfl
  have n2 : s2.now = T.finish := by rw [g2.2.2.1, g1.now, hs0]
  rw [e]
  refine ⟨g3.1.inv, fun t ht => g3.2 t ((used_timers _ t).2 ht), by rw [g3.1.now, n2], ?_⟩
  obtain ⟨n1, l1, p1⟩ := g1.log
  obtain ⟨n3, l3, p3⟩ := g3.1.log
  refine ⟨n3 ++ n1, by rw [l3, g2.2.1, l1, hs0, List.append_assoc], fun x hx => ?_⟩
  rcases List.mem_append.1 hx with hx | hx
  · have := p3 (fun t ht => g2.2.2.2 t (g1.recent t (r0 t ht))) x hx
    rw [n2] at this
    exact this
  · have := p1 r0 x hx
    rw [hs0] at this
    exact this

theorem loopStart_inv {s : Loop} (h : LoopStart c s) : LoopInv c s ∧ ∀ t, Used c s t → NotDue c s t := by
  refine ⟨⟨h.now, h.tv, fun t ht => ?_, h.base, fun e he => (h.log e he).1, fun e he n hn => ?_, h.up, ?_⟩, fun t ht => ?_⟩
  · have := h.secs t ht
    have := h.now.2
    omega
  · have := h.gap e he n hn
    omega
  · refine List.pairwise_iff_forall_sublist.2 fun {a b} hab n _ _ h0 => ?_
    exact absurd (h.log a (hab.subset (List.mem_cons_self ..))).2 h0
  · rcases h.later t ht with e | e
    · exact .inl e
    · exact .inr (.inl e)

theorem reach_inv {s : Loop} (hc : LoopCfgOk c) (hj : JobsOk δ j) (hδ : 0 ≤ δ) (h : LoopReach δ c j s) :
    LoopInv c s ∧ ∀ t, Used c s t → NotDue c s t := by
  induction h with
  | init s h => exact loopStart_inv h
  | turn T _ hT ih =>
    have := turn_spec ih.1 ih.2 hc hj hδ hT
    exact ⟨this.1, this.2.1⟩

end Babel
