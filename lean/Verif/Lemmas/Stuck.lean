import Verif.Lemmas.Loop
/-
A deadline that is never met.
-/
set_option linter.unusedVariables false
namespace Babel
open Spec

theorem sendPc_grow {o : Orc} {t t1 : Tx} (h1 : sendPc o t = some t1) :
    t1.out = t.out ∧ t1.buf.timeout = t.buf.timeout ∧ t.buf.bytes.length ≤ t1.buf.bytes.length := by
  unfold sendPc at h1
  split at h1
  · cases h1; exact ⟨rfl, rfl, Nat.le_refl _⟩
  · have key : ∀ r : Tx, r.out = t.out → r.buf = t.buf →
        (do let b ← r.buf.put ([17, 12] ++ htonl r.pc ++ r.index); return { r with buf := b, pc := u32 (r.pc + 1) } : Option Tx) = some t1 →
        t1.out = t.out ∧ t1.buf.timeout = t.buf.timeout ∧ t.buf.bytes.length ≤ t1.buf.bytes.length := by
      intro r e1 e2 hh
      simp only [Option.bind_eq_bind] at hh
      obtain ⟨b', hb, hh⟩ := Option.bind_eq_some_iff.1 hh
      cases hh
      unfold Buf.put at hb
      split at hb
      · cases hb
        exact ⟨e1, by rw [← e2], by rw [← e2]; simp⟩
      · cases hb
    by_cases hz : t.pc = 0
    · rw [if_pos hz] at h1
      cases hr : o.rand t.draws with
      | none => rw [hr] at h1; cases h1; exact ⟨rfl, rfl, Nat.le_refl _⟩
      | some i => rw [hr] at h1; exact key { t with index := i, draws := t.draws + 1 } rfl rfl h1
    · rw [if_neg hz] at h1
      exact key t rfl rfl h1

theorem addPc_grow {o : Orc} {c : SIf} {t t1 : Tx} (h1 : addPc o c t = some t1) :
    t1.out = t.out ∧ t1.buf.timeout = t.buf.timeout ∧ t.buf.bytes.length ≤ t1.buf.bytes.length := by
  unfold addPc at h1
  split at h1
  · exact sendPc_grow h1
  · cases h1; exact ⟨rfl, rfl, Nat.le_refl _⟩

theorem fillRtt_grow {c : SIf} {now : Timeval} {b0 b : Buf} (h2 : fillRtt c now b0 = some b) :
    b.timeout = b0.timeout ∧ b0.bytes.length ≤ b.bytes.length := by
  unfold fillRtt at h2
  split at h2
  · simp only [Option.bind_eq_bind] at h2
    obtain ⟨x, hx, h2⟩ := Option.bind_eq_some_iff.1 h2
    obtain ⟨y, hy, h2⟩ := Option.bind_eq_some_iff.1 h2
    split at h2
    · split at h2
      · next hl =>
        cases h2
        refine ⟨rfl, ?_⟩
        unfold stamp
        simp only [List.length_append, List.length_take, List.length_drop, htonl, htons, List.length_cons, List.length_nil]
        omega
      · cases h2
    · cases h2; exact ⟨rfl, Nat.le_refl _⟩
  · cases h2; exact ⟨rfl, Nat.le_refl _⟩

/-- `a` is not after `b`. -/
def notAfter (a b : Timeval) : Prop := timevalCompare a b ≤ 0

theorem notAfter_iff (a b : Timeval) : notAfter a b ↔ a.sec < b.sec ∨ (a.sec = b.sec ∧ a.usec ≤ b.usec) := by
  unfold notAfter timevalCompare
  split
  · omega
  · split
    · omega
    · split
      · omega
      · split <;> omega

theorem notAfter_min {tv d now : Timeval} (h : tv.sec ≠ 0 ∧ notAfter tv now) : (timevalMin tv d).sec ≠ 0 ∧ notAfter (timevalMin tv d) now := by
  unfold timevalMin
  split
  · exact h
  · next h0 =>
    split
    · next h1 =>
      refine ⟨h0, ?_⟩
      rcases h1 with h1 | h1
      · exact absurd h1 h.1
      · have : ¬ notAfter tv d := fun x => by unfold notAfter at x; omega
        rw [notAfter_iff] at this h ⊢
        omega
    · exact h

theorem notAfter_min_self {tv d now : Timeval} (h0 : d.sec ≠ 0) (h : notAfter d now) :
    (timevalMin tv d).sec ≠ 0 ∧ notAfter (timevalMin tv d) now := by
  unfold timevalMin
  rw [if_neg h0]
  split
  · exact ⟨h0, h⟩
  · next h1 =>
    have h1 := not_or.1 h1
    refine ⟨h1.1, ?_⟩
    have : notAfter tv d := by unfold notAfter; omega
    rw [notAfter_iff] at this h ⊢
    omega

theorem meets_stay {s : Loop} {r : Timer → Nat} {now : Timeval} (l : List NeighId) : ∀ tv : Timeval, tv.sec ≠ 0 ∧ notAfter tv now →
    let W := (l.map Timer.nbuf).foldl (s.meet r) tv
    W.sec ≠ 0 ∧ notAfter W now := by
  induction l with
  | nil => intro tv h; exact h
  | cons m l ih => intro tv h; exact ih _ (notAfter_min h)

theorem meets_stuck {s : Loop} {r : Timer → Nat} {now : Timeval} {n : NeighId} (h0 : (s.due (.nbuf n)).sec ≠ 0)
    (h : notAfter (s.due (.nbuf n)) now) (l : List NeighId) (hn : n ∈ l) : ∀ tv : Timeval,
    notAfter ((l.map Timer.nbuf).foldl (s.meet r) tv) now := by
  induction l with
  | nil => cases hn
  | cons m l ih =>
    intro tv
    by_cases e : m = n
    · subst e
      exact (meets_stay l _ (notAfter_min_self h0 h)).2
    · exact ih ((List.mem_cons.1 hn).resolve_left (fun h => e h.symm)) _

theorem polls_stuck {c : LoopCfg} {s : Loop} {r : Timer → Nat} {now : Timeval} {n : NeighId} (hn : n ∈ s.nbrs)
    (h0 : (s.due (.nbuf n)).sec ≠ 0) (h : notAfter (s.due (.nbuf n)) now) : s.polls c r now = false := by
  obtain ⟨l, hl⟩ : ∃ l, s.timers c = .nbrs :: l ++ s.nbrs.map .nbuf := ⟨_, rfl⟩
  have e : s.wake c r = (s.nbrs.map Timer.nbuf).foldl (s.meet r) (l.foldl (s.meet r) (s.due .nbrs)) := by
    unfold Loop.wake
    rw [hl]
    exact List.foldl_append ..
  have := meets_stuck (r := r) h0 h s.nbrs hn (l.foldl (s.meet r) (s.due .nbrs))
  rw [← e] at this
  unfold Loop.polls
  unfold notAfter at this
  exact decide_eq_false (by omega)

/-- Neighbour `n` is there, and the deadline of its buffer is `D`. -/
structure Stays (n : NeighId) (D : Timeval) (s : Loop) : Prop where
  mem : n ∈ s.nbrs
  due : s.due (.nbuf n) = D

section
variable {n : NeighId} {D : Timeval} {c : LoopCfg} {j : Jobs}

theorem Stays.put {s : Loop} (h : Stays n D s) {t : Timer} (ht : t ≠ .nbuf n) (v : Timeval) : Stays n D (s.put t v) :=
  ⟨h.mem, by show (if Timer.nbuf n = t then v else _) = _; rw [if_neg (fun e => ht e.symm)]; exact h.due⟩

theorem Stays.apply {s : Loop} (h : Stays n D s) (w : Write) (hw : Leaves n w) : Stays n D (s.apply c w) := by
  cases w with
  | set t r ms => exact h.put hw _
  | clear t => exact h.put hw _
  | sooner t r ms => exact h.put hw _
  | dumped i r => have := h.put (t := .update i) nofun (setTimeout s.now r (c.update i)); exact ⟨this.mem, this.due⟩
  | addNbr m =>
    have := h.put (t := .nbuf m) (fun e => hw (Timer.nbuf.inj e)) ⟨0, 0⟩
    exact ⟨List.mem_cons_of_mem _ this.mem, this.due⟩
  | delNbr m => exact ⟨List.mem_filter.2 ⟨h.mem, by simpa using fun e : n = m => hw e.symm⟩, h.due⟩
  | down i => exact ⟨h.mem, h.due⟩
  | up i r1 r2 r3 =>
    have := ((h.put (t := .hello i) nofun (setTimeout s.now r1 (c.hello i))).put (t := .update i) nofun (setTimeout s.now r2 (c.update i))).put
      (t := .hello i) nofun (setTimeout s.now r3 (c.hello i))
    exact ⟨this.mem, this.due⟩

theorem Stays.applies (l : List Write) : ∀ {s : Loop}, Stays n D s → (∀ w ∈ l, Leaves n w) → Stays n D (l.foldl (Loop.apply c) s) := by
  induction l with
  | nil => intro s h _; exact h
  | cons w l ih => intro s h hw; exact ih (h.apply w (hw w (List.mem_cons_self ..))) fun x hx => hw x (List.mem_cons_of_mem _ hx)

variable (hf : ∀ s, (j.work s (.nbuf n)).failed = true) (hl : ∀ s t, ∀ w ∈ (j.work s t).writes, Leaves n w)
include hf hl

theorem Stays.serve {s : Loop} (h : Stays n D s) (t : Timer) : Stays n D (s.serve c j t) := by
  have h1 : Stays n D ((j.work s t).writes.foldl (Loop.apply c) s) := h.applies _ (hl s t)
  by_cases e : t = .nbuf n
  · subst e
    refine ⟨h1.mem, ?_⟩
    show (if Timer.nbuf n = .nbuf n then _ else _) = _
    rw [if_pos rfl]
    show (if (j.work s (.nbuf n)).failed = true then _ else _) = _
    rw [if_pos (hf s)]
    exact h1.due
  · have := h1.put e (((j.work s t).writes.foldl (Loop.apply c) s).again c (j.work s t) t)
    exact ⟨this.mem, this.due⟩

theorem Stays.test {s : Loop} (h : Stays n D s) (t : Timer) : Stays n D (s.test c j t) := by
  unfold Loop.test
  split
  · exact h.serve hf hl t
  · exact h

theorem Stays.tests (l : List Timer) : ∀ {s : Loop}, Stays n D s → Stays n D (l.foldl (Loop.test c j) s) := by
  induction l with
  | nil => intro s h; exact h
  | cons t l ih => intro s h; exact ih (h.test hf hl t)

theorem Stays.pass {s : Loop} (h : Stays n D s) (force : Bool) : Stays n D (s.pass c j force) := by
  have h0 : Stays n D (if force then s.serve c j .dump else s.test c j .dump) := by
    cases force
    · exact h.test hf hl .dump
    · exact h.serve hf hl .dump
  exact Stays.tests hf hl _ (Stays.tests hf hl _ ((Stays.tests hf hl _ (Stays.tests hf hl _ h0)).test hf hl .resend))

/-- A turn in which the sockets are not looked at. -/
theorem Stays.turn {s : Loop} (h : Stays n D s) (T : Turn) (hp : s.polls c T.rnd T.start = false) : Stays n D (s.turn c j T) := by
  unfold Loop.turn
  rw [hp]
  have h1 : Stays n D { s with now := T.finish } := ⟨h.mem, h.due⟩
  have h2 : Stays n D (if T.reopen = true then Loop.reopen { s with now := T.finish } else { s with now := T.finish }) := by
    split
    · exact ((h1.put (t := .dump) nofun _).put (t := .nbrs) nofun _).put (t := .expiry) nofun _
    · exact h1
  exact h2.pass hf hl T.force

end

end Babel
