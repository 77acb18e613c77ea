import Verif.Lemmas.Stuck
import Verif.Props.Loop
import Verif.Props.Buffer
/-
C67: packets that cannot be signed.
-/
set_option linter.unusedVariables false
namespace Babel
open Spec

/-- C67: the timer of a buffer is cleared when it is flushed, unless a packet cannot be signed; then nothing is sent, and the
buffer and its timer are kept. -/
theorem C67_flush {o : Orc} {c : SIf} {now : Timeval} {t t' : Tx} (h : flushbuf o c now t = some t') :
    (t'.buf.timeout = ⟨0, 0⟩ ∧ t'.buf.bytes = []) ∨
    (∃ k, c.key = some k ∧ k.none = false ∧ t'.out = t.out ∧ t'.buf.timeout = t.buf.timeout ∧ t.buf.bytes ≠ [] ∧
      t.buf.bytes.length ≤ t'.buf.bytes.length) := by
  unfold flushbuf at h
  split at h
  · cases h
  · split at h
    · next hne =>
      simp only [Option.bind_eq_bind] at h
      obtain ⟨t1, h1, h⟩ := Option.bind_eq_some_iff.1 h
      obtain ⟨b, h2, h⟩ := Option.bind_eq_some_iff.1 h
      obtain ⟨tr, h3, h⟩ := Option.bind_eq_some_iff.1 h
      cases tr with
      | some tr =>
        cases h
        exact .inl ⟨rfl, rfl⟩
      | none =>
        cases h
        right
        have p1 := addPc_grow h1
        have p2 := fillRtt_grow h2
        have hk : ∃ k, c.key = some k ∧ k.none = false := by
          unfold trailer SIf.auth at h3
          cases hc : c.key with
          | none => rw [hc] at h3; cases h3
          | some k =>
            cases hn : k.none with
            | true => rw [hc] at h3; simp only [hn, if_true] at h3; cases h3
            | false => exact ⟨k, rfl, hn⟩
        obtain ⟨k, hk1, hk2⟩ := hk
        refine ⟨k, hk1, hk2, p1.1, p2.1.trans p1.2.1, ?_, Nat.le_trans p1.2.2 p2.2⟩
        intro e
        rw [e] at hne
        exact absurd hne (by decide)
    · cases h
      exact .inl ⟨rfl, rfl⟩

/-- C67: on an interface with a key and without an address, such as one that has gone down (interface.c:512-515), nothing is sent and the
timer stays as it is. -/
theorem C67_no_address {o : Orc} {c : SIf} {now : Timeval} {t t' : Tx} {k : Key} (hk : c.key = some k) (hn : k.none = false)
    (hl : c.ll = []) (hb : t.buf.bytes ≠ []) (h : flushbuf o c now t = some t') :
    t'.out = t.out ∧ t'.buf.timeout = t.buf.timeout ∧ t'.buf.bytes ≠ [] := by
  rcases C67_flush h with h' | ⟨_, _, _, h1, h2, h3, h4⟩
  · exfalso
    unfold flushbuf at h
    split at h
    · cases h
    · have hpos : t.buf.bytes.length > 0 := List.length_pos_iff.2 hb
      rw [if_pos hpos] at h
      simp only [Option.bind_eq_bind] at h
      obtain ⟨t1, g1, h⟩ := Option.bind_eq_some_iff.1 h
      obtain ⟨b, g2, h⟩ := Option.bind_eq_some_iff.1 h
      have ht : trailer c b = some none := by
        unfold trailer SIf.auth
        rw [hk]
        simp only [hn, Bool.false_eq_true, if_false]
        unfold addHmac
        rw [hl]
      rw [ht] at h
      simp only [Option.bind_some] at h
      cases h
      have e : b.bytes = [] := h'.2
      have p1 := (addPc_grow g1).2.2
      have this := (fillRtt_grow g2).2
      rw [e] at this
      have hz : t.buf.bytes.length ≤ 0 := Nat.le_trans p1 this
      omega
  · refine ⟨h1, h2, fun e => ?_⟩
    rw [e] at h4
    exact h3 (List.eq_nil_of_length_eq_zero (Nat.le_zero.1 h4))

/-- Ten bytes are waiting for a neighbour when the interface goes down.  They stay, and so does the deadline; a counter is added. -/
example : let t : Tx := { buf := { dst := DemoBuf.id1 ++ DemoBuf.id1, size := 460, flushInterval := 4000,
                                   bytes := [5, 2, 0, 0, 3, 4, 5, 6, 7, 8], timeout := ⟨1000, 0⟩ } }
    (flushbuf DemoBuf.o { DemoBuf.c with ll := [], up := false } ⟨1001, 0⟩ t).map (fun t' => (t'.out, t'.buf.timeout, t'.buf.bytes.length)) =
      some ([], ⟨1000, 0⟩, 24) := by
  decide +kernel

section
variable {c : LoopCfg} {j : Jobs} {n : NeighId} {s : Loop}

/-- C67: as long as packets for a neighbour cannot be signed, and nothing happens to this neighbour or its buffer, the loop never
looks at its sockets once the deadline of the buffer has passed. -/
theorem C67_stuck (hf : ∀ s, (j.work s (.nbuf n)).failed = true) (hl : ∀ s t, ∀ w ∈ (j.work s t).writes, Leaves n w)
    (hn : n ∈ s.nbrs) (h0 : (s.due (.nbuf n)).sec ≠ 0) : ∀ (turns : List Turn) (T : Turn),
    (∀ T' ∈ turns ++ [T], timevalCompare (s.due (.nbuf n)) T'.start ≤ 0) →
    (s.run c j turns).polls c T.rnd T.start = false ∧ n ∈ (s.run c j turns).nbrs ∧ (s.run c j turns).due (.nbuf n) = s.due (.nbuf n) := by
  intro turns T hT
  obtain ⟨D, hD⟩ : ∃ D, D = s.due (.nbuf n) := ⟨_, rfl⟩
  have hs : Stays n D s := ⟨hn, hD.symm⟩
  rw [← hD] at hT h0 ⊢
  clear hn hD
  induction turns generalizing s with
  | nil =>
    refine ⟨?_, hs.mem, hs.due⟩
    refine polls_stuck (s := s) hs.mem (by rw [hs.due]; exact h0) ?_
    rw [hs.due]
    exact hT T (by simp)
  | cons T' l ih =>
    have hp : s.polls c T'.rnd T'.start = false := by
      refine polls_stuck hs.mem (by rw [hs.due]; exact h0) ?_
      rw [hs.due]
      exact hT T' (by simp)
    have := ih (s := s.turn c j T') (fun x hx => hT x (List.mem_cons_of_mem _ hx)) (hs.turn hf hl T' hp)
    simp only [Loop.run, List.foldl_cons] at this ⊢
    exact this

/-- C67: then whatever arrives on the sockets makes no difference. -/
theorem C67_deaf (hf : ∀ s, (j.work s (.nbuf n)).failed = true) (hl : ∀ s t, ∀ w ∈ (j.work s t).writes, Leaves n w)
    (hn : n ∈ s.nbrs) (h0 : (s.due (.nbuf n)).sec ≠ 0) (turns : List Turn)
    (hT : ∀ T ∈ turns, timevalCompare (s.due (.nbuf n)) T.start ≤ 0) (input : Turn → List Write) :
    s.run c j (turns.map fun T => { T with input := input T }) = s.run c j turns := by
  obtain ⟨D, hD⟩ : ∃ D, D = s.due (.nbuf n) := ⟨_, rfl⟩
  have hs : Stays n D s := ⟨hn, hD.symm⟩
  rw [← hD] at hT h0
  clear hn hD
  induction turns generalizing s with
  | nil => rfl
  | cons T l ih =>
    have hp : s.polls c T.rnd T.start = false := by
      refine polls_stuck hs.mem (by rw [hs.due]; exact h0) ?_
      rw [hs.due]
      exact hT T (by simp)
    have e : s.turn c j { T with input := input T } = s.turn c j T := by
      unfold Loop.turn
      simp only [hp, Bool.false_eq_true, if_false]
    have := ih (s := s.turn c j T) (fun x hx => hT x (List.mem_cons_of_mem _ hx)) (hs.turn hf hl T hp)
    simp only [Loop.run, List.map_cons, List.foldl_cons] at this ⊢
    rw [e]
    exact this

end

namespace StuckDemo

/-- As in LoopDemo, but packets cannot be signed. -/
def jobs : Jobs where
  work s t := { LoopDemo.jobs.work s t with failed := true }

/-- The interface of neighbour 1 has gone down while a packet for it was due at 1001 s. -/
def start : Loop :=
  { LoopDemo.start with
    nbrs := [1]
    due := fun t => if t = .nbuf 1 then ⟨1001, 0⟩ else LoopDemo.start.due t }

/-- A packet creates neighbour 2, one second later every time. -/
def turns : List Turn :=
  [⟨⟨1001, 0⟩, fun _ => 0, ⟨1001, 0⟩, [.addNbr 2], false, false⟩, ⟨⟨1002, 0⟩, fun _ => 0, ⟨1002, 0⟩, [.addNbr 2], false, false⟩,
   ⟨⟨1050, 0⟩, fun _ => 0, ⟨1050, 0⟩, [.addNbr 2], false, false⟩]

theorem leaves (s : Loop) (t : Timer) : ∀ w ∈ (jobs.work s t).writes, Leaves 1 w := by
  intro w hw
  have hw : w ∈ (LoopDemo.jobs.work s t).writes := hw
  cases t <;> first | (cases hw; done) | (rw [List.mem_singleton.1 hw]; exact nofun)

example (T : Turn) (hT : timevalCompare ⟨1001, 0⟩ T.start ≤ 0) :
    (start.run LoopDemo.c jobs turns).polls LoopDemo.c T.rnd T.start = false := by
  refine (C67_stuck (j := jobs) (n := 1) (s := start) (fun _ => rfl) leaves (List.mem_singleton.2 rfl) (by decide) turns T fun T' h => ?_).1
  rcases List.mem_append.1 h with h | h
  · have : ∀ T' ∈ turns, timevalCompare (start.due (.nbuf 1)) T'.start ≤ 0 := by decide
    exact this T' h
  · rw [List.mem_singleton.1 h]; exact hT

example : start.run LoopDemo.c jobs (turns.map fun T => { T with input := [] }) = start.run LoopDemo.c jobs turns :=
  C67_deaf (j := jobs) (n := 1) (fun _ => rfl) leaves (List.mem_singleton.2 rfl) (by decide) turns (by decide) fun _ => []

/-- Neighbour 2 is found if packets can be signed. -/
example : (start.run LoopDemo.c LoopDemo.jobs turns).nbrs = [2, 1] ∧ (start.run LoopDemo.c jobs turns).nbrs = [1] := by decide +kernel

end StuckDemo
end Babel
