import Verif.Lemmas.Restart
/-
C45: the sequence number after a restart.
-/
set_option linter.unusedSimpArgs false
set_option linter.unusedVariables false
namespace Babel
open Spec

/-- What is written on shutdown is read back at the next start: the sequence number continues with
the next value, also when it wraps around. -/
theorem C45_next (random : Nat) (q : UInt16) : startSeqno random (saveState true true q) true true = q + 1 :=
  restart_seqno random q

example : saveState true true 65535 = some (ascii "65535\n") ∧
    startSeqno 77 (some (ascii "65535\n")) true true = 0 ∧
    startSeqno 77 (some (ascii "12")) true true = 13 ∧
    startSeqno 77 (some (ascii "65536\n")) true true = 77 ∧
    startSeqno 77 (some (ascii "-1\n")) true true = 77 ∧
    startSeqno 77 (some (ascii "x\n")) true true = 77 := by decide +kernel

/-- After any number of lives ended by orderly shutdowns, the sequence number with which the router
starts is newer than all those with which it ever announced a destination as its own, as long as there
were no more than 32768 changes of its sequence number. -/
theorem C45_newer (c : Cfg) (q : UInt16) (ls : List Life) (hn : livesBumps c q ls ≤ 32768)
    (i : IfId) (k : PKey) (x : UInt16) (m : Nat) (h : Out.update i c.myid k x m ∈ (lives c q ls).1) :
    seqnoCompare (lives c q ls).2 x > 0 := by
  obtain ⟨h1, h2⟩ := lives_own c ls q q 0 (by simp)
  obtain ⟨j, hj, e⟩ := h2 i k x m h
  rw [seqnoCompare_pos, h1, e]
  unfold NewerEq
  have : ∀ a b : Nat, j < a → a ≤ 32768 → (q + UInt16.ofNat a - (q + UInt16.ofNat j)).toNat = a - j := by
    intro a b h1 h2
    have := q.toNat_lt
    simp [UInt16.toNat_add, UInt16.toNat_sub]
    omega
  rw [Nat.zero_add] at hj ⊢
  rw [this _ 0 hj hn]
  omega

/-- Two lives; in the first the router is asked for a new sequence number. -/
def Demo.lives : List Life :=
  [⟨⟨1000, 0⟩, [Demo.iface 10, Demo.iface 20], fun _ => 96, fun _ => 0, fun _ => .ok,
      [.kernelRoute true ⟨Demo.key 2, 0, 30, 4⟩, .seqnoRequest 1 (Demo.key 2) 5 6 (Demo.rid 1), .flushUpdates 10], 0⟩,
   ⟨⟨2000, 0⟩, [Demo.iface 10, Demo.iface 20], fun _ => 96, fun _ => 0, fun _ => .ok,
      [.kernelRoute true ⟨Demo.key 2, 0, 30, 4⟩, .flushUpdates 10], 0⟩]

example : livesBumps Demo.cfg 5 Demo.lives = 3 ∧ (lives Demo.cfg 5 Demo.lives).2 = 8 := by decide +kernel
example : (lives Demo.cfg 5 Demo.lives).1.filter (fun o => match o with | .update .. => true | _ => false) =
    [.update 10 Demo.cfg.myid (Demo.key 2) 7 0, .update 10 Demo.cfg.myid (Demo.key 2) 6 0] := by decide +kernel

/-- After a crash there is no state file; the sequence number is then random, and can be older than
those used before. -/
theorem C45_crash (random : Nat) (a b : Bool) : startSeqno random none a b = UInt16.ofNat random := rfl

/-- No state is left behind unless it was written completely; and a state file that cannot be removed or read is not
used. -/
theorem C45_errors (random : Nat) (file : Option Bytes) (o w a b : Bool) (q : UInt16) :
    (saveState o w q ≠ none → o = true ∧ w = true) ∧
    (a = false ∨ b = false → startSeqno random file a b = UInt16.ofNat random) := by
  constructor
  · unfold saveState
    cases o <;> cases w <;> simp
  · unfold startSeqno
    cases file <;> cases a <;> cases b <;> simp

example : seqnoCompare (startSeqno 4 none true true) 6 < 0 := by decide

end Babel
