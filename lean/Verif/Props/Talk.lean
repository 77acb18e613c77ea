import Verif.Lemmas.Talk
import Verif.Props.NetlinkRead
/-
C82: a command to the kernel is taken to have been carried out only if the kernel says so.
-/
set_option linter.unusedVariables false
namespace Babel
open Spec

/-- Whatever `sendmsg` and `recvmsg` return, a command is taken to have been carried out only if the last datagram read came from the
kernel and says so, for this very command. -/
theorem C82_confirmed (pid len : Nat) (seqno : UInt16) (first second : SendRes) (wait : Int) (rs rest : List Recv)
    (h : (netlinkTalk pid seqno len first wait second rs).2 = some (.ok, rest)) :
    ∃ used d, rs = used ++ Recv.data 0 d :: rest ∧ Confirms d pid (seqno + 1).toNat := by
  unfold netlinkTalk at h
  simp only at h
  split at h
  · cases h
  · exact netlinkRead_confirms _ _ _ _ _ h

/-- If it was sent completely, then the result is what the kernel says in the first final message that answers it; messages
that answer other commands, or that are not addressed to this socket, are passed over. -/
theorem C82_answer (pid len : Nat) (seqno : UInt16) (first second : SendRes) (wait : Int) (before : List (List NlMsg × Bytes))
    (ms : List NlMsg) (d : Bytes) (after : List Recv) (f : NlMsg) (hlen : len < 4294967296) (hs : SentWhole len first wait second)
    (hb : ∀ x ∈ before, NlDatagram x.1 x.2) (hd : NlDatagram ms d)
    (hn : ∀ x ∈ before, ∀ m ∈ x.1, m.pid = pid → m.seq = (seqno + 1).toNat → m.final = false)
    (hf : (ms.filter (fun m => decide (m.pid = pid ∧ m.seq = (seqno + 1).toNat))).find? NlMsg.final = some f) :
    netlinkTalk pid seqno len first wait second (before.map (fun x => Recv.data 0 x.2) ++ Recv.data 0 d :: after) =
      (seqno + 1, some (if f.type = 3 ∨ f.isAck = true then .ok else .fail, after)) := by
  have hrc : sendTwice first wait second = len := by
    unfold sendTwice
    rcases hs with rfl | ⟨rfl, h1, rfl⟩
    · rfl
    · rw [if_pos rfl, if_neg (by omega)]; rfl
  have hns : shortSend (sendTwice first wait second) len = false := by
    rw [hrc]; unfold shortSend; simp only [decide_eq_false_iff_not]; omega
  unfold netlinkTalk
  simp only
  rw [hns, C57_answer pid (seqno + 1).toNat false before ms d after f hb hd hn hf]
  simp

/-- If only a part was sent, or the socket does not become writable in time, the command has failed, and nothing is read. -/
theorem C82_short (pid len n : Nat) (seqno : UInt16) (second : SendRes) (wait : Int) (rs : List Recv)
    (hn : n < len) (hl : len < 4294967296) :
    netlinkTalk pid seqno len (.sent n) wait second rs = (seqno + 1, some (.fail, rs)) ∧
    netlinkTalk pid seqno len .again 0 second rs = (seqno + 1, some (.fail, rs)) ∧
    (0 < wait → netlinkTalk pid seqno len .again wait (.sent n) rs = (seqno + 1, some (.fail, rs))) ∧
    sendDump seqno (len - 16) (.sent n) = (if len - 16 = 0 then seqno else seqno + 1, -1) := by
  have hs : ∀ k : Nat, k < len → shortSend (k : Int) len = true := by
    intro k hk; unfold shortSend; simp only [decide_eq_true_eq]; omega
  have key : ∀ (k : Nat) f w s, k < len → sendTwice f w s = (k : Int) → netlinkTalk pid seqno len f w s rs = (seqno + 1, some (.fail, rs)) := by
    intro k f w s hk e
    unfold netlinkTalk
    simp only [e]
    rw [if_pos (hs k hk)]
  refine ⟨key n _ _ _ hn rfl, key 0 _ _ _ (by omega) rfl, fun hw => key n _ _ _ hn ?_, ?_⟩
  · unfold sendTwice
    rw [if_pos rfl, if_neg (by omega)]; rfl
  · unfold sendDump
    by_cases h : len - 16 = 0
    · rw [if_pos h, if_pos h]
    · rw [if_neg h, if_neg h]
      simp only
      rw [if_pos (by have := hs n hn; rw [show 16 + (len - 16) = len by omega]; exact this)]

/-- A request for a dump that `sendmsg` accepts is reported as sent exactly if it was sent completely, with its header of 16 bytes; there must be some data. -/
theorem C82_dump (seqno : UInt16) (len n : Nat) (hn : n < 4294967296) :
    ((sendDump seqno len (.sent n)).2 = 0 ↔ len ≠ 0 ∧ 16 + len ≤ n) ∧
    (len ≠ 0 → (sendDump seqno len (.sent n)).1 = seqno + 1) := by
  unfold sendDump
  by_cases h : len = 0
  · rw [if_pos h]; simp [h]
  · rw [if_neg h]
    simp only
    by_cases hs : n < 16 + len
    · rw [if_pos (by unfold shortSend SendRes.rc; simp only [decide_eq_true_eq]; omega)]
      simp; omega
    · rw [if_neg (by unfold shortSend SendRes.rc; simp only [decide_eq_true_eq]; omega)]
      simp; omega

/-- If `sendmsg` fails, this is not noticed: -1 is compared with the length as an unsigned number.  The answer to a command that
was not sent is waited for, and a request for a dump that was not sent is reported as sent. -/
theorem C82_failure_false (pid len : Nat) (seqno : UInt16) (second : SendRes) (wait : Int) (rs : List Recv) (hl : len < 4294967280) :
    netlinkTalk pid seqno len .other wait second rs = (seqno + 1, (netlinkRead true pid (seqno + 1).toNat none false rs).2) ∧
    netlinkTalk pid seqno len .again (-1) second rs = (seqno + 1, (netlinkRead true pid (seqno + 1).toNat none false rs).2) ∧
    (0 < wait → netlinkTalk pid seqno len .again wait .other rs = (seqno + 1, (netlinkRead true pid (seqno + 1).toNat none false rs).2)) ∧
    netlinkTalk pid seqno len .other wait second [] = (seqno + 1, none) ∧
    (len ≠ 0 → sendDump seqno len .other = (seqno + 1, 0)) := by
  have hs : ∀ k, k < 4294967295 + 1 → shortSend (-1) k = false := by
    intro k hk; unfold shortSend; simp only [decide_eq_false_iff_not]; omega
  have e : ∀ f w s rs, sendTwice f w s = -1 →
      netlinkTalk pid seqno len f w s rs = (seqno + 1, (netlinkRead true pid (seqno + 1).toNat none false rs).2) := by
    intro f w s rs e2
    unfold netlinkTalk
    simp only [e2]
    rw [hs len (by omega)]
    rfl
  refine ⟨e _ _ _ rs rfl, e _ _ _ rs rfl, fun hw => e _ _ _ rs ?_, ?_, ?_⟩
  · unfold sendTwice; rw [if_pos rfl, if_neg (by omega)]; rfl
  · rw [e _ _ _ _ rfl]; rfl
  · intro h0
    unfold sendDump
    rw [if_neg h0]
    simp only
    rw [show SendRes.other.rc = -1 from rfl, hs (16 + len) (by omega)]
    rfl

/-- The numbers of two commands with fewer than 65536 others in between are different, so that the answer to one is not taken for
the answer to the other. -/
theorem C82_numbers (seqno : UInt16) (cmds : List (Nat × Nat × SendRes × Int × SendRes × List Recv)) (h0 : cmds ≠ [])
    (h : cmds.length < 65536) :
    cmds.foldl (fun q c => (netlinkTalk c.1 q c.2.1 c.2.2.1 c.2.2.2.1 c.2.2.2.2.1 c.2.2.2.2.2).1) seqno ≠ seqno := by
  have e : ∀ (l : List (Nat × Nat × SendRes × Int × SendRes × List Recv)) (q : UInt16),
      (l.foldl (fun q c => (netlinkTalk c.1 q c.2.1 c.2.2.1 c.2.2.2.1 c.2.2.2.2.1 c.2.2.2.2.2).1) q).toNat = (q.toNat + l.length) % 65536 := by
    intro l
    induction l with
    | nil => intro q; have := q.toNat_lt; simp
    | cons c l ih =>
      intro q
      rw [List.foldl_cons, ih]
      have : (netlinkTalk c.1 q c.2.1 c.2.2.1 c.2.2.2.1 c.2.2.2.2.1 c.2.2.2.2.2).1 = q + 1 := by
        unfold netlinkTalk; simp only; split <;> rfl
      rw [this, UInt16.toNat_add, List.length_cons]
      show (((q.toNat + 1) % 65536) + l.length) % 65536 = _
      omega
  intro hh
  have := e cmds seqno
  rw [hh] at this
  have h1 := seqno.toNat_lt
  have h2 : 0 < cmds.length := List.length_pos_iff.2 h0
  omega

/-! A command of 60 bytes that is sent at the second attempt; the answer to the previous one, which came too late, is passed over. -/
example : ∃ d1 d2, NlDatagram [⟨2, 0, 7, 100, [0, 0, 0, 0]⟩] d1 ∧ NlDatagram [⟨2, 0, 8, 100, [0xEF, 0xFF, 0xFF, 0xFF]⟩] d2 ∧
    netlinkTalk 100 7 60 .again 1 (.sent 60) [.data 0 d1, .data 0 d2, .fail] = (8, some (.fail, [.fail])) := by
  refine ⟨_, _, .last (by decide), .last (by decide), ?_⟩
  decide +kernel

/-! The same, acknowledged. -/
example : ∃ d1 d2, NlDatagram [⟨2, 0, 7, 100, [0xEF, 0xFF, 0xFF, 0xFF]⟩] d1 ∧ NlDatagram [⟨2, 0, 8, 100, [0, 0, 0, 0]⟩] d2 ∧
    netlinkTalk 100 7 60 (.sent 60) 0 .other [.data 0 d1, .data 0 d2, .fail] = (8, some (.ok, [.fail])) := by
  refine ⟨_, _, .last (by decide), .last (by decide), ?_⟩
  decide +kernel

end Babel
