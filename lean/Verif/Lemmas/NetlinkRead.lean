import Verif.Model.NetlinkRead
import Verif.Spec.NetlinkRead
import Verif.Lemmas.Netlink2
/-
Reading from the netlink sockets.
-/
set_option linter.unusedSimpArgs false
set_option linter.unusedVariables false
namespace Babel
open Spec

/-- Is the message taken into account? -/
def heeded (answer : Bool) (pid seqno : Nat) (ignore : Option Nat) (m : NlMsg) : Bool :=
  !(ignore == some m.pid) && !(answer && (m.pid != pid || m.seq != seqno))

/-- What is done about a message. -/
def nlEvents (filter : Bool) (m : NlMsg) : List NlEv :=
  (if m.type = 16 ∨ m.type = 17 then [NlEv.checkInterfaces] else []) ++ (if filter then [NlEv.deliver m.bytes] else [])

/-- How a sequence of messages ends. -/
def nlEnd (done : Bool) (l : List NlMsg) : NlEnd :=
  match l.find? NlMsg.final with
  | some m => if m.type = 3 then .done else if m.isAck then .ack else .error (-toInt (leVal (m.payload.take 4)))
  | none => if done then .done else .more

theorem Spec.NlMsg.bytes_length (m : NlMsg) : m.bytes.length = 16 + m.payload.length := by
  simp [NlMsg.bytes, leBytes_length]; omega

theorem ack_iff (d : Bytes) (h : 4 ≤ d.length) : leVal (d.take 4) = 0 ↔ (d.take 4 == [0, 0, 0, 0]) = true := by
  match d, h with
  | a :: b :: c :: e :: t, _ =>
    simp only [List.take_succ_cons, List.take_zero, leVal, beq_iff_eq, List.cons.injEq, and_true]
    constructor
    · intro h
      refine ⟨UInt8.toNat.inj ?_, UInt8.toNat.inj ?_, UInt8.toNat.inj ?_, UInt8.toNat.inj ?_⟩ <;> simp <;> omega
    · rintro ⟨rfl, rfl, rfl, rfl⟩; rfl

/-- One message of the walk. -/
theorem nlWalk_cons (answer : Bool) (pid seqno : Nat) (ignore : Option Nat) (filter : Bool) (fuel : Nat) (m : NlMsg) (q : Bytes)
    (hm : m.Fits) (done : Bool) :
    nlWalk answer pid seqno ignore filter (fuel + 1) (m.bytes ++ q) done =
      if heeded answer pid seqno ignore m then
        if m.final then ([], nlEnd done [m])
        else
          let next := nlWalk answer pid seqno ignore filter fuel ((m.bytes ++ q).drop (align4 m.bytes.length)) (done || !answer)
          (nlEvents filter m ++ next.1, next.2)
      else nlWalk answer pid seqno ignore filter fuel ((m.bytes ++ q).drop (align4 m.bytes.length)) (done || !answer) := by
  obtain ⟨h1, h2, h3, h4, h5⟩ := hm
  have hl := m.bytes_length
  have r1 : hrd32 (m.bytes ++ q) 0 = some (16 + m.payload.length) :=
    hrd32_append' (p := []) h4 (by simp [NlMsg.bytes]; rfl) rfl
  have r2 : hrd16 (m.bytes ++ q) 4 = some m.type :=
    hrd16_append' (p := leBytes 4 (16 + m.payload.length)) h1 (by simp [NlMsg.bytes]; rfl) (by simp [leBytes_length])
  have r3 : hrd32 (m.bytes ++ q) 8 = some m.seq :=
    hrd32_append' (p := leBytes 4 (16 + m.payload.length) ++ leBytes 2 m.type ++ leBytes 2 m.flags) h2
      (by simp [NlMsg.bytes]; rfl) (by simp [leBytes_length])
  have r4 : hrd32 (m.bytes ++ q) 12 = some m.pid :=
    hrd32_append' (p := leBytes 4 (16 + m.payload.length) ++ leBytes 2 m.type ++ leBytes 2 m.flags ++ leBytes 4 m.seq) h3
      (by simp [NlMsg.bytes]; rfl) (by simp [leBytes_length])
  have r5 : 4 ≤ m.payload.length → hrd32 (m.bytes ++ q) 16 = some (leVal (m.payload.take 4)) := fun h =>
    hrd32_bytes (p := leBytes 4 (16 + m.payload.length) ++ leBytes 2 m.type ++ leBytes 2 m.flags ++ leBytes 4 m.seq ++ leBytes 4 m.pid)
      (q := q) h (by simp only [NlMsg.bytes]) (by simp [leBytes_length])
  rw [nlWalk, r1, r2, r3, r4]
  simp only
  rw [if_neg (by simp [hl])]
  have ht : (m.bytes ++ q).take (16 + m.payload.length) = m.bytes := by rw [← hl]; exact List.take_left' rfl
  rw [ht, hl]
  generalize nlWalk answer pid seqno ignore filter fuel ((m.bytes ++ q).drop (align4 (16 + m.payload.length))) (done || !answer) = next
  unfold heeded
  by_cases c1 : (ignore == some m.pid) = true
  · rw [if_pos c1, c1]; simp
  · have c1 : (ignore == some m.pid) = false := by simpa using c1
    rw [c1, if_neg (by simp)]
    by_cases c2 : (answer && (m.pid != pid || m.seq != seqno)) = true
    · rw [if_pos c2, c2]; simp
    · have c2 : (answer && (m.pid != pid || m.seq != seqno)) = false := by simpa using c2
      rw [c2, if_neg (by simp)]
      simp only [Bool.not_false, Bool.and_self, if_true]
      unfold NlMsg.final nlEnd
      by_cases c3 : m.type = 3
      · rw [if_pos (show m.type = NLMSG_DONE from c3), if_pos (by simp [c3]), List.find?_cons_of_pos (by simp [NlMsg.final, c3])]
        simp only
        rw [if_pos c3]
      · rw [if_neg (show ¬ m.type = NLMSG_DONE from c3)]
        by_cases c4 : m.type = 2
        · rw [if_pos (show m.type = NLMSG_ERROR from c4), if_pos (by simp [c4]), List.find?_cons_of_pos (by simp [NlMsg.final, c4]),
            r5 (h5 c4)]
          simp only
          rw [if_neg c3]
          unfold NlMsg.isAck
          have := ack_iff m.payload (h5 c4)
          by_cases c5 : leVal (m.payload.take 4) = 0
          · rw [if_pos c5, if_pos (this.1 c5)]
          · rw [if_neg c5, if_neg (fun h => c5 (this.2 h))]
        · rw [if_neg (show ¬ m.type = NLMSG_ERROR from c4), if_neg (show ¬ (m.type == 3 || m.type == 2) = true by simp [c3, c4])]
          rfl

/-- The walk over a datagram. -/
theorem nlWalk_eq (answer : Bool) (pid seqno : Nat) (ignore : Option Nat) (filter : Bool) {l : List NlMsg} {b : Bytes}
    (h : NlDatagram l b) (fuel : Nat) (hf : b.length < fuel) (done : Bool) :
    nlWalk answer pid seqno ignore filter fuel b done =
      let rel := l.filter (heeded answer pid seqno ignore)
      ((rel.takeWhile (fun m => !m.final)).flatMap (nlEvents filter), nlEnd (done || (!answer && !l.isEmpty)) rel) := by
  have base : ∀ fuel, 0 < fuel → ∀ done, nlWalk answer pid seqno ignore filter fuel [] done = ([], if done then .done else .more) := by
    intro fuel h0 done
    cases fuel with
    | zero => omega
    | succ n => rfl
  have step : ∀ (m : NlMsg) (l : List NlMsg) (done : Bool) (X : List NlEv × NlEnd),
      X = ((((l.filter (heeded answer pid seqno ignore)).takeWhile (fun m => !m.final)).flatMap (nlEvents filter)),
        nlEnd (done || !answer) (l.filter (heeded answer pid seqno ignore))) →
      (if heeded answer pid seqno ignore m then
        if m.final then ([], nlEnd done [m])
        else (nlEvents filter m ++ X.1, X.2)
      else X) =
      (((((m :: l).filter (heeded answer pid seqno ignore)).takeWhile (fun m => !m.final)).flatMap (nlEvents filter)),
        nlEnd (done || (!answer && !(m :: l).isEmpty)) ((m :: l).filter (heeded answer pid seqno ignore))) := by
    intro m l done X hX
    have e0 : (!answer && !(m :: l).isEmpty) = !answer := by simp
    rw [e0]
    by_cases c1 : heeded answer pid seqno ignore m = true
    · rw [if_pos c1, List.filter_cons_of_pos c1]
      by_cases c2 : m.final = true
      · rw [if_pos c2, List.takeWhile_cons_of_neg (by simp [c2])]
        unfold nlEnd
        rw [List.find?_cons_of_pos c2, List.find?_cons_of_pos c2]
        rfl
      · rw [if_neg c2, List.takeWhile_cons_of_pos (by simpa using c2), List.flatMap_cons, hX]
        simp only
        congr 1
        unfold nlEnd
        rw [List.find?_cons_of_neg c2]
    · rw [if_neg c1, List.filter_cons_of_neg c1, hX]
  induction h generalizing fuel done with
  | nil =>
    rw [base fuel (by omega)]
    simp [nlEnd]
  | @last m hm =>
    have hl := m.bytes_length
    cases fuel with
    | zero => omega
    | succ n =>
      have e : m.bytes = m.bytes ++ [] := by simp
      rw [e, nlWalk_cons _ _ _ _ _ _ _ _ hm]
      have ha := align4_le m.bytes.length
      rw [List.drop_of_length_le (by simp; omega)]
      exact step m [] done _ (by rw [base n (by omega)]; simp [nlEnd])
  | @cons m l b pad hm hp1 hp2 hd ih =>
    have hl := m.bytes_length
    cases fuel with
    | zero => omega
    | succ n =>
      rw [List.append_assoc, nlWalk_cons _ _ _ _ _ _ _ _ hm]
      have ha := align4_le m.bytes.length
      have e : align4 m.bytes.length = (m.bytes ++ pad).length := by
        simp only [List.length_append]
        have := ha.2.2
        omega
      rw [e, ← List.append_assoc, List.drop_left' rfl]
      have hlen : (m.bytes ++ pad ++ b).length = 16 + m.payload.length + pad.length + b.length := by simp [hl]; omega
      rw [hlen] at hf
      refine step m l done _ ?_
      rw [ih n (by omega) (done || !answer)]
      simp only
      congr 2
      cases answer <;> simp

theorem takeWhile_all {α : Type} {p : α → Bool} : ∀ {l : List α}, (∀ x ∈ l, p x = true) → l.takeWhile p = l
  | [], _ => rfl
  | a :: l, h => by
    rw [List.takeWhile_cons_of_pos (h a (List.mem_cons_self ..)), takeWhile_all (fun x hx => h x (List.mem_cons_of_mem _ hx))]

/-- Reading an answer that consists of several datagrams. -/
theorem netlinkRead_answer (pid seqno : Nat) (filter : Bool) (after : List Recv) :
    ∀ (dgs : List (List NlMsg × Bytes)), (∀ x ∈ dgs, NlDatagram x.1 x.2) →
      ((dgs.map (·.1)).flatten.filter (heeded true pid seqno none)).find? NlMsg.final = none →
      netlinkRead true pid seqno none filter (dgs.map (fun x => Recv.data 0 x.2) ++ after) =
        (((dgs.map (·.1)).flatten.filter (heeded true pid seqno none)).flatMap (nlEvents filter) ++
          (netlinkRead true pid seqno none filter after).1, (netlinkRead true pid seqno none filter after).2)
  | [], _, _ => by simp
  | x :: dgs, hd, hf => by
    simp only [List.map_cons, List.flatten_cons, List.filter_append, List.find?_append, Option.or_eq_none_iff] at hf
    have ih := netlinkRead_answer pid seqno filter after dgs (fun y hy => hd y (List.mem_cons_of_mem _ hy)) hf.2
    rw [List.map_cons, List.cons_append, netlinkRead]
    simp only
    rw [if_neg (by simp), nlWalk_eq true pid seqno none filter (hd x (List.mem_cons_self ..)) _ (by omega) false]
    simp only
    have e : nlEnd (false || (!true && !x.1.isEmpty)) (x.1.filter (heeded true pid seqno none)) = .more := by
      unfold nlEnd
      rw [hf.1]; rfl
    rw [e]
    simp only
    rw [ih]
    simp only [List.map_cons, List.flatten_cons, List.filter_append, List.flatMap_append, List.append_assoc]
    have e2 : (x.1.filter (heeded true pid seqno none)).takeWhile (fun m => !m.final) = x.1.filter (heeded true pid seqno none) := by
      refine takeWhile_all ?_
      intro m hm
      have := List.find?_eq_none.1 hf.1 m hm
      simpa using this
    rw [e2]

theorem extackLoop_bound (buf : Bytes) (N : Nat) : ∀ (fuel off : Nat) (len : Int) (seen : Nat) (msg : Option Nat),
    (off : Int) + len ≤ N → seen ≤ N → (∀ i, msg = some i → i ≤ N) →
    (extackLoop buf fuel off len seen msg).1 ≤ N ∧ ∀ i, (extackLoop buf fuel off len seen msg).2 = some i → i ≤ N
  | 0, _, _, _, _, _, h2, h3 => ⟨h2, h3⟩
  | fuel + 1, off, len, seen, msg, h1, h2, h3 => by
    rw [extackLoop]
    by_cases c1 : len < 4
    · rw [if_pos c1]; exact ⟨h2, h3⟩
    rw [if_neg c1]
    simp only
    have hs : max seen (off + 2) ≤ N := by omega
    cases hrd16 buf off with
    | none => exact ⟨hs, h3⟩
    | some l =>
      cases hrd16 buf (off + 2) with
      | none => exact ⟨hs, h3⟩
      | some t =>
        simp only
        split
        · exact ⟨hs, h3⟩
        · have ha := align4_le l
          refine extackLoop_bound buf N fuel _ _ _ _ (by omega) (by omega) ?_
          intro i hi
          split at hi
          · cases hi; omega
          · exact h3 i hi

theorem hrd32_val {d : Bytes} {l : Nat} (h : hrd32 d 0 = some l) : l = leVal (d.take 4) := by
  match d with
  | [] => simp [hrd32, hrd16] at h
  | [a] => simp [hrd32, hrd16] at h
  | [a, b] => simp [hrd32, hrd16] at h
  | [a, b, c] => simp [hrd32, hrd16] at h
  | a :: b :: c :: e :: t =>
    simp [hrd32, hrd16] at h
    simp [leVal]
    omega

/-- Only complete messages are delivered. -/
theorem nlWalk_whole (answer : Bool) (pid seqno : Nat) (ignore : Option Nat) (filter : Bool) :
    ∀ (fuel : Nat) (d : Bytes) (done : Bool) (msg : Bytes),
      NlEv.deliver msg ∈ (nlWalk answer pid seqno ignore filter fuel d done).1 →
      16 ≤ msg.length ∧ msg.length = leVal (msg.take 4) ∧ ∃ pre post, d = pre ++ msg ++ post := by
  intro fuel
  induction fuel with
  | zero => intro d done msg h; cases h
  | succ fuel ih =>
    intro d done msg h
    rw [nlWalk] at h
    cases h1 : hrd32 d 0 with
    | none => rw [h1] at h; cases h
    | some l =>
    cases h2 : hrd16 d 4 with
    | none => rw [h1, h2] at h; cases h
    | some type =>
    cases h3 : hrd32 d 8 with
    | none => rw [h1, h2, h3] at h; cases h
    | some seq =>
    cases h4 : hrd32 d 12 with
    | none => rw [h1, h2, h3, h4] at h; cases h
    | some p =>
    rw [h1, h2, h3, h4] at h
    simp only at h
    by_cases c : (decide (l < 16) || decide (l > d.length)) = true
    · rw [if_pos c] at h; cases h
    rw [if_neg c] at h
    simp at c
    have hnext : NlEv.deliver msg ∈ (nlWalk answer pid seqno ignore filter fuel (d.drop (align4 l)) (done || !answer)).1 →
        16 ≤ msg.length ∧ msg.length = leVal (msg.take 4) ∧ ∃ pre post, d = pre ++ msg ++ post := by
      intro hm
      obtain ⟨e1, e2, pre, post, e3⟩ := ih _ _ _ hm
      refine ⟨e1, e2, d.take (align4 l) ++ pre, post, ?_⟩
      rw [← List.take_append_drop (align4 l) d]
      conv => lhs; rw [e3]
      simp
    by_cases c1 : (ignore == some p) = true
    · rw [if_pos c1] at h; exact hnext h
    rw [if_neg c1] at h
    by_cases c2 : (answer && (p != pid || seq != seqno)) = true
    · rw [if_pos c2] at h; exact hnext h
    rw [if_neg c2] at h
    by_cases c3 : type = NLMSG_DONE
    · rw [if_pos c3] at h; cases h
    rw [if_neg c3] at h
    by_cases c4 : type = NLMSG_ERROR
    · rw [if_pos c4] at h
      cases h5 : hrd32 d 16 with
      | none => rw [h5] at h; cases h
      | some e => rw [h5] at h; cases h
    rw [if_neg c4] at h
    rcases List.mem_append.1 h with h | h
    · rcases List.mem_append.1 h with h | h
      · split at h
        · rcases List.mem_cons.1 h with h | h <;> cases h
        · cases h
      · split at h
        · rcases List.mem_cons.1 h with h | h
          · cases h
            refine ⟨by rw [List.length_take]; omega, ?_, [], d.drop l, by simp⟩
            rw [List.length_take, List.take_take, show min 4 l = 4 by omega, show min l d.length = l by omega]
            exact hrd32_val h1
          · cases h
        · cases h
    · exact hnext h

end Babel
