import Verif.Lemmas.NetlinkRead
/-
C57: reading from the netlink sockets.
-/
set_option linter.unusedSimpArgs false
set_option linter.unusedVariables false
namespace Babel
open Spec

/-- Reading the answer to a request, for example a dump of the kernel's routes.  Among the messages of
all datagrams up to the one with the end of the dump or the error, exactly those that answer the request are delivered, each
once and in order, whatever other messages there are in between; the result says if the
request was successful.  What comes after is not read. -/
theorem C57_answer (pid seqno : Nat) (filter : Bool) (before : List (List NlMsg × Bytes)) (ms : List NlMsg) (d : Bytes)
    (after : List Recv) (f : NlMsg) (hb : ∀ x ∈ before, NlDatagram x.1 x.2) (hd : NlDatagram ms d)
    (hn : ∀ x ∈ before, ∀ m ∈ x.1, m.pid = pid → m.seq = seqno → m.final = false)
    (hf : (ms.filter (fun m => decide (m.pid = pid ∧ m.seq = seqno))).find? NlMsg.final = some f) :
    netlinkRead true pid seqno none filter (before.map (fun x => Recv.data 0 x.2) ++ Recv.data 0 d :: after) =
      (((((before.map (·.1)).flatten ++ ms).filter (fun m => decide (m.pid = pid ∧ m.seq = seqno))).takeWhile
          (fun m => !m.final)).flatMap (fun m =>
            (if m.type = 16 ∨ m.type = 17 then [NlEv.checkInterfaces] else []) ++ (if filter then [NlEv.deliver m.bytes] else [])),
        some (if f.type = 3 ∨ f.isAck = true then .ok else .fail, after)) := by
  have hh : heeded true pid seqno none = fun m => decide (m.pid = pid ∧ m.seq = seqno) := by
    funext m
    unfold heeded
    by_cases h1 : m.pid = pid <;> by_cases h2 : m.seq = seqno <;> simp [h1, h2]
  have hnone : ((before.map (·.1)).flatten.filter (heeded true pid seqno none)).find? NlMsg.final = none := by
    rw [List.find?_eq_none]
    intro m hm
    rw [List.mem_filter, List.mem_flatten] at hm
    obtain ⟨⟨l, hl, hm⟩, h2⟩ := hm
    obtain ⟨x, hx, rfl⟩ := List.mem_map.1 hl
    rw [hh] at h2
    simp at h2
    rw [hn x hx m hm h2.1 h2.2]
    simp
  rw [netlinkRead_answer pid seqno filter _ before hb hnone]
  have hthis : netlinkRead true pid seqno none filter (Recv.data 0 d :: after) =
      (((ms.filter (heeded true pid seqno none)).takeWhile (fun m => !m.final)).flatMap (nlEvents filter),
        some (if f.type = 3 ∨ f.isAck = true then .ok else .fail, after)) := by
    rw [netlinkRead]
    simp only
    rw [if_neg (by simp), nlWalk_eq true pid seqno none filter hd _ (by omega) false]
    simp only
    have e : nlEnd (false || (!true && !ms.isEmpty)) (ms.filter (heeded true pid seqno none)) =
        if f.type = 3 then .done else if f.isAck then .ack else .error (-toInt (leVal (f.payload.take 4))) := by
      unfold nlEnd
      rw [hh, hf]
    rw [e]
    by_cases c1 : f.type = 3
    · rw [if_pos c1, if_pos (Or.inl c1)]
    · rw [if_neg c1]
      by_cases c2 : f.isAck = true
      · rw [if_pos c2, if_pos (Or.inr c2)]
      · rw [if_neg c2, if_neg (fun h => h.elim c1 c2)]
  rw [hthis]
  simp only
  rw [List.filter_append, hh]
  have e3 : ∀ (l1 l2 : List NlMsg), (∀ m ∈ l1, m.final = false) →
      (l1 ++ l2).takeWhile (fun m => !m.final) = l1 ++ l2.takeWhile (fun m => !m.final) := by
    intro l1 l2 h
    induction l1 with
    | nil => rfl
    | cons a l ih =>
      rw [List.cons_append, List.takeWhile_cons_of_pos (by rw [h a (List.mem_cons_self ..)]; rfl),
        ih (fun m hm => h m (List.mem_cons_of_mem _ hm))]
      rfl
  rw [e3 _ _ (by
    intro m hm
    rw [List.mem_filter, List.mem_flatten] at hm
    obtain ⟨⟨l, hl, hm⟩, h2⟩ := hm
    obtain ⟨x, hx, rfl⟩ := List.mem_map.1 hl
    simp at h2
    exact hn x hx m hm h2.1 h2.2), List.flatMap_append]
  rfl

/-- The answer is not complete: more is waited for. -/
theorem C57_wait (pid seqno : Nat) (filter : Bool) (before : List (List NlMsg × Bytes))
    (hb : ∀ x ∈ before, NlDatagram x.1 x.2)
    (hn : ∀ x ∈ before, ∀ m ∈ x.1, m.pid = pid → m.seq = seqno → m.final = false) :
    (netlinkRead true pid seqno none filter (before.map (fun x => Recv.data 0 x.2))).2 = none := by
  have hnone : ((before.map (·.1)).flatten.filter (heeded true pid seqno none)).find? NlMsg.final = none := by
    rw [List.find?_eq_none]
    intro m hm
    rw [List.mem_filter, List.mem_flatten] at hm
    obtain ⟨⟨l, hl, hm⟩, h2⟩ := hm
    obtain ⟨x, hx, rfl⟩ := List.mem_map.1 hl
    unfold heeded at h2
    simp at h2
    rw [hn x hx m hm h2.1 h2.2]
    simp
  have := netlinkRead_answer pid seqno filter [] before hb hnone
  rw [List.append_nil] at this
  rw [this]
  rfl

/-- Listening to changes: one datagram is read, and all messages of it are delivered, in order and once, except those
caused by the router's own requests (`own` is the number of the socket they are sent on), up to an end or error
message. -/
theorem C57_listen (pid seqno own : Nat) (filter : Bool) {ms : List NlMsg} {d : Bytes} (after : List Recv)
    (hd : NlDatagram ms d) (hne : ms ≠ []) :
    ∃ rc, netlinkRead false pid seqno (some own) filter (Recv.data 0 d :: after) =
      (((ms.filter (fun m => decide (m.pid ≠ own))).takeWhile (fun m => !m.final)).flatMap (fun m =>
          (if m.type = 16 ∨ m.type = 17 then [NlEv.checkInterfaces] else []) ++ (if filter then [NlEv.deliver m.bytes] else [])),
        some (rc, after)) ∧ rc ≠ .undef ∧ rc ≠ .closed ∧
      ((∀ m ∈ ms, m.type ≠ 2) → rc = .ok) := by
  have hh : heeded false pid seqno (some own) = fun m => decide (m.pid ≠ own) := by
    funext m
    unfold heeded
    by_cases h1 : m.pid = own
    · simp [h1]
    · simp [h1, Ne.symm h1]
  rw [netlinkRead]
  simp only
  rw [if_neg (by simp), nlWalk_eq false pid seqno (some own) filter hd _ (by omega) false]
  simp only
  have e0 : (false || (!false && !ms.isEmpty)) = true := by
    cases ms with
    | nil => exact absurd rfl hne
    | cons => rfl
  rw [e0, hh]
  unfold nlEnd
  cases hf : (ms.filter (fun m => decide (m.pid ≠ own))).find? NlMsg.final with
  | none => exact ⟨.ok, rfl, nofun, nofun, fun _ => rfl⟩
  | some f =>
    simp only
    by_cases c1 : f.type = 3
    · rw [if_pos c1]; exact ⟨.ok, rfl, nofun, nofun, fun _ => rfl⟩
    · rw [if_neg c1]
      by_cases c2 : f.isAck = true
      · rw [if_pos c2]; exact ⟨.ok, rfl, nofun, nofun, fun _ => rfl⟩
      · rw [if_neg c2]
        refine ⟨.fail, rfl, nofun, nofun, fun h => ?_⟩
        have h1 := List.mem_of_find?_eq_some hf
        have h2 := List.find?_some hf
        have h3 := h f (List.mem_filter.1 h1).1
        unfold NlMsg.final at h2
        simp [c1, h3] at h2

/-- A datagram that was not sent by the kernel is not used; the socket is closed at the end of the file. -/
theorem C57_others (answer : Bool) (pid seqno : Nat) (ignore : Option Nat) (filter : Bool) (after : List Recv) :
    (∀ s d, s ≠ 0 → netlinkRead answer pid seqno ignore filter (.data s d :: after) = ([], some (.fail, after))) ∧
    netlinkRead answer pid seqno ignore filter (.fail :: after) = ([], some (.fail, after)) ∧
    netlinkRead answer pid seqno ignore filter (.eof :: after) = ([], some (.closed, after)) ∧
    netlinkRead answer pid seqno ignore filter (.badName :: after) = ([], some (.closed, after)) := by
  refine ⟨fun s d hs => ?_, rfl, rfl, rfl⟩
  rw [netlinkRead]
  simp only
  rw [if_pos hs]

/-- A dump of two routes, with a notification for someone else in between, in two datagrams. -/
example : ∃ d1 d2, NlDatagram [⟨24, 2, 7, 100, [1, 2, 3]⟩, ⟨24, 0, 9, 55, []⟩] d1 ∧
    NlDatagram [⟨24, 2, 7, 100, [4]⟩, ⟨3, 2, 7, 100, [0, 0, 0, 0]⟩, ⟨24, 2, 7, 100, []⟩] d2 ∧
    netlinkRead true 100 7 none true [.data 0 d1, .data 0 d2, .eof] =
      ([.deliver (NlMsg.bytes ⟨24, 2, 7, 100, [1, 2, 3]⟩), .deliver (NlMsg.bytes ⟨24, 2, 7, 100, [4]⟩)], some (.ok, [.eof])) := by
  refine ⟨_, _, .cons [0] (by decide) (by decide) (by decide) (.last (by decide)),
    .cons [0, 0, 0] (by decide) (by decide) (by decide) (.cons [] (by decide) (by decide) (by decide) (.last (by decide))), ?_⟩
  decide +kernel

/-- Looking for a text in the message that ends a dump reads beyond the received data, because the length is not
reduced by that of the header: here the datagram has 20 bytes, and 26 bytes are read. -/
theorem C57_beyond : ∃ (d rest : Bytes), NlDatagram [⟨3, 2, 7, 100, [0, 0, 0, 0]⟩] d ∧ d.length = 20 ∧
    extackReads (d ++ rest) 0 20 true = 26 := by
  refine ⟨_, [4, 0, 2, 0] ++ List.replicate 20 0, .last (by decide), rfl, ?_⟩
  decide +kernel

/-- At most 21 bytes beyond the received data are read. -/
theorem C57_extack (buf : Bytes) (nh n : Nat) (done : Bool) (h : nh ≤ n) : extackReads buf nh n done ≤ n + 21 := by
  unfold extackReads
  dsimp only
  have := extackLoop_bound buf (n + 20) (buf.length + 1) (nh + 16 + (if done then 4 else 20))
      ((n : Int) - nh - (if done then 0 else 20)) 0 none (by cases done <;> simp <;> omega) (by omega) (by simp)
  generalize extackLoop buf (buf.length + 1) (nh + 16 + (if done then 4 else 20))
      ((n : Int) - nh - (if done then 0 else 20)) 0 none = r at this ⊢
  obtain ⟨x, y⟩ := r
  by_cases c : (!done && decide ((hrd16 buf (nh + 6)).getD 0 &&& 0x200 = 0)) = true
  · rw [if_pos c]; omega
  · rw [if_neg c]
    cases y with
    | none => simp only at this ⊢; omega
    | some i =>
      have h2 := this.2 i rfl
      simp only at this h2 ⊢
      omega

/-- Routes are asked for in all imported tables, for both families. -/
theorem C57_dump (tables : List Nat) (f t : Nat) :
    (f, t) ∈ dumpRequests true tables ↔ (f = 2 ∨ f = 10) ∧ t ∈ tables := by
  unfold dumpRequests AF_INET AF_INET6
  simp only [if_true, List.mem_flatMap, List.mem_cons, List.not_mem_nil, or_false, List.mem_map, Prod.mk.injEq]
  constructor
  · rintro ⟨g, h1, u, h2, rfl, rfl⟩
    exact ⟨h1.symm, h2⟩
  · rintro ⟨h1, h2⟩
    exact ⟨f, h1.symm, t, h2, rfl, rfl⟩

/-- The request for the routes of a table is a well-formed message of the kernel's format: a request (flag 1) for a dump
(flags 0x300) of routes (26) of this family and table. -/
theorem C57_request (family table : Nat) (seqno : UInt16) (hf : family < 256) (ht : table < 256) :
    ∃ m : RouteMsg, m.Encoded (dumpRoutesMsg family table seqno) ∧ m.type = 26 ∧ m.flags = 0x301 ∧ m.seq = seqno.toNat ∧
      m.family.toNat = family ∧ m.tableOf = table ∧ m.attrs = [] := by
  refine ⟨⟨26, 0x301, seqno.toNat, 0, UInt8.ofNat family, 0, 0, 0, UInt8.ofNat table, 0, 0, 0, 0, []⟩, ⟨[], .nil, ?_⟩, rfl, rfl,
    rfl, ?_, ?_, rfl⟩
  · unfold dumpRoutesMsg
    rw [hle32_eq seqno.toNat]
    simp only [List.append_nil]
    rfl
  · simp; omega
  · simp [RouteMsg.tableOf, attrOf]; omega

/-- For tables from 256 the property is false: the number is truncated, and another table is asked for. -/
theorem C57_large_table (seqno : UInt16) : dumpRoutesMsg 2 300 seqno = dumpRoutesMsg 2 44 seqno := rfl

/-- Whatever is received, only messages that were received completely are delivered: of at least 16 bytes, and as long as
their header says. -/
theorem C57_whole (answer : Bool) (pid seqno : Nat) (ignore : Option Nat) (filter : Bool) (rs : List Recv) (msg : Bytes)
    (h : NlEv.deliver msg ∈ (netlinkRead answer pid seqno ignore filter rs).1) :
    16 ≤ msg.length ∧ msg.length = leVal (msg.take 4) ∧ ∃ d pre post, Recv.data 0 d ∈ rs ∧ d = pre ++ msg ++ post := by
  induction rs with
  | nil => cases h
  | cons r rs ih =>
    rw [netlinkRead.eq_def] at h
    cases r with
    | fail => cases h
    | eof => cases h
    | badName => cases h
    | data sender d =>
      simp only at h
      by_cases hs : sender = 0
      case neg => rw [if_pos hs] at h; cases h
      rw [if_neg (by simp [hs])] at h
      subst hs
      have hw : NlEv.deliver msg ∈ (nlWalk answer pid seqno ignore filter (d.length + 1) d false).1 →
          16 ≤ msg.length ∧ msg.length = leVal (msg.take 4) ∧ ∃ d' pre post, Recv.data 0 d' ∈ Recv.data 0 d :: rs ∧ d' = pre ++ msg ++ post := by
        intro hm
        obtain ⟨h1, h2, pre, post, e⟩ := nlWalk_whole answer pid seqno ignore filter _ _ _ msg hm
        exact ⟨h1, h2, d, pre, post, List.mem_cons_self .., e⟩
      have hr : NlEv.deliver msg ∈ (netlinkRead answer pid seqno ignore filter rs).1 →
          16 ≤ msg.length ∧ msg.length = leVal (msg.take 4) ∧ ∃ d' pre post, Recv.data 0 d' ∈ Recv.data 0 d :: rs ∧ d' = pre ++ msg ++ post := by
        intro hm
        obtain ⟨h1, h2, d', pre, post, h3, e⟩ := ih hm
        exact ⟨h1, h2, d', pre, post, List.mem_cons_of_mem _ h3, e⟩
      cases hw2 : (nlWalk answer pid seqno ignore filter (d.length + 1) d false).2 with
      | more =>
        rw [hw2] at h
        rcases List.mem_append.1 h with h | h
        · exact hw h
        · exact hr h
      | done => rw [hw2] at h; exact hw h
      | ack => rw [hw2] at h; exact hw h
      | error e => rw [hw2] at h; exact hw h
      | undef => rw [hw2] at h; exact hw h

/-- A message that claims to be longer than what was received. -/
example : netlinkRead false 100 7 none true [.data 0 ((NlMsg.bytes ⟨24, 2, 7, 100, [1, 2, 3, 4]⟩).take 18), .eof] =
    ([], some (.closed, [])) := by decide +kernel

example : ∃ msg, NlEv.deliver msg ∈ (netlinkRead false 100 7 none true [.data 0 (NlMsg.bytes ⟨24, 2, 7, 100, [1, 2, 3, 4]⟩)]).1 :=
  ⟨NlMsg.bytes ⟨24, 2, 7, 100, [1, 2, 3, 4]⟩, by decide +kernel⟩

/-- Of an attribute that claims to be shorter than its header or longer than what follows, only the length is read, and it
ends the search. -/
theorem C57_extack_bad (buf : Bytes) (nh n l ty : Nat) (done : Bool) (hd : done = true ∨ (hrd16 buf (nh + 6)).getD 0 &&& 0x200 ≠ 0)
    (hn : nh + (if done then 4 else 24) ≤ n) (hl : hrd16 buf (nh + 16 + (if done then 4 else 20)) = some l)
    (ht : hrd16 buf (nh + 16 + (if done then 4 else 20) + 2) = some ty)
    (hb : l < 4 ∨ n < nh + (if done then 0 else 20) + l) :
    extackReads buf nh n done = nh + 16 + (if done then 4 else 20) + 2 := by
  unfold extackReads
  dsimp only
  rw [if_neg (by
    rcases hd with hd | hd
    · simp [hd]
    · simp only [Bool.and_eq_true, decide_eq_true_eq]; exact fun h => hd h.2)]
  rw [extackLoop, if_neg (by cases done <;> simp at hn ⊢ <;> omega), hl, ht]
  simp only
  rw [if_pos (by
    simp only [Bool.or_eq_true, decide_eq_true_eq]
    rcases hb with hb | hb
    · exact Or.inl hb
    · right; cases done <;> simp at hb ⊢ <;> omega)]
  simp

end Babel
