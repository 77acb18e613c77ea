import Verif.Lemmas.Sockets2
/-
C76: the sockets of the daemon are set up as they should be, or the daemon does not start; packets are sent at most once and whole; those received
come from an interface on which Babel runs.
-/
set_option linter.unusedVariables false
namespace Babel
open Spec

/-- The socket for packets.  It is made if and only if all calls but the sixth (the traffic class) succeed; it is then as it should be, and otherwise nothing
stays open. -/
theorem C76_protocol {o : Os} (ho : FdsOk o) (port : Nat) :
    ((babelSocket o port).1.isSome = true ↔ ∀ i < 13, i ≠ 6 → o.fate i = none) ∧
    (∀ fd, (babelSocket o port).1 = some fd → Opened o (babelSocket o port).2 (ProtocolSock port) fd) ∧
    ((babelSocket o port).1 = none → (babelSocket o port).2.socks = o.socks) ∧
    (babelSocket o port).2.files = o.files :=
  have h := babel_spec ho port
  ⟨h.2.2.2.2, h.2.2.2.1, h.2.2.1, h.2.1⟩

/-- The socket for clients on a TCP port. -/
theorem C76_server {o : Os} (ho : FdsOk o) (port : Nat) (onlyLocal : Bool) :
    ((tcpServerSocket o port onlyLocal).1.isSome = true ↔ ∀ i < 8, o.fate i = none) ∧
    (∀ fd, (tcpServerSocket o port onlyLocal).1 = some fd →
      Opened o (tcpServerSocket o port onlyLocal).2 (ServerSock (.ip6 (List.replicate 15 0 ++ [if onlyLocal then 1 else 0]) port)) fd) ∧
    ((tcpServerSocket o port onlyLocal).1 = none → (tcpServerSocket o port onlyLocal).2.socks = o.socks) ∧
    (tcpServerSocket o port onlyLocal).2.files = o.files := by
  have h := tcp_spec ho port onlyLocal
  refine ⟨h.2.2.2.2, fun fd hfd => ?_, h.2.2.1, h.2.1⟩
  have := h.2.2.2.1 fd hfd
  cases onlyLocal with
  | true => exact this
  | false => exact this

/-- The socket for clients in the file system.  If it cannot be made neither a socket nor a file is left behind, and a file that was there stays. -/
theorem C76_unix {o : Os} (ho : FdsOk o) (path : Bytes) :
    ((unixServerSocket o path).1.isSome = true ↔ path.length < 108 ∧ path ∉ o.files ∧ ∀ i < 7, o.fate i = none) ∧
    (∀ fd, (unixServerSocket o path).1 = some fd → Opened o (unixServerSocket o path).2 (ServerSock (.path path)) fd ∧ (unixServerSocket o path).2.files = path :: o.files) ∧
    ((unixServerSocket o path).1 = none → (unixServerSocket o path).2.socks = o.socks ∧ (unixServerSocket o path).2.files = o.files) := by
  obtain ⟨_, h2, h3, h4⟩ := unix_spec ho path
  refine ⟨h4, fun fd hfd => ?_, h2⟩
  obtain ⟨⟨a, s, b, c⟩, d⟩ := h3 fd hfd
  exact ⟨⟨a, s, b, c.2⟩, d⟩

/-- A daemon that is killed leaves the file of its socket, and then no daemon with the same settings can start. -/
theorem C76_stale {o o' : Os} (ho : FdsOk o) {path : Bytes} {fd : Nat} (h : unixServerSocket o path = (some fd, o')) (fate : Nat → Option SysErr) (port : Nat) :
    (openSockets { socks := [], files := o'.files, fate := fate, next := 3, errno := none } port (.path path)).1 = none := by
  have hf : o'.files = path :: o.files := by
    have := ((unix_spec ho path).2.2.1 fd (by rw [h])).2
    rwa [h] at this
  cases hs : openSockets { socks := [], files := o'.files, fate := fate, next := 3, errno := none } port (.path path) with
  | mk r o2 =>
  cases r with
  | none => rfl
  | some S =>
    exfalso
    obtain ⟨_, dg, cmd, leak, pr, l, o1, o3, o4, o5, o6, _, _, _, _, _, _, _, _, _, hfiles, hsv⟩ :=
      open_spec (o := { socks := [], files := o'.files, fate := fate, next := 3, errno := none }) (fun p hp => by cases hp) port (.path path) hs
    -- the last step of `openSockets`
    unfold openSockets at hs
    have key : ∀ (p : Os), FdsOk p → path ∈ p.files → (openServer p (.path path)).1 = none := by
      intro p hp hm
      have := (unix_spec hp path).2.2.2
      show Option.map some (unixServerSocket p path).1 = none
      cases hx : (unixServerSocket p path).1 with
      | none => rfl
      | some f =>
        rw [hx] at this
        exact absurd hm (this.1 rfl).2.1
    obtain ⟨s1, s2, s3, s4⟩ := socket_spec (o := { socks := [], files := o'.files, fate := fate, next := 3, errno := none }) (fun p hp => by cases hp) .udp
    cases hu : Os.socket { socks := [], files := o'.files, fate := fate, next := 3, errno := none } .udp with
    | mk a p1 =>
    rw [hu] at hs s2 s4
    simp only at s2 s4
    rcases s4 with ⟨-, t1, -, -⟩ | ⟨-, t1, t2, t3⟩
    · subst t1; cases hs
    subst t1
    have f1 : FdsOk p1 := by
      intro p hp
      rw [t2] at hp
      rw [t3]
      rcases List.mem_cons.1 hp with rfl | hp
      · exact Nat.lt_succ_self _
      · cases hp
    simp only at hs
    have a := netlink_spec f1 0
    cases h2 : netlinkSocket p1 0 with
    | mk r p2 =>
    rw [h2] at hs a
    obtain ⟨f2, w2, -⟩ := a
    cases r with
    | none => cases hs
    | some _ =>
    simp only at hs
    have a := netlink_spec f2 listenGroups
    cases h3 : netlinkSocket p2 listenGroups with
    | mk r p3 =>
    rw [h3] at hs a
    obtain ⟨f3, w3, -⟩ := a
    cases r with
    | none => cases hs
    | some _ =>
    simp only at hs
    have a := babel_spec f3 port
    cases h4 : babelSocket p3 port with
    | mk r p4 =>
    rw [h4] at hs a
    obtain ⟨f4, w4, -⟩ := a
    cases r with
    | none => cases hs
    | some _ =>
    simp only at hs
    have a := netlink_spec f4 listenGroups
    cases h5 : netlinkSocket p4 listenGroups with
    | mk r p5 =>
    rw [h5] at hs a
    obtain ⟨f5, w5, -⟩ := a
    cases r with
    | none => cases hs
    | some _ =>
    simp only at hs
    have hm : path ∈ p5.files := by
      rw [w5, w4, w3, w2, s2, hf]
      exact List.mem_cons_self ..
    have := key p5 f5 hm
    cases h6 : openServer p5 (.path path) with
    | mk r p6 =>
    rw [h6] at hs this
    cases r with
    | none => cases hs
    | some _ => cases this

/-- The sockets to the kernel.  Too small a buffer is no reason to fail. -/
theorem C76_kernel {o : Os} (ho : FdsOk o) (groups : Nat) :
    ((netlinkSocket o groups).1.isSome = true ↔ (∀ i < 3, o.fate i = none) ∧
      if o.fate 3 = none then o.fate 6 = none ∧ o.fate 7 = none else o.fate 7 = none ∧ o.fate 8 = none) ∧
    (∀ fd, (netlinkSocket o groups).1 = some fd → Opened o (netlinkSocket o groups).2 (KernelSock groups) fd) ∧
    ((netlinkSocket o groups).1 = none → (netlinkSocket o groups).2.socks = o.socks) ∧
    (netlinkSocket o groups).2.files = o.files :=
  have h := netlink_spec ho groups
  ⟨h.2.2.2.2, h.2.2.2.1, h.2.2.1, h.2.1⟩

/-- The kernel tells the daemon about links, IPv4 and IPv6 addresses and IPv4 and IPv6 routes (groups 1, 5, 9, 7 and 11 of linux/rtnetlink.h, bits from 0). -/
theorem C76_groups (b : Nat) : listenGroups.testBit b = decide (b + 1 ∈ [1, 5, 9, 7, 11]) := by
  by_cases h : b < 11
  · revert b
    decide
  · have h2 : listenGroups < 2 ^ b := Nat.lt_of_lt_of_le (by decide : listenGroups < 2 ^ 11) (Nat.pow_le_pow_right (by decide) (by omega))
    rw [Nat.testBit_lt_two_pow h2]
    symm
    rw [decide_eq_false_iff_not]
    simp only [List.mem_cons, List.not_mem_nil, or_false]
    omega

/-- A daemon that has started has all its sockets, in this order, each with its own descriptor.  There is one too many: the first socket on which the kernel
reports changes is opened, is never read and stays open (`leak`). -/
theorem C76_all {o o' : Os} (ho : FdsOk o) {port : Nat} {sc : ServerConf} {S : Socks} (h : openSockets o port sc = (some S, o')) :
    ∃ dg cmd leak pr l o1 o2 o3 o4 o5, S.dgram = some dg ∧ S.command = some cmd ∧ S.protocol = some pr ∧ S.listen = some l ∧
      Opened o o1 (fun s => s.kind = .udp) dg ∧ Opened o1 o2 (KernelSock 0) cmd ∧ Opened o2 o3 (KernelSock listenGroups) leak ∧
      Opened o3 o4 (ProtocolSock port) pr ∧ Opened o4 o5 (KernelSock listenGroups) l ∧ o5.files = o.files ∧ ServerOpened o5 o' sc S.server :=
  (open_spec ho port sc h).2

/-- If no call fails, and no file is in the way, the daemon starts. -/
theorem C76_starts {o : Os} (ho : FdsOk o) (h : ∀ i, o.fate i = none) (port : Nat) (sc : ServerConf)
    (hsc : ∀ p, sc = .path p → p.length < 108 ∧ p ∉ o.files) : (openSockets o port sc).1.isSome = true :=
  open_lucky ho h port sc hsc

/-- The first socket on which the kernel reports changes is none of those the daemon uses, and it is open. -/
theorem C76_leak {o o' : Os} (ho : FdsOk o) {port : Nat} {sc : ServerConf} {S : Socks} (h : openSockets o port sc = (some S, o')) :
    ∃ fd s, (fd, s) ∈ o'.socks ∧ KernelSock listenGroups s ∧ some fd ∉ [S.dgram, S.command, S.listen, S.protocol, S.server] := by
  obtain ⟨hfd, dg, cmd, leak, pr, l, o1, o2, o3, o4, o5, a1, a2, a3, a4, ⟨n1, s1, b1, -⟩, ⟨n2, s2, b2, -⟩, ⟨n3, s3, b3, c3⟩, ⟨n4, s4, b4, -⟩, ⟨n5, s5, b5, -⟩, -, hs⟩ := open_spec ho port sc h
  have m3 : (leak, s3) ∈ o3.socks := by rw [b3]; exact List.mem_cons_self ..
  have m4 : (leak, s3) ∈ o4.socks := by rw [b4]; exact List.mem_cons_of_mem _ m3
  have m5 : (leak, s3) ∈ o5.socks := by rw [b5]; exact List.mem_cons_of_mem _ m4
  have k1 : dg ≠ leak := n3 (dg, s1) (by rw [b2, b1]; exact List.mem_cons_of_mem _ (List.mem_cons_self ..))
  have k2 : cmd ≠ leak := n3 (cmd, s2) (by rw [b2]; exact List.mem_cons_self ..)
  have k4 : leak ≠ pr := n4 _ m3
  have k5 : leak ≠ l := n5 _ m4
  have fin : (leak, s3) ∈ o'.socks ∧ some leak ≠ S.server := by
    cases sc with
    | off => exact ⟨by rw [hs.2.1]; exact m5, by rw [hs.1]; nofun⟩
    | port n =>
      obtain ⟨fd, e, ⟨nn, s, b, -⟩, -⟩ := hs
      exact ⟨by rw [b]; exact List.mem_cons_of_mem _ m5, by rw [e]; exact fun h => nn _ m5 (Option.some.inj h)⟩
    | path p =>
      obtain ⟨fd, e, ⟨nn, s, b, -⟩, -⟩ := hs
      exact ⟨by rw [b]; exact List.mem_cons_of_mem _ m5, by rw [e]; exact fun h => nn _ m5 (Option.some.inj h)⟩
  refine ⟨leak, s3, fin.1, c3, fun hm => ?_⟩
  simp only [List.mem_cons, List.not_mem_nil, or_false] at hm
  rcases hm with hm | hm | hm | hm | hm
  · rw [a1] at hm; exact k1 (Option.some.inj hm).symm
  · rw [a2] at hm; exact k2 (Option.some.inj hm).symm
  · rw [a4] at hm; exact k5 (Option.some.inj hm)
  · rw [a3] at hm; exact k4 (Option.some.inj hm)
  · exact fin.2 hm

/-- Sending ends after at most 100 calls: at the first one after which there is no point in trying again.  Its outcome is that of the last call; the packet is
sent, whole and once, if and only if that is a success.  Between calls the daemon waits once, for at most 5 ms, for each EAGAIN. -/
theorem C76_send (v : SendEnv) (buf1 buf2 : Bytes) : ∃ n < 100, (∀ i < n, TryAgain v i) ∧ (n = 99 ∨ ¬ TryAgain v n) ∧
    (babelSend v buf1 buf2).attempts = n + 1 ∧ (babelSend v buf1 buf2).error = v.outcome n ∧
    (babelSend v buf1 buf2).sent = (if v.outcome n = none then [buf1 ++ buf2] else []) ∧
    (babelSend v buf1 buf2).waits = ((List.range (n + 1)).filter (fun i => decide (v.outcome i = some .eagain))).length := by
  obtain ⟨n, _, h2, h3, h4, h5, h6, h7, h8⟩ := send_spec v (buf1 ++ buf2) 0 0 (by decide) (Nat.le_refl _)
  refine ⟨n, h2, fun i hi => h3 i (Nat.zero_le _) hi, h4, h5, h6, h7, ?_⟩
  refine h8.trans ?_
  rw [Nat.zero_add, List.range_eq_range', Nat.sub_zero]

theorem dispatch_none {ifs : List (Nat × Bool)} {size scope : Nat} {full src : Bytes} {cmsgs : List Cmsg}
    (hf : cmsgs.find? (fun c => c.level == IPPROTO_IPV6 && c.type == IPV6_PKTINFO) = none) : dispatch ifs size (.packet full src scope cmsgs) = .pause := by
  have : babelRecv size (.packet full src scope cmsgs) = .error .edestaddrreq := by
    unfold babelRecv; simp only; rw [hf]
  unfold dispatch; rw [this]

theorem dispatch_some {ifs : List (Nat × Bool)} {size scope : Nat} {full src : Bytes} {cmsgs : List Cmsg} {c : Cmsg}
    (hf : cmsgs.find? (fun c => c.level == IPPROTO_IPV6 && c.type == IPV6_PKTINFO) = some c) : dispatch ifs size (.packet full src scope cmsgs) =
    (match ifs.find? (fun p => p.2 && p.1 == scope) with
    | none => .nothing
    | some p => .parse p.1 src (full.take size) (c.data.take 16)) := by
  have : babelRecv size (.packet full src scope cmsgs) = .ok (full.take size, src, scope, c.data.take 16) := by
    unfold babelRecv; simp only; rw [hf]
  unfold dispatch; rw [this]
  rfl

/-- A packet is processed if and only if it came in on an interface on which Babel runs and its destination is known; it is then processed as one of that
interface, with the address it was sent to and as much of it as fits in the buffer. -/
theorem C76_recv (ifs : List (Nat × Bool)) (size : Nat) (r : Received) (i : Nat) (src data dst : Bytes) :
    dispatch ifs size r = .parse i src data dst ↔
    ∃ full before after info, r = .packet full src i (before ++ ⟨41, 50, info⟩ :: after) ∧ (∀ c ∈ before, ¬ (c.level = 41 ∧ c.type = 50)) ∧
      (i, true) ∈ ifs ∧ data = full.take size ∧ dst = info.take 16 := by
  cases r with
  | error e =>
    constructor
    · intro h
      unfold dispatch babelRecv at h
      cases e <;> cases h
    · rintro ⟨_, _, _, _, h, _⟩
      cases h
  | packet full src' scope cmsgs =>
    cases hf : cmsgs.find? (fun c => c.level == IPPROTO_IPV6 && c.type == IPV6_PKTINFO) with
    | none =>
      rw [dispatch_none hf]
      constructor
      · intro h
        cases h
      · rintro ⟨_, _, _, _, h, _⟩
        cases h
        have := List.find?_eq_none.1 hf ⟨41, 50, _⟩ (List.mem_append_right _ (List.mem_cons_self ..))
        exact absurd (show ((41 == IPPROTO_IPV6) && (50 == IPV6_PKTINFO)) = true from rfl) this
    | some c =>
      rw [dispatch_some hf]
      cases hi : ifs.find? (fun p => p.2 && p.1 == scope) with
      | none =>
        constructor
        · intro h; cases h
        · rintro ⟨_, _, _, _, h, _, hm, _⟩
          cases h
          have := List.find?_eq_none.1 hi _ hm
          simp at this
      | some p =>
        obtain ⟨hp, as, bs, hl, hno⟩ := List.find?_eq_some_iff_append.1 hf
        have hq := List.find?_some hi
        have hmem := List.mem_of_find?_eq_some hi
        simp only [Bool.and_eq_true, beq_iff_eq] at hp hq
        obtain ⟨p1, p2⟩ := p
        simp only at hq
        obtain ⟨rfl, rfl⟩ := hq
        constructor
        · intro h
          cases h
          refine ⟨full, as, bs, c.data, ?_, fun x hx => ?_, hmem, rfl, rfl⟩
          · rw [hl]
            obtain ⟨cl, ct, cd⟩ := c
            obtain ⟨rfl, rfl⟩ := hp
            rfl
          · have := hno x hx
            simp only [IPPROTO_IPV6, IPV6_PKTINFO, Bool.not_eq_true', Bool.and_eq_false_iff, beq_eq_false_iff_ne] at this
            exact fun h => this.elim (fun k => k h.1) (fun k => k h.2)
        · rintro ⟨full', before, after, info, h, hb, _, rfl, rfl⟩
          cases h
          have hc : c = ⟨41, 50, info⟩ := by
            rw [List.find?_append, List.find?_eq_none.2 (by intro x hx; simpa [IPPROTO_IPV6, IPV6_PKTINFO] using hb x hx)] at hf
            rw [Option.none_or, List.find?_cons_of_pos (by rfl)] at hf
            exact (Option.some.inj hf).symm
          rw [hc]

/-- Otherwise nothing is done; after an error other than EAGAIN and EINTR, or if the destination is not known, the daemon sleeps for a second. -/
theorem C76_pause (ifs : List (Nat × Bool)) (size : Nat) (r : Received) :
    dispatch ifs size r = .pause ↔ (∃ e, r = .error e ∧ e ≠ .eagain ∧ e ≠ .eintr) ∨
      ∃ full src i cmsgs, r = .packet full src i cmsgs ∧ ∀ c ∈ cmsgs, ¬ (c.level = 41 ∧ c.type = 50) := by
  cases r with
  | error e =>
    unfold dispatch babelRecv
    constructor
    · intro h
      refine .inl ⟨e, rfl, ?_, ?_⟩ <;> rintro rfl <;> cases h
    · rintro (⟨e', h, h1, h2⟩ | ⟨_, _, _, _, h, _⟩)
      · cases h
        cases e with
        | eagain => exact absurd rfl h1
        | eintr => exact absurd rfl h2
        | edestaddrreq => rfl
        | eaddrinuse => rfl
        | other n => rfl
      · cases h
  | packet full src' scope cmsgs =>
    cases hf : cmsgs.find? (fun c => c.level == IPPROTO_IPV6 && c.type == IPV6_PKTINFO) with
    | none =>
      rw [dispatch_none hf]
      refine ⟨fun _ => .inr ⟨full, src', scope, cmsgs, rfl, fun c hc => ?_⟩, fun _ => rfl⟩
      simpa [IPPROTO_IPV6, IPV6_PKTINFO] using List.find?_eq_none.1 hf c hc
    | some c =>
      rw [dispatch_some hf]
      constructor
      · intro h
        cases hi : ifs.find? (fun p => p.2 && p.1 == scope) with
        | none => rw [hi] at h; cases h
        | some p => rw [hi] at h; cases h
      · rintro (⟨_, h, _⟩ | ⟨_, _, _, _, h, hn⟩)
        · cases h
        · cases h
          have := List.find?_some hf
          exact absurd (by simpa [IPPROTO_IPV6, IPV6_PKTINFO] using this) (hn c (List.mem_of_find?_eq_some hf))

/-- The buffer only grows, and in the end packets of the size of the interface fit. -/
theorem C76_buffer {size new n : Nat} {mem : Bool} : resizeReceive size new mem = some n ↔ n = max size new ∧ (new ≤ size ∨ mem = true) := by
  unfold resizeReceive
  split
  · next h => exact ⟨fun e => ⟨by cases e; omega, .inl h⟩, fun e => by rw [e.1, Nat.max_eq_left h]⟩
  · next h =>
    cases mem with
    | true => exact ⟨fun e => ⟨by cases e; omega, .inr rfl⟩, fun e => by rw [e.1, Nat.max_eq_right (by omega)]; rfl⟩
    | false => exact ⟨nofun, fun e => by rcases e.2 with h' | h'; exact absurd h' h; cases h'⟩

/-! ### Examples -/

namespace SockDemo

/-- A host on which every call works. -/
def good : Os := { socks := [], files := [], fate := fun _ => none, next := 3, errno := none }

/-- A host on which call number `k` fails. -/
def bad (k : Nat) : Os := { good with fate := fun i => if i = k then some (.other 1) else none }

example : FdsOk good := fun p hp => by cases hp

-- the traffic class is not needed, the rest is
example : (babelSocket good 6696).1 = some 3 ∧ (babelSocket (bad 6) 6696).1 = some 3 ∧ (babelSocket (bad 5) 6696).1 = none := by decide +kernel

-- everything works, and six sockets are open where five are used
example : ((openSockets good 6696 (.path [0x2f, 0x61])).2.socks.map (·.1)) = [8, 7, 6, 5, 4, 3] := by decide +kernel
example : ((openSockets good 6696 (.path [0x2f, 0x61])).1.map (fun S => [S.dgram, S.command, S.listen, S.protocol, S.server])) =
    some [some 3, some 4, some 7, some 6, some 8] := by decide +kernel

-- after a crash the file is in the way
example : (unixServerSocket good [0x2f, 0x61]).1 = some 3 ∧ (openSockets { good with files := [[0x2f, 0x61]] } 6696 (.path [0x2f, 0x61])).1.isNone = true := by decide +kernel

-- if listening fails the file is removed
example : (unixServerSocket (bad 6) [0x2f, 0x61]).1 = none ∧ (unixServerSocket (bad 6) [0x2f, 0x61]).2.files = [] := by decide +kernel

-- interrupted twice, then the buffers are full for a while, then the packet goes out
example : babelSend ⟨fun i => if i < 2 then some .eintr else if i < 3 then some .eagain else none, fun _ => true⟩ [42, 2] [0, 0] = ⟨none, 4, 1, [[42, 2, 0, 0]]⟩ := by
  decide +kernel

-- the socket stays full
example : babelSend ⟨fun _ => some .eagain, fun _ => false⟩ [42, 2] [0, 0] = ⟨some .eagain, 1, 1, []⟩ := by decide +kernel

-- one packet for an interface that is up, one for an interface that is down
example : dispatch [(2, true), (3, false)] 4 (.packet [42, 2, 0, 0, 9] [0xfe] 2 [⟨1, 2, [3]⟩, ⟨41, 50, List.replicate 20 7⟩]) =
    .parse 2 [0xfe] [42, 2, 0, 0] (List.replicate 16 7) := by decide +kernel
example : dispatch [(2, true), (3, false)] 4 (.packet [42, 2, 0, 0, 9] [0xfe] 3 [⟨41, 50, List.replicate 20 7⟩]) = .nothing := by decide +kernel

end SockDemo

end Babel
