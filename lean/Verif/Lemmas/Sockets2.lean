import Verif.Lemmas.Sockets
/-
The sockets of the daemon, and sending.
-/
set_option linter.unusedSimpArgs false
set_option linter.unusedVariables false
namespace Babel
open Spec

theorem babel_applied {port : Nat} {s : Socket} (h : Applied (babelCalls port) { kind := .udp } s) : ProtocolSock port s := by
  unfold babelCalls at h
  cases h with | ok h => ?_
  cases h with | ok h => ?_
  cases h with | ok h => ?_
  cases h with | ok h => ?_
  cases h with | ok h => ?_
  cases h with
  | ok h =>
    cases h with | ok h => ?_
    cases h with | ok h => ?_
    cases h with | ok h => ?_
    cases h with | ok h => ?_
    cases h with | ok h => ?_
    cases h with | ok h => ?_
    cases h
    exact ⟨rfl, rfl, ⟨rfl, rfl⟩, rfl, rfl, ⟨rfl, rfl⟩, rfl⟩
  | skip h =>
    cases h with | ok h => ?_
    cases h with | ok h => ?_
    cases h with | ok h => ?_
    cases h with | ok h => ?_
    cases h with | ok h => ?_
    cases h with | ok h => ?_
    cases h
    exact ⟨rfl, rfl, ⟨rfl, rfl⟩, rfl, rfl, ⟨rfl, rfl⟩, rfl⟩

theorem tcp_applied {port : Nat} {b : Bool} {s : Socket} (h : Applied (tcpCalls port b) { kind := .tcp } s) :
    ServerSock (.ip6 (if b then loopback else anyAddr) port) s := by
  unfold tcpCalls at h
  cases h with | ok h => ?_
  cases h with | ok h => ?_
  cases h with | ok h => ?_
  cases h with | ok h => ?_
  cases h with | ok h => ?_
  cases h with | ok h => ?_
  cases h with | ok h => ?_
  cases h
  exact ⟨⟨rfl, rfl⟩, rfl, rfl⟩

theorem calls_cons (o : Os) (fd : Nat) (c : Call) (f : Bool) (l : List (Call × Bool)) : o.calls fd ((c, f) :: l) =
    (match o.call fd c with
      | (true, o) => o.calls fd l
      | (false, o) => if f then (false, o) else o.calls fd l) := by
  conv => lhs; unfold Os.calls
  rfl

theorem calls_append (fd : Nat) : ∀ (l l' : List (Call × Bool)) (o : Os), o.calls fd (l ++ l') = if (o.calls fd l).1 then (o.calls fd l).2.calls fd l' else (false, (o.calls fd l).2)
  | [], l', o => rfl
  | (c, f) :: l, l', o => by
    rw [List.cons_append, calls_cons, calls_cons]
    cases hc : o.call fd c with
    | mk b o1 =>
      cases b with
      | true => exact calls_append fd l l' o1
      | false =>
        cases f with
        | true => rfl
        | false => exact calls_append fd l l' o1

theorem calls_one (fd : Nat) (c : Call) (o : Os) : o.calls fd [(c, true)] = o.call fd c := by
  rw [calls_cons]
  cases hc : o.call fd c with
  | mk b o1 =>
    cases b with
    | true => rfl
    | false => rfl

/-- The calls of `unix_server_socket` that create no file. -/
def flagCalls : List (Call × Bool) := [(.getfl, true), (.setNonblock, true), (.getfd, true), (.setCloexec, true)]

theorem flag_applied {k : SockKind} {s : Socket} (h : Applied flagCalls { kind := k } s) : s = { kind := k, nonblock := true, cloexec := true } := by
  unfold flagCalls at h
  cases h with | ok h => ?_
  cases h with | ok h => ?_
  cases h with | ok h => ?_
  cases h with | ok h => ?_
  cases h
  rfl

theorem flag_fates {f : Nat → Option SysErr} : (∀ i c, flagCalls[i]? = some (c, true) → f i = none) ↔ f 0 = none ∧ f 1 = none ∧ f 2 = none ∧ f 3 = none := by
  constructor
  · intro h
    exact ⟨h 0 _ rfl, h 1 _ rfl, h 2 _ rfl, h 3 _ rfl⟩
  · rintro ⟨h0, h1, h2, h3⟩ i c hi
    match i, hi with
    | 0, _ => exact h0
    | 1, _ => exact h1
    | 2, _ => exact h2
    | 3, _ => exact h3
    | i + 4, hi => exact absurd hi (by simp [flagCalls])

theorem unix_spec {o : Os} (ho : FdsOk o) (path : Bytes) :
    FdsOk (unixServerSocket o path).2 ∧
    ((unixServerSocket o path).1 = none → (unixServerSocket o path).2.socks = o.socks ∧ (unixServerSocket o path).2.files = o.files) ∧
    (∀ fd, (unixServerSocket o path).1 = some fd → Opened o (unixServerSocket o path).2 (fun s => s.kind = .unixStream ∧ ServerSock (.path path) s) fd ∧
      (unixServerSocket o path).2.files = path :: o.files) ∧
    ((unixServerSocket o path).1.isSome = true ↔ path.length < 108 ∧ path ∉ o.files ∧ ∀ i < 7, o.fate i = none) := by
  unfold unixServerSocket
  by_cases hlen : path.length ≥ 108
  · rw [if_pos hlen]
    exact ⟨ho, fun _ => ⟨rfl, rfl⟩, nofun, ⟨nofun, fun h => absurd hlen (by omega)⟩⟩
  rw [if_neg hlen]
  obtain ⟨s1, s2, s3, s4⟩ := socket_spec ho .unixStream
  cases hs : o.socket .unixStream with
  | mk a o1 =>
    rw [hs] at s2 s3 s4
    simp only at s2 s3 s4
    rcases s4 with ⟨⟨e, t0⟩, t1, t2, t3⟩ | ⟨t0, t1, t2, t3⟩
    · subst t1
      refine ⟨fun p hp => ?_, fun _ => ⟨t2, s2⟩, nofun, ⟨nofun, fun h => ?_⟩⟩
      · simp only at hp ⊢
        rw [t2] at hp; rw [t3]; exact ho p hp
      · have := h.2.2 0 (by decide)
        rw [t0] at this
        cases this
    subst t1
    have lt : ∀ {o' : Os} {s : Socket}, o'.next = o.next + 1 → o'.socks = (o.next, s) :: o.socks ∨ o'.socks = o.socks → FdsOk o' := by
      intro o' s h1 h2 p hp
      rw [h1]
      rcases h2 with h2 | h2
      · rw [h2] at hp
        rcases List.mem_cons.1 hp with rfl | hp
        · exact Nat.lt_succ_self _
        · exact Nat.lt_succ_of_lt (ho p hp)
      · rw [h2] at hp
        exact Nat.lt_succ_of_lt (ho p hp)
    simp only
    have hcalls := calls_append o.next flagCalls [(.bind (.path path), true)] o1
    have he : flagCalls ++ [(Call.bind (.path path), true)] = [(.getfl, true), (.setNonblock, true), (.getfd, true), (.setCloexec, true), (.bind (.path path), true)] := rfl
    rw [he] at hcalls
    rw [hcalls]
    obtain ⟨g1, g2, ⟨s', g3, g4⟩, g5, g6⟩ := calls_spec s1 flagCalls (by decide) t2
    rw [flag_fates] at g5
    cases hc : o1.calls o.next flagCalls with
    | mk b o2 =>
      rw [hc] at g1 g2 g3 g4 g5 g6
      simp only at g1 g2 g3 g4 g5 g6
      rw [s3] at g5 g6
      cases b with
      | false =>
        simp only [Bool.false_eq_true, if_false]
        refine ⟨lt (s := { kind := .udp }) (o' := o2.close o.next) (g1.trans t3) (.inr (close_head g3 s1)), fun _ => ⟨close_head g3 s1, g2.trans s2⟩, nofun, ⟨nofun, fun h => ?_⟩⟩
        exact absurd (g5.2 ⟨h.2.2 1 (by decide), h.2.2 2 (by decide), h.2.2 3 (by decide), h.2.2 4 (by decide)⟩) (by decide)
      | true =>
        simp only [if_true]
        rw [calls_one]
        have hs' := flag_applied (g4 rfl)
        subst hs'
        obtain ⟨f1, f2, f3, f4⟩ := g5.1 rfl
        have g6 := g6 rfl
        obtain ⟨c1, c2, c3, c4, c5⟩ := call_spec g3 s1 (.bind (.path path))
        cases hb : o2.call o.next (.bind (.path path)) with
        | mk b o3 =>
          rw [hb] at c1 c2 c3 c4 c5
          simp only at c1 c2 c3 c4 c5
          have c3 : b = true ↔ o.fate 5 = none ∧ path ∉ o.files := by
            rw [c3, g6, g2, s2]
            exact ⟨fun h => ⟨h.1, h.2 path rfl⟩, fun h => ⟨h.1, fun p hp => by cases hp; exact h.2⟩⟩
          cases b with
          | false =>
            obtain ⟨d1, d2⟩ := c5 rfl
            refine ⟨lt (s := { kind := .udp }) (o' := o3.close o.next) (c1.trans (g1.trans t3)) (.inr (close_head d1 s1)), fun _ => ⟨close_head d1 s1, d2.trans (g2.trans s2)⟩, nofun, ⟨nofun, fun h => ?_⟩⟩
            exact absurd (c3.2 ⟨h.2.2 5 (by decide), h.2.1⟩) (by decide)
          | true =>
            obtain ⟨d1, d2⟩ := c4 rfl
            obtain ⟨f5, f6⟩ := c3.1 rfl
            have d2 : o3.files = path :: o.files := d2.trans (by rw [g2, s2]; rfl)
            simp only
            obtain ⟨l1, l2, l3, l4, l5⟩ := call_spec d1 s1 .listen
            cases hl : o3.call o.next .listen with
            | mk b o4 =>
              rw [hl] at l1 l2 l3 l4 l5
              simp only at l1 l2 l3 l4 l5
              have l3 : b = true ↔ o.fate 6 = none := by
                rw [l3, c2, g6]
                exact ⟨fun h => h.1, fun h => ⟨h, fun p hp => by cases hp⟩⟩
              cases b with
              | false =>
                obtain ⟨k1, k2⟩ := l5 rfl
                have k3 := close_head (o := { o4 with files := o4.files.erase path }) k1 s1
                refine ⟨lt (s := { kind := .udp }) (o' := Os.close { o4 with files := o4.files.erase path } o.next) (l1.trans (c1.trans (g1.trans t3))) (.inr k3), fun _ => ⟨k3, ?_⟩, nofun, ⟨nofun, fun h => ?_⟩⟩
                · show o4.files.erase path = o.files
                  rw [k2, d2, List.erase_cons_head]
                · exact absurd (l3.2 (h.2.2 6 (by decide))) (by decide)
              | true =>
                obtain ⟨k1, k2⟩ := l4 rfl
                refine ⟨lt (l1.trans (c1.trans (g1.trans t3))) (.inl k1), nofun, fun fd hfd => ?_, ⟨fun _ => ⟨by omega, f6, fun i hi => ?_⟩, fun _ => rfl⟩⟩
                · cases hfd
                  exact ⟨⟨s1, _, k1, rfl, ⟨rfl, rfl⟩, rfl, rfl⟩, k2.trans d2⟩
                · have := l3.1 rfl
                  match i, hi with
                  | 0, _ => exact t0
                  | 1, _ => exact f1
                  | 2, _ => exact f2
                  | 3, _ => exact f3
                  | 4, _ => exact f4
                  | 5, _ => exact f5
                  | 6, _ => exact this

theorem nl_applied {g : Nat} {s0 s : Socket} (h : Applied [(.setopt .extAck 1, false), (.setopt .strictChk 1, false), (.bind (.groups g), true), (.getsockname, true)] s0 s) :
    s.kind = s0.kind ∧ s.nonblock = s0.nonblock ∧ s.bound = some (.groups g) := by
  cases h with
  | ok h =>
    cases h with
    | ok h =>
      cases h with | ok h => ?_
      cases h with | ok h => ?_
      cases h
      exact ⟨rfl, rfl, rfl⟩
    | skip h =>
      cases h with | ok h => ?_
      cases h with | ok h => ?_
      cases h
      exact ⟨rfl, rfl, rfl⟩
  | skip h =>
    cases h with
    | ok h =>
      cases h with | ok h => ?_
      cases h with | ok h => ?_
      cases h
      exact ⟨rfl, rfl, rfl⟩
    | skip h =>
      cases h with | ok h => ?_
      cases h with | ok h => ?_
      cases h
      exact ⟨rfl, rfl, rfl⟩

/-- Options do not change the rest. -/
theorem setopt_same (o : SockOpt) (v : Nat) (s : Socket) : ((Call.setopt o v).apply s).kind = s.kind ∧ ((Call.setopt o v).apply s).nonblock = s.nonblock := ⟨rfl, rfl⟩

theorem netlink_spec {o : Os} (ho : FdsOk o) (g : Nat) :
    FdsOk (netlinkSocket o g).2 ∧ (netlinkSocket o g).2.files = o.files ∧
    ((netlinkSocket o g).1 = none → (netlinkSocket o g).2.socks = o.socks) ∧
    (∀ fd, (netlinkSocket o g).1 = some fd → Opened o (netlinkSocket o g).2 (KernelSock g) fd) ∧
    ((netlinkSocket o g).1.isSome = true ↔ (∀ i < 3, o.fate i = none) ∧
      if o.fate 3 = none then o.fate 6 = none ∧ o.fate 7 = none else o.fate 7 = none ∧ o.fate 8 = none) := by
  unfold netlinkSocket
  obtain ⟨s1, s2, s3, s4⟩ := socket_spec ho .netlink
  cases hs : o.socket .netlink with
  | mk a o1 =>
    rw [hs] at s2 s3 s4
    simp only at s2 s3 s4
    rcases s4 with ⟨⟨e, t0⟩, t1, t2, t3⟩ | ⟨t0, t1, t2, t3⟩
    · subst t1
      refine ⟨fun p hp => ?_, s2, fun _ => t2, nofun, ⟨nofun, fun h => ?_⟩⟩
      · simp only at hp ⊢
        rw [t2] at hp; rw [t3]; exact ho p hp
      · have := h.1 0 (by decide)
        rw [t0] at this
        cases this
    subst t1
    have lt : ∀ {o' : Os} {s : Socket}, o'.next = o.next + 1 → o'.socks = (o.next, s) :: o.socks ∨ o'.socks = o.socks → FdsOk o' := by
      intro o' s h1 h2 p hp
      rw [h1]
      rcases h2 with h2 | h2
      · rw [h2] at hp
        rcases List.mem_cons.1 hp with rfl | hp
        · exact Nat.lt_succ_self _
        · exact Nat.lt_succ_of_lt (ho p hp)
      · rw [h2] at hp
        exact Nat.lt_succ_of_lt (ho p hp)
    simp only
    obtain ⟨g1, g2, ⟨s', g3, g4⟩, g5, g6⟩ := calls_spec s1 [(.getfl, true), (.setNonblock, true)] (by decide) t2
    cases hc : o1.calls o.next [(.getfl, true), (.setNonblock, true)] with
    | mk b o2 =>
      rw [hc] at g1 g2 g3 g4 g5 g6
      simp only at g1 g2 g3 g4 g5 g6
      rw [s3] at g5 g6
      have g5 : b = true ↔ o.fate 1 = none ∧ o.fate 2 = none := by
        rw [g5]
        constructor
        · exact fun h => ⟨h 0 _ rfl, h 1 _ rfl⟩
        · rintro ⟨h0, h1⟩ i c hi
          match i, hi with
          | 0, _ => exact h0
          | 1, _ => exact h1
      cases b with
      | false =>
        refine ⟨lt (s := { kind := .udp }) (o' := o2.close o.next) (g1.trans t3) (.inr (close_head g3 s1)), g2.trans s2, fun _ => close_head g3 s1, nofun, ⟨nofun, fun h => ?_⟩⟩
        exact absurd (g5.2 ⟨h.1 1 (by decide), h.1 2 (by decide)⟩) (by decide)
      | true =>
        obtain ⟨f1, f2⟩ := g5.1 rfl
        have g6 : o2.fate = fun i => o.fate (i + 3) := g6 rfl
        have hs' : s'.kind = .netlink ∧ s'.nonblock = true := by
          cases g4 rfl with | ok h => ?_
          cases h with | ok h => ?_
          cases h
          exact ⟨rfl, rfl⟩
        have f012 : ∀ i < 3, o.fate i = none := by
          intro i hi
          match i, hi with
          | 0, _ => exact t0
          | 1, _ => exact f1
          | 2, _ => exact f2
        -- the rest, after the receive buffer
        have rest : ∀ (o3 : Os) (s3 : Socket) (k : Nat), o3.socks = (o.next, s3) :: o.socks → s3.kind = .netlink → s3.nonblock = true → o3.next = o.next + 1 →
            o3.files = o.files → (o3.fate = fun i => o.fate (i + k)) →
            ∀ q : Option Nat × Os, q = (match o3.calls o.next [(.setopt .extAck 1, false), (.setopt .strictChk 1, false), (.bind (.groups g), true), (.getsockname, true)] with
              | (false, o) => (none, o.close (Os.next ⟨[], [], fun _ => none, o1.next - 1, none⟩))
              | (true, o) => (some (Os.next ⟨[], [], fun _ => none, o1.next - 1, none⟩), o)) →
            FdsOk q.2 ∧ q.2.files = o.files ∧ (q.1 = none → q.2.socks = o.socks) ∧ (∀ fd, q.1 = some fd → Opened o q.2 (KernelSock g) fd) ∧
            (q.1.isSome = true ↔ o.fate (2 + k) = none ∧ o.fate (3 + k) = none) := by
          intro o3 s3' k a1 a2 a3 a4 a5 a6 q hq
          have hn : o1.next - 1 = o.next := by rw [t3]; rfl
          simp only [hn] at hq
          obtain ⟨b1, b2, ⟨s'', b3, b4⟩, b5, b6⟩ := calls_spec s1 [(.setopt .extAck 1, false), (.setopt .strictChk 1, false), (.bind (.groups g), true), (.getsockname, true)]
            (by intro c hc; simp only [List.mem_cons, List.not_mem_nil, or_false] at hc; rcases hc with rfl | rfl | rfl | rfl <;> rfl) a1
          cases hd : o3.calls o.next [(.setopt .extAck 1, false), (.setopt .strictChk 1, false), (.bind (.groups g), true), (.getsockname, true)] with
          | mk b o4 =>
            rw [hd] at b1 b2 b3 b4 b5 b6 hq
            simp only at b1 b2 b3 b4 b5 b6 hq
            have b5 : b = true ↔ o.fate (2 + k) = none ∧ o.fate (3 + k) = none := by
              rw [b5, a6]
              constructor
              · exact fun h => ⟨h 2 _ rfl, h 3 _ rfl⟩
              · rintro ⟨h0, h1⟩ i c hi
                match i, hi with
                | 0, hi => exact absurd hi (by simp)
                | 1, hi => exact absurd hi (by simp)
                | 2, _ => exact h0
                | 3, _ => exact h1
                | i + 4, hi => exact absurd hi (by simp)
            cases b with
            | false =>
              subst hq
              refine ⟨lt (s := { kind := .udp }) (o' := o4.close o.next) (b1.trans a4) (.inr (close_head b3 s1)), b2.trans a5, fun _ => close_head b3 s1, nofun, ⟨nofun, fun h => absurd (b5.2 h) (by decide)⟩⟩
            | true =>
              subst hq
              refine ⟨lt (b1.trans a4) (.inl b3), b2.trans a5, nofun, fun fd hfd => ?_, ⟨fun _ => b5.1 rfl, fun _ => rfl⟩⟩
              cases hfd
              obtain ⟨n1, n2, n3⟩ := nl_applied (b4 rfl)
              exact ⟨s1, s'', b3, n1.trans a2, n2.trans a3, n3⟩
        have hn : Os.next ⟨[], [], fun _ => none, o1.next - 1, none⟩ = o.next := by
          show o1.next - 1 = o.next
          rw [t3]; rfl
        rw [hn] at rest
        simp only
        obtain ⟨c1, c2, c3, c4, c5⟩ := call_spec g3 s1 (.setopt .rcvbufForce 524288)
        cases hb : o2.call o.next (.setopt .rcvbufForce 524288) with
        | mk b o3 =>
          rw [hb] at c1 c2 c3 c4 c5
          simp only at c1 c2 c3 c4 c5
          have c3 : b = true ↔ o.fate 3 = none := by
            rw [c3, g6]
            exact ⟨fun h => h.1, fun h => ⟨h, fun p hp => by cases hp⟩⟩
          cases b with
          | true =>
            obtain ⟨d1, d2⟩ := c4 rfl
            obtain ⟨r1, r2, r3, r4, r5⟩ := rest o3 _ 4 d1 hs'.1 hs'.2 (c1.trans (g1.trans t3)) (d2.trans (g2.trans s2)) (by rw [c2, g6]) _ rfl
            refine ⟨r1, r2, r3, r4, r5.trans ?_⟩
            rw [if_pos (c3.1 rfl)]
            exact ⟨fun h => ⟨f012, h⟩, fun h => h.2⟩
          | false =>
            obtain ⟨d1, d2⟩ := c5 rfl
            obtain ⟨e1, e2, e3, e4, e5⟩ := call_spec d1 s1 (.setopt .rcvbuf 524288)
            have hx : ∃ s4, (o3.call o.next (.setopt .rcvbuf 524288)).2.socks = (o.next, s4) :: o.socks ∧ s4.kind = .netlink ∧ s4.nonblock = true ∧
                (o3.call o.next (.setopt .rcvbuf 524288)).2.files = o3.files := by
              cases hy : (o3.call o.next (.setopt .rcvbuf 524288)).1 with
              | true => exact ⟨_, (e4 hy).1, hs'.1, hs'.2, (e4 hy).2⟩
              | false => exact ⟨_, (e5 hy).1, hs'.1, hs'.2, (e5 hy).2⟩
            obtain ⟨s4, x1, x2, x3, x4⟩ := hx
            obtain ⟨r1, r2, r3, r4, r5⟩ := rest _ s4 5 x1 x2 x3 (e1.trans (c1.trans (g1.trans t3))) (x4.trans (d2.trans (g2.trans s2))) (by rw [e2, c2, g6]) _ rfl
            refine ⟨r1, r2, r3, r4, r5.trans ?_⟩
            have : ¬ o.fate 3 = none := fun h => absurd (c3.2 h) (by decide)
            rw [if_neg this]
            exact ⟨fun h => ⟨f012, h⟩, fun h => h.2⟩

/-! ### All sockets -/

theorem babel_spec {o : Os} (ho : FdsOk o) (port : Nat) :
    FdsOk (babelSocket o port).2 ∧ (babelSocket o port).2.files = o.files ∧
    ((babelSocket o port).1 = none → (babelSocket o port).2.socks = o.socks) ∧
    (∀ fd, (babelSocket o port).1 = some fd → Opened o (babelSocket o port).2 (ProtocolSock port) fd) ∧
    ((babelSocket o port).1.isSome = true ↔ ∀ i < 13, i ≠ 6 → o.fate i = none) := by
  unfold babelSocket
  obtain ⟨h1, h2, h3, h4, h5⟩ := make_spec ho .udp (babelCalls port)
    (by intro c hc; simp only [babelCalls, List.mem_cons, List.not_mem_nil, or_false] at hc; rcases hc with rfl | rfl | rfl | rfl | rfl | rfl | rfl | rfl | rfl | rfl | rfl | rfl <;> rfl)
  refine ⟨h2, h1, h3, fun fd hfd => ?_, h5.trans ?_⟩
  · obtain ⟨⟨a, s, b, c⟩, _⟩ := h4 fd hfd
    exact ⟨a, s, b, babel_applied c⟩
  · constructor
    · rintro ⟨h0, h⟩ i hi hi6
      match i, hi with
      | 0, _ => exact h0
      | 1, _ => exact h 0 _ rfl
      | 2, _ => exact h 1 _ rfl
      | 3, _ => exact h 2 _ rfl
      | 4, _ => exact h 3 _ rfl
      | 5, _ => exact h 4 _ rfl
      | 6, _ => exact absurd rfl hi6
      | 7, _ => exact h 6 _ rfl
      | 8, _ => exact h 7 _ rfl
      | 9, _ => exact h 8 _ rfl
      | 10, _ => exact h 9 _ rfl
      | 11, _ => exact h 10 _ rfl
      | 12, _ => exact h 11 _ rfl
    · intro h
      refine ⟨h 0 (by decide) (by decide), fun i c hi => ?_⟩
      by_cases h5 : i = 5
      · subst h5
        exact absurd hi (by simp [babelCalls])
      by_cases hlt : i < 12
      · exact h (i + 1) (by omega) (by omega)
      · rw [List.getElem?_eq_none (by simp [babelCalls]; omega)] at hi
        cases hi

theorem tcp_spec {o : Os} (ho : FdsOk o) (port : Nat) (b : Bool) :
    FdsOk (tcpServerSocket o port b).2 ∧ (tcpServerSocket o port b).2.files = o.files ∧
    ((tcpServerSocket o port b).1 = none → (tcpServerSocket o port b).2.socks = o.socks) ∧
    (∀ fd, (tcpServerSocket o port b).1 = some fd → Opened o (tcpServerSocket o port b).2 (ServerSock (.ip6 (if b then loopback else anyAddr) port)) fd) ∧
    ((tcpServerSocket o port b).1.isSome = true ↔ ∀ i < 8, o.fate i = none) := by
  unfold tcpServerSocket
  obtain ⟨h1, h2, h3, h4, h5⟩ := make_spec ho .tcp (tcpCalls port b)
    (by intro c hc; simp only [tcpCalls, List.mem_cons, List.not_mem_nil, or_false] at hc; rcases hc with rfl | rfl | rfl | rfl | rfl | rfl | rfl <;> rfl)
  refine ⟨h2, h1, h3, fun fd hfd => ?_, h5.trans ?_⟩
  · obtain ⟨⟨a, s, b, c⟩, _⟩ := h4 fd hfd
    exact ⟨a, s, b, tcp_applied c⟩
  · constructor
    · rintro ⟨h0, h⟩ i hi
      match i, hi with
      | 0, _ => exact h0
      | 1, _ => exact h 0 _ rfl
      | 2, _ => exact h 1 _ rfl
      | 3, _ => exact h 2 _ rfl
      | 4, _ => exact h 3 _ rfl
      | 5, _ => exact h 4 _ rfl
      | 6, _ => exact h 5 _ rfl
      | 7, _ => exact h 6 _ rfl
    · intro h
      refine ⟨h 0 (by decide), fun i c hi => ?_⟩
      by_cases hlt : i < 7
      · exact h (i + 1) (by omega)
      · rw [List.getElem?_eq_none (by simp [tcpCalls]; omega)] at hi
        cases hi

theorem server_spec {o : Os} (ho : FdsOk o) (sc : ServerConf) {r : Option Nat} {o' : Os} (h : openServer o sc = (some r, o')) :
    FdsOk o' ∧ ServerOpened o o' sc r := by
  cases sc with
  | off =>
    cases h
    exact ⟨ho, rfl, rfl, rfl⟩
  | port n =>
    obtain ⟨h1, h2, h3, h4, h5⟩ := tcp_spec ho n true
    unfold openServer at h
    simp only at h
    injection h with ha hb
    cases hr : (tcpServerSocket o n true).1 with
    | none => rw [hr] at ha; cases ha
    | some fd =>
      rw [hr] at ha
      cases ha
      subst hb
      exact ⟨h1, fd, rfl, h4 fd hr, h2⟩
  | path p =>
    obtain ⟨h1, h2, h3, h4⟩ := unix_spec ho p
    unfold openServer at h
    simp only at h
    injection h with ha hb
    cases hr : (unixServerSocket o p).1 with
    | none => rw [hr] at ha; cases ha
    | some fd =>
      rw [hr] at ha
      cases ha
      subst hb
      obtain ⟨⟨a, s, b, c⟩, d⟩ := h3 fd hr
      exact ⟨h1, fd, rfl, ⟨a, s, b, c.2⟩, d⟩

theorem open_spec {o : Os} (ho : FdsOk o) (port : Nat) (sc : ServerConf) {S : Socks} {o' : Os} (h : openSockets o port sc = (some S, o')) :
    FdsOk o' ∧ ∃ dg cmd leak pr l o1 o2 o3 o4 o5, S.dgram = some dg ∧ S.command = some cmd ∧ S.protocol = some pr ∧ S.listen = some l ∧
      Opened o o1 (fun s => s.kind = .udp) dg ∧ Opened o1 o2 (KernelSock 0) cmd ∧ Opened o2 o3 (KernelSock listenGroups) leak ∧
      Opened o3 o4 (ProtocolSock port) pr ∧ Opened o4 o5 (KernelSock listenGroups) l ∧ o5.files = o.files ∧ ServerOpened o5 o' sc S.server := by
  unfold openSockets at h
  obtain ⟨s1, s2, s3, s4⟩ := socket_spec ho .udp
  cases hs : o.socket .udp with
  | mk a o1 =>
    rw [hs] at h s2 s3 s4
    simp only at s2 s3 s4
    rcases s4 with ⟨⟨e, t0⟩, t1, t2, t3⟩ | ⟨t0, t1, t2, t3⟩
    · subst t1
      cases h
    subst t1
    have f1 : FdsOk o1 := by
      intro p hp
      rw [t2] at hp
      rw [t3]
      rcases List.mem_cons.1 hp with rfl | hp
      · exact Nat.lt_succ_self _
      · exact Nat.lt_succ_of_lt (ho p hp)
    simp only at h
    have a := netlink_spec f1 0
    cases h2 : netlinkSocket o1 0 with
    | mk r o2 =>
    rw [h2] at h a
    obtain ⟨f2, w2, -, x2, -⟩ := a
    cases r with
    | none => cases h
    | some cmd =>
    simp only at h
    have a := netlink_spec f2 listenGroups
    cases h3 : netlinkSocket o2 listenGroups with
    | mk r o3 =>
    rw [h3] at h a
    obtain ⟨f3, w3, -, x3, -⟩ := a
    cases r with
    | none => cases h
    | some leak =>
    simp only at h
    have a := babel_spec f3 port
    cases h4 : babelSocket o3 port with
    | mk r o4 =>
    rw [h4] at h a
    obtain ⟨f4, w4, -, x4, -⟩ := a
    cases r with
    | none => cases h
    | some pr =>
    simp only at h
    have a := netlink_spec f4 listenGroups
    cases h5 : netlinkSocket o4 listenGroups with
    | mk r o5 =>
    rw [h5] at h a
    obtain ⟨f5, w5, -, x5, -⟩ := a
    cases r with
    | none => cases h
    | some l =>
    simp only at h
    cases h6 : openServer o5 sc with
    | mk r o6 =>
    rw [h6] at h
    cases r with
    | none => cases h
    | some sv =>
    cases h
    obtain ⟨f6, x6⟩ := server_spec f5 sc h6
    exact ⟨f6, o.next, cmd, leak, pr, l, o1, o2, o3, o4, o5, rfl, rfl, rfl, rfl, ⟨s1, _, t2, rfl⟩, x2 _ rfl, x3 _ rfl, x4 _ rfl, x5 _ rfl,
      w5.trans (w4.trans (w3.trans (w2.trans s2))), x6⟩

/-! ### When nothing fails -/

/-- No call will fail. -/
def Lucky (o : Os) : Prop := ∀ i, o.fate i = none

theorem Lucky.call {o : Os} (h : Lucky o) (fd : Nat) (c : Call) : Lucky (o.call fd c).2 := by
  intro i
  unfold Os.call Os.pop
  rw [h 0]
  simp only
  split <;> first | exact h (i + 1) | (split <;> exact h (i + 1))

theorem Lucky.calls (fd : Nat) : ∀ (l : List (Call × Bool)) {o : Os}, Lucky o → Lucky (o.calls fd l).2
  | [], o, h => h
  | (c, f) :: l, o, h => by
    rw [calls_cons]
    have hc := h.call fd c
    cases hr : o.call fd c with
    | mk b o1 =>
      rw [hr] at hc
      cases b with
      | true => exact Lucky.calls fd l hc
      | false =>
        cases f with
        | true => exact hc
        | false => exact Lucky.calls fd l hc

theorem Lucky.close {o : Os} (h : Lucky o) (fd : Nat) : Lucky (o.close fd) := h

theorem Lucky.socket {o : Os} (h : Lucky o) (k : SockKind) : Lucky (o.socket k).2 := by
  intro i
  unfold Os.socket Os.pop
  rw [h 0]
  exact h (i + 1)

theorem Lucky.make {o : Os} (h : Lucky o) (k : SockKind) (l : List (Call × Bool)) : Lucky (o.make k l).2 := by
  unfold Os.make
  have h1 := h.socket k
  cases hs : o.socket k with
  | mk a o1 =>
    rw [hs] at h1
    cases a with
    | none => exact h1
    | some fd =>
      simp only
      have h2 := Lucky.calls fd l h1
      cases hc : o1.calls fd l with
      | mk b o2 =>
        rw [hc] at h2
        cases b with
        | true => exact h2
        | false => exact h2.close fd

theorem Lucky.netlink {o : Os} (h : Lucky o) (g : Nat) : Lucky (netlinkSocket o g).2 := by
  unfold netlinkSocket
  have h1 := h.socket .netlink
  cases hs : o.socket .netlink with
  | mk a o1 =>
    rw [hs] at h1
    cases a with
    | none => exact h1
    | some fd =>
      simp only
      have h2 := Lucky.calls fd [(.getfl, true), (.setNonblock, true)] h1
      cases hc : o1.calls fd [(.getfl, true), (.setNonblock, true)] with
      | mk b o2 =>
        rw [hc] at h2
        cases b with
        | false => exact h2.close fd
        | true =>
          simp only
          have h3 := h2.call fd (.setopt .rcvbufForce 524288)
          cases hd : o2.call fd (.setopt .rcvbufForce 524288) with
          | mk b o3 =>
            rw [hd] at h3
            cases b with
            | true =>
              simp only
              have h4 := Lucky.calls fd [(.setopt .extAck 1, false), (.setopt .strictChk 1, false), (.bind (.groups g), true), (.getsockname, true)] h3
              cases he : o3.calls fd [(.setopt .extAck 1, false), (.setopt .strictChk 1, false), (.bind (.groups g), true), (.getsockname, true)] with
              | mk b o4 =>
                rw [he] at h4
                cases b with
                | true => exact h4
                | false => exact h4.close fd
            | false =>
              simp only
              have h3' := Lucky.call h3 fd (.setopt .rcvbuf 524288)
              have h4 := Lucky.calls fd [(.setopt .extAck 1, false), (.setopt .strictChk 1, false), (.bind (.groups g), true), (.getsockname, true)] h3'
              cases he : (o3.call fd (.setopt .rcvbuf 524288)).2.calls fd [(.setopt .extAck 1, false), (.setopt .strictChk 1, false), (.bind (.groups g), true), (.getsockname, true)] with
              | mk b o4 =>
                rw [he] at h4
                cases b with
                | true => exact h4
                | false => exact h4.close fd

theorem open_lucky {o : Os} (ho : FdsOk o) (h : Lucky o) (port : Nat) (sc : ServerConf)
    (hsc : ∀ p, sc = .path p → p.length < 108 ∧ p ∉ o.files) : (openSockets o port sc).1.isSome = true := by
  unfold openSockets
  obtain ⟨s1, s2, s3, s4⟩ := socket_spec ho .udp
  have l1 := h.socket .udp
  cases hs : o.socket .udp with
  | mk a o1 =>
    rw [hs] at s2 s3 s4 l1
    simp only at s2 s3 s4
    rcases s4 with ⟨⟨e, t0⟩, t1, t2, t3⟩ | ⟨t0, t1, t2, t3⟩
    · rw [h 0] at t0; cases t0
    subst t1
    have f1 : FdsOk o1 := by
      intro p hp
      rw [t2] at hp
      rw [t3]
      rcases List.mem_cons.1 hp with rfl | hp
      · exact Nat.lt_succ_self _
      · exact Nat.lt_succ_of_lt (ho p hp)
    simp only
    have nl : ∀ {q : Os}, Lucky q → (∀ i < 3, q.fate i = none) ∧ if q.fate 3 = none then q.fate 6 = none ∧ q.fate 7 = none else q.fate 7 = none ∧ q.fate 8 = none := by
      intro q hq
      refine ⟨fun i _ => hq i, ?_⟩
      rw [if_pos (hq 3)]
      exact ⟨hq 6, hq 7⟩
    obtain ⟨f2, w2, -, -, x2⟩ := netlink_spec f1 0
    have l2 := l1.netlink 0
    have x2 := x2.2 (nl l1)
    cases h2 : netlinkSocket o1 0 with
    | mk r o2 =>
    rw [h2] at f2 w2 x2 l2
    cases r with
    | none => cases x2
    | some cmd =>
    simp only
    obtain ⟨f3, w3, -, -, x3⟩ := netlink_spec f2 listenGroups
    have l3 := l2.netlink listenGroups
    have x3 := x3.2 (nl l2)
    cases h3 : netlinkSocket o2 listenGroups with
    | mk r o3 =>
    rw [h3] at f3 w3 x3 l3
    cases r with
    | none => cases x3
    | some leak =>
    simp only
    obtain ⟨f4, w4, -, -, x4⟩ := babel_spec f3 port
    have l4 : Lucky (babelSocket o3 port).2 := l3.make _ _
    have x4 := x4.2 (fun i _ _ => l3 i)
    cases h4 : babelSocket o3 port with
    | mk r o4 =>
    rw [h4] at f4 w4 x4 l4
    cases r with
    | none => cases x4
    | some pr =>
    simp only
    obtain ⟨f5, w5, -, -, x5⟩ := netlink_spec f4 listenGroups
    have l5 := l4.netlink listenGroups
    have x5 := x5.2 (nl l4)
    cases h5 : netlinkSocket o4 listenGroups with
    | mk r o5 =>
    rw [h5] at f5 w5 x5 l5
    cases r with
    | none => cases x5
    | some l =>
    simp only
    have hv : (openServer o5 sc).1.isSome = true := by
      cases sc with
      | off => rfl
      | port n =>
        have := (tcp_spec f5 n true).2.2.2.2.2 (fun i _ => l5 i)
        show (Option.map some (tcpServerSocket o5 n true).1).isSome = true
        rw [Option.isSome_map]; exact this
      | path p =>
        have hp := hsc p rfl
        have := (unix_spec f5 p).2.2.2.2 ⟨hp.1, by simp only at w2 w3 w4 w5; rw [w5, w4, w3, w2, s2]; exact hp.2, fun i _ => l5 i⟩
        show (Option.map some (unixServerSocket o5 p).1).isSome = true
        rw [Option.isSome_map]; exact this
    cases h6 : openServer o5 sc with
    | mk r o6 =>
    rw [h6] at hv
    cases r with
    | none => cases hv
    | some sv => rfl

/-! ### Sending -/

theorem send_spec (v : SendEnv) (data : Bytes) (k w : Nat) (hk : k < 100) (hw : w ≤ k) : ∃ n, k ≤ n ∧ n < 100 ∧ (∀ i, k ≤ i → i < n → TryAgain v i) ∧
    (n = 99 ∨ ¬ TryAgain v n) ∧ (sendFrom v data k w).attempts = n + 1 ∧ (sendFrom v data k w).error = v.outcome n ∧
    (sendFrom v data k w).sent = (if v.outcome n = none then [data] else []) ∧
    (sendFrom v data k w).waits = w + ((List.range' k (n + 1 - k)).filter (fun i => decide (v.outcome i = some .eagain))).length := by
  unfold sendFrom
  have one : (List.range' k (k + 1 - k)) = [k] := by
    rw [show k + 1 - k = 1 by omega]; rfl
  cases ho : v.outcome k with
  | none =>
    refine ⟨k, Nat.le_refl _, hk, fun i h1 h2 => absurd h1 (by omega), .inr ?_, rfl, ho.symm, ?_, ?_⟩
    · rintro (h | ⟨h, -⟩) <;> rw [ho] at h <;> cases h
    · simp only [ho, if_true]
    · simp [one, ho]
  | some e =>
    have stop : ∀ w', (¬ TryAgain v k ∨ k = 99) → w' = w + (if e = .eagain then 1 else 0) → ∃ n, k ≤ n ∧ n < 100 ∧ (∀ i, k ≤ i → i < n → TryAgain v i) ∧ (n = 99 ∨ ¬ TryAgain v n) ∧
        (SendOut.mk (some e) (k + 1) w' []).attempts = n + 1 ∧ (SendOut.mk (some e) (k + 1) w' []).error = v.outcome n ∧
        (SendOut.mk (some e) (k + 1) w' []).sent = (if v.outcome n = none then [data] else []) ∧
        (SendOut.mk (some e) (k + 1) w' []).waits = w + ((List.range' k (n + 1 - k)).filter (fun i => decide (v.outcome i = some .eagain))).length := by
      intro w' h1 h2
      refine ⟨k, Nat.le_refl _, hk, fun i h1 h2 => absurd h1 (by omega), h1.symm, rfl, ho.symm, ?_, ?_⟩
      · simp only [ho]
        rw [if_neg (by simp)]
      · rw [one]
        show w' = _
        rw [h2]
        by_cases he : e = .eagain
        · subst he
          simp [ho]
        · simp [ho, he]
    have go : ∀ w', TryAgain v k → k + 1 < 100 → w' = w + (if e = .eagain then 1 else 0) → ∃ n, k ≤ n ∧ n < 100 ∧ (∀ i, k ≤ i → i < n → TryAgain v i) ∧ (n = 99 ∨ ¬ TryAgain v n) ∧
        (sendFrom v data (k + 1) w').attempts = n + 1 ∧ (sendFrom v data (k + 1) w').error = v.outcome n ∧
        (sendFrom v data (k + 1) w').sent = (if v.outcome n = none then [data] else []) ∧
        (sendFrom v data (k + 1) w').waits = w + ((List.range' k (n + 1 - k)).filter (fun i => decide (v.outcome i = some .eagain))).length := by
      intro w' h1 h2 h3
      obtain ⟨n, n1, n2, n3, n4, n5, n6, n7, n8⟩ := send_spec v data (k + 1) w' h2 (by split at h3 <;> omega)
      refine ⟨n, by omega, n2, fun i i1 i2 => ?_, n4, n5, n6, n7, ?_⟩
      · by_cases hi : i = k
        · rw [hi]; exact h1
        · exact n3 i (by omega) i2
      · rw [n8, h3, show n + 1 - k = (n + 1 - (k + 1)) + 1 by omega, List.range'_succ]
        by_cases he : e = .eagain
        · subst he
          rw [List.filter_cons_of_pos (by simp [ho])]
          simp only [if_true, List.length_cons]
          omega
        · rw [List.filter_cons_of_neg (by simp [ho, he]), if_neg he]
          omega
    cases e with
    | eintr =>
      simp only
      split
      · next h => exact go w (.inl ho) h rfl
      · next h => exact stop w (.inr (by omega)) rfl
    | eagain =>
      simp only
      split
      · next hr =>
        split
        · next h => exact go (w + 1) (.inr ⟨ho, hr⟩) h rfl
        · next h => exact stop (w + 1) (.inr (by omega)) rfl
      · next hr =>
        refine stop (w + 1) (.inl ?_) rfl
        rintro (h | ⟨-, h⟩)
        · rw [ho] at h; cases h
        · exact hr h
    | edestaddrreq =>
      refine stop w (.inl ?_) rfl
      rintro (h | ⟨h, -⟩) <;> rw [ho] at h <;> cases h
    | eaddrinuse =>
      refine stop w (.inl ?_) rfl
      rintro (h | ⟨h, -⟩) <;> rw [ho] at h <;> cases h
    | other n =>
      refine stop w (.inl ?_) rfl
      rintro (h | ⟨h, -⟩) <;> rw [ho] at h <;> cases h
termination_by 100 - k

end Babel
