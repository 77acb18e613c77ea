import Verif.Lemmas.Hub
import Verif.Props.Config
/-
C80: the connections of the local socket are opened, served and closed properly.
-/
namespace Babel
open Babel.Spec

/-- C80: whatever happens, there are at most four connections, and exactly their descriptors are open:
none is leaked, closed twice, or used after it was closed. -/
theorem C80_resources (L : Libc) (h : Hub) (hr : HubReach L h) : HubOk h := by
  induction hr with
  | init => exact ⟨by decide, by decide, .refl _⟩
  | step _ hf hr ih => exact (round_spec ih hf hr).ok

/-- C80: in each turn of the main loop, the connections that are read from were open before and are
readable, and each is read from once.  The others are not touched.  A connection is given up exactly if `local_read`
says so; otherwise it keeps its place with the state that `local_read` leaves.  A readable connection is
passed over only if another one is given up in the same turn. -/
theorem C80_round (L : Libc) (r : Round) (s s' : Conf) (h h' : Hub) (served : List Nat) (hr : HubReach L h) (hf : FreshFd h r)
    (h1 : Hub.round L r s h = some (s', h', served)) :
    served.Nodup ∧
    (∀ f ∈ served, r.ready f = true ∧ f ∈ Hub.fds h) ∧
    (∀ c ∈ h.table, c.fd ∉ served → c ∈ h'.table) ∧
    (∀ c ∈ h.table, c.fd ∈ served → ∃ s1 s2 k keep, serve L (r.env c.fd) s1 c.sock = some (s2, k, keep) ∧
      (keep = true → (⟨c.fd, k⟩ : Client) ∈ h'.table) ∧ (keep = false → c.fd ∉ Hub.fds h')) ∧
    (∀ c ∈ h.table, r.ready c.fd = true → c.fd ∈ served ∨ ∃ g ∈ served, g ∉ Hub.fds h') := by
  have hok := C80_resources L h hr
  have hs := round_spec hok hf h1
  have hin : ∀ c ∈ h.table, c ∈ (h.accepts r).table := by
    intro c hc
    unfold Hub.accepts
    cases r.accepted with
    | none => exact hc
    | some a =>
      simp only
      split
      · cases a with
        | fail => exact hc
        | conn fd g s w =>
          unfold Hub.accept
          simp only [Hub.close]
          split
          · exact hc
          · split
            · exact hc
            · split
              · exact hc
              · simp [hc]
      · exact hc
  have hw : ∀ f, h.watched f = true ↔ f ∈ Hub.fds h := by
    intro f
    unfold Hub.watched Hub.fds
    simp
  refine ⟨hs.once, ?_, fun c hc hn => hs.other c (hin c hc) hn, fun c hc hm => hs.result c (hin c hc) hm, ?_⟩
  · intro f hfm
    have := (hs.was f hfm).1
    simp only [Bool.and_eq_true] at this
    exact ⟨this.1, (hw f).1 this.2⟩
  · intro c hc hrd
    refine hs.done c (hin c hc) ?_
    simp only [hrd, Bool.true_and]
    exact (hw c.fd).2 (List.mem_map_of_mem hc)

/-- C80: if no connection is given up in a turn, all readable connections are served, in the order of
the table. -/
theorem C80_in_order (L : Libc) (r : Round) (s s' : Conf) (h h' : Hub) (served : List Nat) (hr : HubReach L h) (hf : FreshFd h r)
    (h1 : Hub.round L r s h = some (s', h', served)) (hk : ∀ g ∈ served, g ∈ Hub.fds h') :
    served = (Hub.fds h).filter r.ready := by
  have hok := C80_resources L h hr
  have hs := (round_spec hok hf h1).all hk
  rw [hs]
  have hw : ∀ f, h.watched f = true ↔ f ∈ Hub.fds h := by
    intro f
    unfold Hub.watched Hub.fds
    simp
  have hold : (Hub.fds h).filter (fun fd => r.ready fd && h.watched fd) = (Hub.fds h).filter r.ready := by
    refine List.filter_congr fun f hfm => ?_
    rw [(hw f).2 hfm, Bool.and_true]
  unfold Hub.accepts
  cases ha : r.accepted with
  | none => exact hold
  | some a =>
    simp only
    split
    · cases a with
      | fail => exact hold
      | conn fd g s w =>
        unfold Hub.accept
        simp only [Hub.close]
        split
        · exact hold
        · split
          · exact hold
          · split
            · exact hold
            · have hn : h.watched fd = false := by
                rw [Bool.eq_false_iff]
                intro hh
                exact hf fd g s w ha (hok.opened.mem_iff.2 ((hw fd).1 hh))
              rw [List.map_append, List.filter_append]
              simp only [List.map_cons, List.map_nil]
              rw [List.filter_cons_of_neg (by simp [hn]), List.filter_nil, List.append_nil]
              exact hold
    · exact hold

/-- C80: a new connection: it is taken exactly if there are less than four and both calls of `fcntl`
succeed, with an empty buffer, not monitoring; otherwise its descriptor is closed at once.  With four connections none is accepted. -/
theorem C80_accept (h : Hub) (r : Round) (fd : Nat) (g t w : Bool)
    (ha : r.accepted = some (.conn fd g t w)) :
    h.accepts r =
      if h.table.length < 4 ∧ g = true ∧ t = true then
        { table := h.table ++ [⟨fd, { buf := [], monitor := false, shut := !w }⟩], opened := fd :: h.opened }
      else h := by
  have hcl : Hub.close { h with opened := fd :: h.opened } fd = h := by
    unfold Hub.close; simp
  unfold Hub.accepts Hub.listens
  rw [ha]
  simp only
  by_cases hl : h.table.length < 4
  · rw [if_pos (show decide (h.table.length < MAX_LOCAL_SOCKETS) = true from decide_eq_true hl)]
    unfold Hub.accept
    simp only
    rw [hcl, if_neg (by simp only [MAX_LOCAL_SOCKETS]; omega)]
    cases g with
    | false => simp
    | true =>
      cases t with
      | false => simp
      | true => simp [hl]
  · rw [if_neg (show ¬ decide (h.table.length < MAX_LOCAL_SOCKETS) = true from fun hh => hl (of_decide_eq_true hh)), if_neg (fun hh => hl hh.1)]

/-! ### Examples -/

/-- Three connections, in this order. -/
def demoHub : Hub := { table := [⟨7, {}⟩, ⟨8, { monitor := true }⟩, ⟨9, {}⟩], opened := [9, 8, 7] }

/-- A connection is accepted, nothing is readable. -/
def demoJoin (fd : Nat) : Round := { accepted := some (.conn fd true true true), ready := fun _ => false, env := fun _ => [] }

/-- The first client has closed its connection, the last one has sent half a line. -/
def demoLeave : Round :=
  { accepted := none, ready := fun f => f == 7 || f == 9,
    env := fun f => if f = 7 then [(.eof, [])] else [(.data (ascii "half a li"), [])] }

theorem demoHub_reach : HubReach DemoConf.L
    { table := [⟨7, {}⟩, ⟨8, {}⟩, ⟨9, {}⟩], opened := [9, 8, 7] } := by
  have h1 : HubReach DemoConf.L { table := [⟨7, {}⟩], opened := [7] } :=
    .step (r := demoJoin 7) (s := {}) (s' := {}) (l := []) .init (fun _ _ _ _ _ => by simp) (by decide +kernel)
  have h2 : HubReach DemoConf.L { table := [⟨7, {}⟩, ⟨8, {}⟩], opened := [8, 7] } :=
    .step (r := demoJoin 8) (s := {}) (s' := {}) (l := []) h1 (fun _ _ _ _ h => by
      injection h with h; injection h with h; subst h; decide) (by decide +kernel)
  exact .step (r := demoJoin 9) (s := {}) (s' := {}) (l := []) h2 (fun _ _ _ _ h => by
      injection h with h; injection h with h; subst h; decide) (by decide +kernel)

/-- C80: it does happen that a readable connection is passed over: it takes the place of the one that is given up. -/
theorem C80_passed_over_false :
    ∃ (h : Hub) (r : Round) (h' : Hub), HubReach DemoConf.L h ∧ FreshFd h r ∧
      Hub.round DemoConf.L r {} h = some ({}, h', [7]) ∧ 9 ∈ Hub.fds h ∧ r.ready 9 = true ∧ Hub.fds h' = [9, 8] :=
  ⟨_, demoLeave, { table := [⟨9, {}⟩, ⟨8, {}⟩], opened := [9, 8] }, demoHub_reach, (fun _ _ _ _ h => by cases h),
    by decide +kernel, by decide +kernel, by decide +kernel, by decide +kernel⟩

example := C80_round DemoConf.L demoLeave {} {} _ { table := [⟨9, {}⟩, ⟨8, {}⟩], opened := [9, 8] } [7] demoHub_reach
  (fun _ _ _ _ h => by cases h) (by decide +kernel)

/-- In the next turn it is served. -/
example : Hub.round DemoConf.L demoLeave {} { table := [⟨9, {}⟩, ⟨8, {}⟩], opened := [9, 8] } =
    some ({}, { table := [⟨9, { buf := ascii "half a li" }⟩, ⟨8, {}⟩], opened := [9, 8] }, [9]) := by
  decide +kernel

example : HubOk { table := [⟨7, {}⟩, ⟨8, {}⟩, ⟨9, {}⟩], opened := [9, 8, 7] } := C80_resources DemoConf.L _ demoHub_reach

example := C80_accept demoHub (demoJoin 10) 10 true true true rfl

end Babel
