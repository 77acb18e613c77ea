import Verif.Lemmas.Store
import Verif.Lemmas.Demo
import Verif.Lemmas.Reach
/-
C30 stale routes disappear, C49 updates are recorded.
-/
set_option linter.unusedSimpArgs false
set_option linter.unusedVariables false
namespace Babel
open Spec

/-! ### C30 -/

theorem sameRoute_of {r r' : Route} (h : r'.ident = r.ident) : SameRoute r r' := by
  unfold Route.ident at h
  simp only [Prod.mk.injEq] at h
  exact ⟨h.1, h.2.1, h.2.2.1, h.2.2.2.1, h.2.2.2.2.1, h.2.2.2.2.2⟩

/-- C30: the expiry pass terminates (its result does not depend on the bound put on the length of the
table walks, if large enough), and after it no route in the table is past its hold time. -/
theorem C30_expiry {c : Cfg} {s : St} (h : Reachable c s) :
    ∃ f, ∀ fuel, f ≤ fuel → step c s (.expireRoutes fuel) = step c s (.expireRoutes f) ∧
      ∀ r ∈ (step c s (.expireRoutes fuel)).routes, s.now.sec ≤ r.time + r.holdTime := by
  obtain ⟨f, hf⟩ := expireRoutes_terminates c [] s h.inv
  refine ⟨f, fun fuel hle => ?_⟩
  obtain ⟨h1, h2⟩ := hf fuel hle
  refine ⟨congrArg Prod.fst h2, fun r hr => ?_⟩
  have := (expireRoutes_spec c [] fuel s h.inv).2.2 h1 r.ident (List.mem_map.2 ⟨r, hr, rfl⟩)
  unfold NotExp Route.ident at this
  simp only at this
  omega

/-- C30: the expiry pass adds no route, and it removes a route only if it is older than 7/8 of its hold
time or the clock went backwards. -/
theorem C30_expiry_only {c : Cfg} {s : St} (h : Reachable c s) (fuel : Nat) :
    (∀ r' ∈ (step c s (.expireRoutes fuel)).routes, ∃ r ∈ s.routes, SameRoute r r') ∧
    ∀ r ∈ s.routes, r.time ≤ s.now.sec → s.now.sec ≤ r.time + (r.holdTime * 7 / 8 : Nat) →
      ∃ r' ∈ (step c s (.expireRoutes fuel)).routes, SameRoute r r' := by
  obtain ⟨h1, h2, -⟩ := expireRoutes_spec c [] fuel s h.inv
  constructor
  · intro r' hr'
    obtain ⟨r, hr, e⟩ := List.mem_map.1 (h1 r'.ident (List.mem_map.2 ⟨r', hr', rfl⟩))
    exact ⟨r, hr, sameRoute_of e.symm⟩
  · intro r hr ha hb
    obtain ⟨r', hr', e⟩ := List.mem_map.1 (h2 r.ident (List.mem_map.2 ⟨r, hr, rfl⟩) (by
      unfold Due Route.ident; simp only; omega))
    exact ⟨r', hr', sameRoute_of e⟩

theorem removed_of_perm {l l' : List Route} {P : Ident → Bool}
    (h : (l'.map Route.ident).Perm ((l.map Route.ident).filter (fun i => !P i))) :
    Removed (fun r => P r.ident = true) l l' := by
  constructor
  · intro r' hr'
    have := h.mem_iff.1 (List.mem_map.2 ⟨r', hr', rfl⟩)
    rw [List.mem_filter] at this
    obtain ⟨r, hr, e⟩ := List.mem_map.1 this.1
    exact ⟨by simpa using this.2, r, hr, sameRoute_of e.symm⟩
  · intro r hr hp
    obtain ⟨r', hr', e⟩ := List.mem_map.1 (h.mem_iff.2 (List.mem_filter.2
      ⟨List.mem_map.2 ⟨r, hr, rfl⟩, by simpa using hp⟩))
    exact ⟨r', hr', sameRoute_of e⟩

/-- C30: discarding a neighbour removes every route through it and no other route. -/
theorem C30_neighbour {c : Cfg} {s : St} (h : Reachable c s) (n : NeighId) :
    Removed (fun r => r.neigh = n) s.routes (step c s (.flushNeigh n)).routes := by
  have := removed_of_perm (flushWhere_ids c [] (fun i => i.2.1 == n) s h.inv)
  simp only [Route.ident, beq_iff_eq] at this
  exact this

/-- C30: when an interface loses its IPv4 address (`v4only`) or its addresses change, every route
through it, with an IPv4 next hop in the first case, is removed, and no other route. -/
theorem C30_interface {c : Cfg} {s : St} (h : Reachable c s) (i : IfId) (v4only : Bool) :
    Removed (fun r => c.ifOf r.neigh = i ∧ (v4only = true → v4mapped r.nexthop = true)) s.routes
      (step c s (.flushIface i v4only)).routes := by
  have := removed_of_perm (flushWhere_ids c []
    (fun x => c.ifOf x.2.1 == i && (!v4only || v4mapped x.2.2.1)) s h.inv)
  have e : (fun r : Route => c.ifOf r.neigh = i ∧ (v4only = true → v4mapped r.nexthop = true)) =
      (fun r : Route => (c.ifOf r.ident.2.1 == i && (!v4only || v4mapped r.ident.2.2.1)) = true) := by
    funext r
    cases v4only <;> simp [Route.ident]
  rw [e]; exact this

/-- C30: when an interface goes down, every route through it is removed and no other route. -/
theorem C30_down {c : Cfg} {s : St} (h : Reachable c s) (i : IfId) :
    Removed (fun r => c.ifOf r.neigh = i) s.routes (step c s (.ifDown i)).routes := by
  have hi : Inv c (modIf s i (fun x => { x with up := false })) [] :=
    ((frame_modIf s i (fun x => { x with up := false })).ms (A := {}) (c := c) []).inv h.inv
  have := removed_of_perm (flushWhere_ids c [] (fun x => c.ifOf x.2.1 == i && (!false || v4mapped x.2.2.1)) _ hi)
  have e : (fun r : Route => c.ifOf r.neigh = i) =
      (fun r : Route => (c.ifOf r.ident.2.1 == i && (!false || v4mapped r.ident.2.2.1)) = true) := by
    funext r
    simp [Route.ident]
  rw [e]; exact this

/-- At 1015 the routes of the example (hold time 24 s, refreshed at 1000) are kept, at 1022 (7/8 of the
hold time) they are removed; through neighbour 2 there is one route. -/
example : (run Demo.cfg Demo.start (Demo.evs ++ [.tick ⟨1021, 0⟩, .expireRoutes 10])).routes.length = 2 ∧
    (run Demo.cfg Demo.start (Demo.evs ++ [.tick ⟨1022, 0⟩, .expireRoutes 10])).routes.length = 0 ∧
    (run Demo.cfg Demo.start (Demo.evs ++ [.tick ⟨999, 0⟩, .expireRoutes 10])).routes.length = 0 ∧
    ((run Demo.cfg Demo.start (Demo.evs ++ [.flushNeigh 2])).routes.map (·.neigh)) = [1] ∧
    ((run Demo.cfg Demo.start (Demo.evs ++ [.ifDown 10])).routes.map (·.neigh)) = [2] ∧
    ((run Demo.cfg Demo.start (Demo.evs ++ [.flushIface 10 true])).routes.map (·.neigh)) = [2, 1] := by
  decide +kernel

/-! ### C49 -/

/-- C49: an update that must be ignored changes nothing at all. -/
theorem C49_ignored (c : Cfg) (s : St) {id : Option Bytes} {k : PKey} {refm : Nat} {n : NeighId}
    (h : Ignored c id k refm n) (q : UInt16) (interval : Nat) (nh : Option Bytes) :
    step c s (.update id k q refm interval n nh) = s := by
  show updateRoute c s id k q refm interval n nh = s
  unfold updateRoute
  rw [if_pos ((refused_iff c id k refm n).2 h)]

/-- C49: after an update for a known route that is not ignored, the table contains the route with the
announced originator, sequence number and metrics, refreshed unless it is a retraction. -/
theorem C49_known {c : Cfg} {s : St} (h : Reachable c s) {r : Route} (hr : r ∈ s.routes) {id : Option Bytes}
    {refm : Nat} (hn : ¬ Ignored c id r.key refm r.neigh) (q : UInt16) (interval : Nat) (nh : Option Bytes) :
    ∃ r' ∈ (step c s (.update id r.key q refm interval r.neigh nh)).routes,
      Stored r r' s.now.sec (id.getD r.id) q refm (s.ncost r.neigh)
        (c.inputFilter id r.key (some r.neigh) (c.ifOf r.neigh)) (holdTime interval) := by
  have hf : findRoute s r.key r.neigh = some r := findRoute_of_mem h.inv.lst hr
  show ∃ r' ∈ (updateRoute c s id r.key q refm interval r.neigh nh).routes, _
  unfold updateRoute
  rw [if_neg (fun e => hn ((refused_iff ..).1 e))]
  simp only [hf]
  have hs : ∀ k, (sourceFor s (some r) k q).now = s.now ∧ (sourceFor s (some r) k q).ncost = s.ncost ∧
      findRoute (sourceFor s (some r) k q) r.key r.neigh = some r := by
    intro k
    unfold sourceFor ensureSource
    split
    · exact ⟨rfl, rfl, hf⟩
    · split
      · exact ⟨rfl, rfl, hf⟩
      · exact ⟨rfl, rfl, hf⟩
  generalize hid : id.getD r.id = idv
  obtain ⟨h1, h2, h3⟩ := hs ⟨idv, r.key⟩
  generalize sourceFor s (some r) ⟨idv, r.key⟩ q = s0 at h1 h2 h3
  have key := updateExisting_rsame c s0 r idv q refm
    (c.inputFilter id r.key (some r.neigh) (c.ifOf r.neigh)) (holdTimeOf interval)
  obtain ⟨r1, hr1, hst⟩ := applyUpdate_stored (c := c) idv q refm
    (c.inputFilter id r.key (some r.neigh) (c.ifOf r.neigh)) (holdTimeOf interval)
    (!updateFeasible s0 (findSource s0 ⟨idv, r.key⟩) q refm && r.installed && idv != r.id) h3
  obtain ⟨r2, hr2, e2⟩ := key.route hr1
  refine ⟨r2, (findRoute_mem hr2).1, ?_⟩
  rw [content_eq e2]
  rw [← h1, ← h2]
  exact ⟨hst.id, hst.key, hst.neigh, hst.nexthop, hst.seqno, hst.time, hst.hold, hst.metric⟩

/-- C49: an announcement (finite metric, with next hop) through a neighbour that had no route to the
destination creates the route with the announced attributes. -/
theorem C49_new {c : Cfg} {s : St} (h : Reachable c s) {k : PKey} {n : NeighId}
    (hno : ∀ r ∈ s.routes, ¬ (r.key = k ∧ r.neigh = n)) {id : Bytes} {refm : Nat}
    (hn : ¬ Ignored c (some id) k refm n) (hm : refm < INFINITY) (q : UInt16) (interval : Nat) (nh : Bytes) :
    ∃ r ∈ (step c s (.update (some id) k q refm interval n (some nh))).routes,
      r.key = k ∧ r.neigh = n ∧ r.id = id ∧ r.seqno = q ∧ r.refmetric = refm ∧ r.cost = s.ncost n ∧
      r.addMetric = c.inputFilter (some id) k (some n) (c.ifOf n) ∧ r.nexthop = nh ∧
      r.time = s.now.sec ∧ r.holdTime = holdTime interval := by
  have hf : findRoute s k n = none := by
    cases e : findRoute s k n with
    | none => rfl
    | some r => exact absurd (findRoute_mem e).2 (hno r (findRoute_mem e).1)
  show ∃ r' ∈ (updateRoute c s (some id) k q refm interval n (some nh)).routes, _
  unfold updateRoute
  rw [if_neg (fun e => hn ((refused_iff ..).1 e))]
  simp only [hf]
  rw [if_neg (by omega)]
  have hs : (sourceFor s none ⟨id, k⟩ q).now = s.now ∧ (sourceFor s none ⟨id, k⟩ q).ncost = s.ncost ∧
      findRoute (sourceFor s none ⟨id, k⟩ q) k n = none := by
    unfold sourceFor ensureSource
    split
    · exact ⟨rfl, rfl, hf⟩
    · split
      · exact ⟨rfl, rfl, hf⟩
      · exact ⟨rfl, rfl, hf⟩
  generalize sourceFor s none ⟨id, k⟩ q = s0 at hs
  obtain ⟨h1, h2, h3⟩ := hs
  have := updateNew_find c s0 k n id q refm (c.inputFilter (some id) k (some n) (c.ifOf n))
    (holdTimeOf interval) nh h3 k n
  rw [if_pos ⟨rfl, rfl⟩] at this
  obtain ⟨r, hr, e⟩ := Option.map_eq_some_iff.1 this
  refine ⟨r, (findRoute_mem hr).1, ?_⟩
  rw [content_eq e]
  unfold newRoute
  rw [h1, h2]
  exact ⟨rfl, rfl, rfl, rfl, rfl, rfl, rfl, rfl, rfl, rfl⟩

/-- C49: an update never touches the contents of any other route, and creates no other route. -/
theorem C49_others {c : Cfg} {s : St} (h : Reachable c s) (id : Option Bytes) (k : PKey) (q : UInt16)
    (refm interval : Nat) (n : NeighId) (nh : Option Bytes) :
    (∀ r ∈ s.routes, ¬ (r.key = k ∧ r.neigh = n) →
      ∃ r' ∈ (step c s (.update id k q refm interval n nh)).routes, SameContent r r') ∧
    (∀ r' ∈ (step c s (.update id k q refm interval n nh)).routes, ¬ (r'.key = k ∧ r'.neigh = n) →
      ∃ r ∈ s.routes, SameContent r r') := by
  have hi' : Inv c (step c s (.update id k q refm interval n nh)) [] := (h.step _).inv
  have key : ∀ k' n', ¬ (k' = k ∧ n' = n) →
      (findRoute (step c s (.update id k q refm interval n nh)) k' n').map Route.content =
      (findRoute s k' n').map Route.content := by
    intro k' n' hne
    show (findRoute (updateRoute c s id k q refm interval n nh) k' n').map Route.content = _
    unfold updateRoute
    have hs : ∀ o sk, findRoute (sourceFor s o sk q) k' n' = findRoute s k' n' := by
      intro o sk
      unfold findRoute; rw [sourceFor_routes]
    split
    · rfl
    · simp only
      split
      · rfl
      · next i hf _ =>
        split
        · rfl
        · cases nh with
          | none => unfold updateNew; rw [hs]
          | some nh =>
            rw [updateNew_find, if_neg hne, hs]
            unfold findRoute at hf ⊢; rw [sourceFor_routes]; exact hf
      · next r hf _ =>
        rw [(updateExisting_rsame ..).find]
        obtain ⟨-, rfl, rfl⟩ := findRoute_mem hf
        rw [applyUpdate_other _ _ _ _ _ _ hne, hs]
  constructor
  · intro r hr hne
    have := key _ _ hne
    rw [findRoute_of_mem h.inv.lst hr] at this
    obtain ⟨r', hr', e⟩ := Option.map_eq_some_iff.1 this
    exact ⟨r', (findRoute_mem hr').1, sameContent_of e⟩
  · intro r' hr' hne
    have := key _ _ hne
    rw [findRoute_of_mem hi'.lst hr'] at this
    obtain ⟨r, hr, e⟩ := Option.map_eq_some_iff.1 this.symm
    exact ⟨r, (findRoute_mem hr).1, sameContent_of e.symm⟩

/-- C49: a retraction of an unknown route, and an announcement without a next hop, create nothing. -/
theorem C49_nothing {c : Cfg} {s : St} (h : Reachable c s) {k : PKey} {n : NeighId}
    (hno : ∀ r ∈ s.routes, ¬ (r.key = k ∧ r.neigh = n)) {id : Option Bytes} {refm : Nat}
    (q : UInt16) (interval : Nat) (nh : Option Bytes) (hx : INFINITY ≤ refm ∨ nh = none) :
    (step c s (.update id k q refm interval n nh)).routes = s.routes := by
  have hf : findRoute s k n = none := by
    cases e : findRoute s k n with
    | none => rfl
    | some r => exact absurd (findRoute_mem e).2 (hno r (findRoute_mem e).1)
  show (updateRoute c s id k q refm interval n nh).routes = _
  unfold updateRoute
  split
  · rfl
  · simp only [hf]
    split
    · rfl
    · split
      · rfl
      · next hm =>
        rcases hx with hx | hx
        · exact absurd hx hm
        · subst hx; exact sourceFor_routes ..
    · next e _ => simp at e

/-- Neighbour 2 announces a retraction with another router-id and another next hop. -/
def Demo.retracted : St := run Demo.cfg Demo.start (Demo.evs ++ [.tick ⟨1003, 0⟩,
  .update (some (Demo.rid 8)) (Demo.key 1) 9 65535 2000 2 (some (Demo.ll 5))])

example : Demo.retracted.routes.map (fun r => (r.neigh, r.id, r.nexthop)) =
      [(1, Demo.rid 9, Demo.ll 1), (2, Demo.rid 8, Demo.ll 2)] ∧
    Demo.retracted.routes.map (fun r => (r.seqno, r.refmetric, r.time, r.holdTime)) =
      [(7, 200, 1000, 24), (9, 65535, 1000, 120)] := by decide +kernel

end Babel
