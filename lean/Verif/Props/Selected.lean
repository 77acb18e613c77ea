import Verif.Lemmas.Reach2
/-
C22 feasibility distances, C23 source table, C25 and C27 selected routes, C26 kernel table,
C33 own routes, C37 own sequence number.
-/
set_option linter.unusedSimpArgs false
set_option linter.unusedVariables false
namespace Babel
open Spec

/-! ### C22 -/

/-- C22: while the entry of a source stays fresh, no history of events makes its feasibility distance
worse or forgets it. -/
theorem C22_never_worsens {c : Cfg} {s : St} (h : Reachable c s) {k : SKey} {x : Source}
    (hx : findSource s k = some x) (evs : List Ev) (hf : FreshDuring c s k evs) :
    ∃ y, findSource (run c s evs) k = some y ∧ Improves (distOf y) (distOf x) :=
  fd_run evs h.inv hf hx (.refl _)

/-- C22: after a route of another router has been announced with a finite metric, the distance
recorded for its source is at least as good as what was announced.  The alternative: the recorded
seqno was exactly 2^15 away from the announced one (each then compares as newer than the other). -/
theorem C22_announced {c : Cfg} {s : St} (h : Reachable c s) (ev : Ev) {i : IfId} {id : Bytes} {k : PKey}
    {q : UInt16} {m : Nat} (ho : Out.update i id k q m ∈ sent c s ev) (hid : id ≠ c.myid)
    (hm : m < INFINITY) :
    ∃ y e, findSource (after c s ev) ⟨id, k⟩ = some y ∧
      Spec.Fresh (after c s ev) y ∧ Improves (distOf y) e ∧
      (e = (q, m) ∨ e.1 = q + 32768) :=
  announced_fd h.inv ho hid hm

/-- Improving with the same sequence number means a smaller or equal metric. -/
theorem C22_improves_antitone {q : UInt16} {m m' : Nat} (h : Improves (q, m) (q, m'))
    (hn : ∀ d, Improves d (q, m') → Improves (q, m) d → d.1 = q) : m ≤ m' := by
  generalize he : (q, m') = e at h hn
  generalize hd : (q, m) = d at h hn
  have : ∀ d e : Dist, Improves d e → e.1 = q → (∀ x, Improves x e → Improves d x → x.1 = q) → d.2 ≤ e.2 := by
    intro d e h
    induction h with
    | refl e => intros; exact Nat.le_refl _
    | @step d d' e h1 h2 ih =>
      intro he hx
      have hd1 : d.1 = q := hx d h1 (.one h2)
      have hd2 : d'.1 = q := hx d' (h1.step h2) (.refl _)
      have := ih he (fun x hx1 hx2 => hx x hx1 (hx2.step h2))
      rcases h2 with h3 | h3
      · rw [hd1, hd2] at h3; unfold Newer at h3; simp at h3
      · omega
  have := this d e h (by rw [← he]) hn
  rw [← he, ← hd] at this
  exact this

example : (findSource (run Demo.cfg Demo.start Demo.evs) ⟨Demo.rid 9, Demo.key 1⟩).map distOf = some (7, 246) := by
  decide +kernel
example : Out.update 10 (Demo.rid 9) (Demo.key 1) 7 246 ∈
    sent Demo.cfg (run Demo.cfg Demo.start (Demo.evs.take 2)) (.flushUpdates 10) := by decide +kernel
/-- The distance really changes: a better metric is announced later. -/
example : (findSource (run Demo.cfg Demo.start (Demo.evs ++
      [.update (some (Demo.rid 9)) (Demo.key 1) 7 50 400 2 (some (Demo.ll 2)), .fullUpdate 10 false,
       .flushUpdates 10])) ⟨Demo.rid 9, Demo.key 1⟩).map distOf
    = some (7, 146) := by decide +kernel

/-! ### C23 -/

/-- C23: the use count of every source is the number of routes from it, there is one entry per
source, and every route's source has an entry. -/
theorem C23_use_counts {c : Cfg} {s : St} (h : Reachable c s) :
    (∀ x ∈ s.sources, x.routeCount = (s.routes.filter (fun r => r.skey == x.skey)).length) ∧
    (s.sources.map (·.skey)).Nodup ∧ (∀ r ∈ s.routes, ∃ x ∈ s.sources, x.skey = r.skey) := by
  have hs := h.inv.src
  refine ⟨fun x hx => ?_, hs.nodup, fun r hr => hs.has _ ?_⟩
  · rw [hs.count x hx]
    unfold refs
    rw [List.countP_eq_length_filter]
    simp
  · have : 0 < s.routes.countP (fun x => x.skey == r.skey) := List.countP_pos_iff.2 ⟨r, hr, by simp⟩
    unfold refs; omega

/-- C23: only garbage collection forgets a source, and only if no route uses it and it was not
refreshed for more than 200 s. -/
theorem C23_forgotten {c : Cfg} {s : St} (h : Reachable c s) (ev : Ev) {k : SKey} {x : Source}
    (hx : findSource s k = some x) (hn : findSource (step c s ev) k = none) :
    ev = .expireSources ∧ (∀ r ∈ s.routes, r.skey ≠ k) ∧ x.time < s.now.sec - 200 := by
  have hgc : (allowEv ev).gc := by
    rcases Classical.em (allowEv ev).gc with hg | hg
    · exact hg
    · have := ((run_ms c h.inv ev).others h.inv).2.2.2 hg k (by rw [hx]; rfl)
      rw [hn] at this; simp at this
  cases ev with
  | expireSources =>
    refine ⟨rfl, ?_⟩
    have hk := findSource_key hx
    have hn : ∀ y ∈ (expireSources s).sources, ¬ (y.skey == k) = true := List.find?_eq_none.1 hn
    have hcnt := (C23_use_counts h).1 x hk.2
    by_cases hst : x.routeCount = 0 ∧ x.time < s.now.sec - 200
    · refine ⟨fun r hr e => ?_, hst.2⟩
      rw [hst.1] at hcnt
      have := List.length_eq_zero_iff.1 hcnt.symm
      have := List.filter_eq_nil_iff.1 this r hr
      rw [e, hk.1] at this
      simp at this
    · exfalso
      refine hn (if x.time > s.now.sec then { x with time := s.now.sec } else x) ?_ ?_
      · unfold expireSources
        simp only [List.mem_filter, List.mem_map]
        refine ⟨⟨x, hk.2, rfl⟩, ?_⟩
        unfold SOURCE_GC_TIME
        split
        · simp; omega
        · simp only [Bool.not_eq_true', Bool.and_eq_false_iff, beq_eq_false_iff_ne,
            decide_eq_false_iff_not]
          rw [← Decidable.not_and_iff_not_or_not]
          exact hst
      · split <;> simp [hk.1]
  | _ => exact absurd hgc (by simp [allowEv, allowUpd, allowBump])

/-- C23: garbage collection does remove the sources that are unused and stale. -/
theorem C23_collects {c : Cfg} {s : St} (h : Reachable c s) {k : SKey} {x : Source}
    (hx : findSource s k = some x) (hu : ∀ r ∈ s.routes, r.skey ≠ k) (ht : x.time < s.now.sec - 200) :
    findSource (step c s .expireSources) k = none := by
  have hk := findSource_key hx
  have hcnt := (C23_use_counts h).1 x hk.2
  have h0 : x.routeCount = 0 := by
    rw [hcnt, List.length_eq_zero_iff, List.filter_eq_nil_iff]
    intro r hr
    rw [hk.1]
    simpa using hu r hr
  apply List.find?_eq_none.2
  intro y hy
  unfold step expireSources at hy
  simp only [List.mem_filter, List.mem_map] at hy
  obtain ⟨⟨z, hz, e⟩, hy2⟩ := hy
  intro hyk
  have hzk : z.skey = k := by rw [← e] at hyk; split at hyk <;> simpa using hyk
  have : z = x := by
    have := h.inv.src.nodup
    by_cases hzx : z = x
    · exact hzx
    · have hp := List.pairwise_map.1 this
      have hp1 : s.sources.Pairwise (fun a b => a ≠ b → a.skey ≠ b.skey) :=
        hp.imp (fun {a b} h (_ : a ≠ b) => h)
      have hp2 : s.sources.Pairwise (fun a b => b ≠ a → b.skey ≠ a.skey) :=
        hp.imp (fun {a b} h (_ : b ≠ a) e => h e.symm)
      have hs : ∀ a ∈ s.sources, ∀ b ∈ s.sources, a ≠ b → a.skey ≠ b.skey := by
        exact fun a ha b hb hab => List.Pairwise.forall_of_forall_of_flip
          (R := fun a b => a ≠ b → a.skey ≠ b.skey)
          (fun x _ h => absurd rfl h) hp1 hp2 ha hb hab
      exact absurd (hzk.trans hk.1.symm) (hs z hz x hk.2 hzx)
  subst this
  rw [if_neg (by omega)] at e
  subst e
  unfold SOURCE_GC_TIME at hy2
  simp [h0] at hy2
  omega

example : ((run Demo.cfg Demo.start Demo.evs).sources.map (fun x => (x.skey, x.routeCount))) =
    [(⟨Demo.rid 9, Demo.key 1⟩, 2)] := by decide +kernel
/-- A source is forgotten when its routes are gone and 201 s have passed, not at 200 s. -/
example : (run Demo.cfg Demo.start (Demo.evs ++ [.flushNeigh 1, .flushNeigh 2, .tick ⟨1200, 0⟩, .expireSources])).sources.length = 1 ∧
    (run Demo.cfg Demo.start (Demo.evs ++ [.flushNeigh 1, .flushNeigh 2, .tick ⟨1201, 0⟩, .expireSources])).sources.length = 0 := by
  decide +kernel

/-! ### C25 -/

/-- C25: at most one route per destination is selected. -/
theorem C25_unique {c : Cfg} {s : St} (h : Reachable c s) {k : PKey} {n m : NeighId}
    (h1 : Selected s k n) (h2 : Selected s k m) : n = m := by
  obtain ⟨r, a1, a2, a3, a4⟩ := h1
  obtain ⟨r', b1, b2, b3, b4⟩ := h2
  have h1 := (findInstalled_iff h.inv.lst).2 ⟨a1, a2, a4⟩
  have h2 := (findInstalled_iff h.inv.lst).2 ⟨b1, b2, b4⟩
  rw [h1] at h2
  cases h2
  rw [← a3, ← b3]

/-- C25: the lookup of the selected route returns it iff there is one. -/
theorem C25_found {c : Cfg} {s : St} (h : Reachable c s) {k : PKey} {r : Route} :
    findInstalled s k = some r ↔ r ∈ s.routes ∧ r.key = k ∧ r.installed = true :=
  findInstalled_iff h.inv.lst

example : Selected (run Demo.cfg Demo.start Demo.evs) (Demo.key 1) 2 ∧
    ¬ Selected (run Demo.cfg Demo.start Demo.evs) (Demo.key 1) 1 := by
  unfold Selected; decide +kernel

/-! ### C27 -/

/-- C27: every route that is selected after an event and was not before became selected during the
event (several changes of mind are possible); each time, it was feasible, not expired unless it was
unreachable, and better by the hysteresis rule than the route it replaced. -/
theorem C27_newly_selected {c : Cfg} {s : St} (h : Reachable c s) (ev : Ev) {k : PKey} {n : NeighId}
    (hn : Selected (after c s ev) k n) (ho : ¬ Selected s k n) :
    ∃ r fd old, Out.selected r fd s.now.sec old ∈ sent c s ev ∧ r.key = k ∧ r.neigh = n := by
  unfold sent after at *
  by_cases hA : (allowEv ev).env
  · exfalso; apply ho
    unfold Selected at hn ⊢
    rw [(env_keeps hA).2.2.1] at hn
    exact hn
  · have hms := run_ms c h.inv.take ev
    rcases hms.sel hA h.inv.take hn with h1 | ⟨r, fd, old, h1, h2⟩
    · exact absurd h1 ho
    · rw [hms.now hA h.inv.take] at h1
      exact ⟨r, fd, old, h1, h2⟩

/-- C27: whenever a route becomes selected. -/
theorem C27_selection {c : Cfg} {s : St} (h : Reachable c s) (ev : Ev) : ∀ o ∈ sent c s ev, SelectionOk o :=
  (run_ms c h.inv.take ev).selection h.inv.take (by simp)

/-- C27: the warnings about unfeasible routes being selected are never printed. -/
theorem C27_never_warns {c : Cfg} {s : St} (h : Reachable c s) (ev : Ev) (k : PKey) (n : NeighId) :
    Out.warnUnfeasible k n ∉ sent c s ev := by
  intro ho
  have := (run_ms c h.inv.take ev).no_warn h.inv.take ho
  simp at this

/-- A route is selected in the running example, replacing another. -/
example : ((sent Demo.cfg (run Demo.cfg Demo.start (Demo.evs.take 1)) (Demo.evs.getD 1 .flushAll)).filterMap
    (fun | .selected r fd now old => some (r.neigh, r.refmetric, fd.map (·.metric), now, old.map (·.neigh)) | _ => none)) =
    [(2, 150, some INFINITY, 1000, some 1)] := by decide +kernel

/-- The finite-metric part of C27 does not hold: when the selected route is lost, an unreachable route
through another neighbour becomes selected. -/
theorem C27_unreachable_selected :
    let s := run Demo.cfg Demo.start (Demo.evs ++
      [.update (some (Demo.rid 9)) (Demo.key 1) 7 65535 400 1 (some (Demo.ll 1))])
    let s' := step Demo.cfg s (.flushNeigh 2)
    Reachable Demo.cfg s ∧ ¬ Selected s (Demo.key 1) 1 ∧
    ∃ r ∈ s'.routes, r.key = Demo.key 1 ∧ r.neigh = 1 ∧ r.installed = true ∧ INFINITY ≤ routeMetric r := by
  refine ⟨Demo.reachable_run (.init ..) _, ?_, ?_⟩
  · unfold Selected; decide +kernel
  · decide +kernel

/-! ### C33 -/

/-- C33: no stored route was originated by this router, and no destination or source prefix of a
stored route is martian. -/
theorem C33_not_own {c : Cfg} {s : St} (h : Reachable c s) (r : Route) (hr : r ∈ s.routes) :
    r.id ≠ c.myid ∧ martianPrefix r.key.prefix_ r.key.plen = false ∧
    martianPrefix r.key.srcPrefix r.key.srcPlen = false :=
  ⟨(h.inv.lst.ok r hr).1, (h.inv.lst.ok r hr).2.1, (h.inv.lst.ok r hr).2.2.1⟩

/-- Its own announcement comes back through a neighbour: nothing is stored. -/
example : (step Demo.cfg Demo.start (.update (some (Demo.rid 1)) (Demo.key 1) 7 200 400 1 (some (Demo.ll 1)))).routes = [] ∧
    (run Demo.cfg Demo.start Demo.evs).routes.length = 2 := by decide +kernel

/-! ### C26 -/

/-- C26: if the kernel accepts everything, then after any history the kernel table contains exactly
the entries of the selected routes, with next hop, interface and metric. -/
theorem C26_kernel_mirror {c : Cfg} (ht : TablePerDestination c) (now : Timeval) (q : UInt16)
    (ifs : List Iface) (nc : NeighId → Nat) (rnd : Nat → Nat) (evs : List Ev)
    (hg : ∀ ev ∈ evs, SaneNexthop ev) (e : KEntry) :
    let s := run c (St.init now q ifs nc rnd (fun _ => .ok)) evs
    e ∈ s.fib ↔ ∃ r ∈ s.routes, r.installed = true ∧ entry c r = some e := by
  intro s
  have hf := fib_run ht now q ifs nc rnd evs hg
  have hi : Inv c s [] := (Inv.init c now q ifs nc rnd (fun _ => .ok)).run evs
  have hk := hf.fib e.key
  have hkey : ∀ r, entry c r = some e → r.key = e.key := by
    intro r h
    unfold entry at h
    split at h
    · split at h
      · simp at h
      · cases h; rfl
    · cases h; rfl
  constructor
  · intro he
    have : e ∈ s.fib.filter (fun x => x.key == e.key) := by simp [he]
    rw [hk] at this
    simp only [Option.mem_toList, wantOf, Option.mem_def, Option.bind_eq_some_iff] at this
    obtain ⟨r, h1, h2⟩ := this
    have h3 := (selOf_iff hi.lst).1 h1
    exact ⟨r, h3.1, h3.2.2, by rw [← kentry_entry]; exact h2⟩
  · rintro ⟨r, h1, h2, h3⟩
    have hs : selOf s.routes e.key = some r := (selOf_iff hi.lst).2 ⟨h1, hkey r h3, h2⟩
    have : e ∈ (wantOf c s.routes e.key).toList := by
      unfold wantOf; rw [hs]; simp [kentry_entry, h3]
    rw [← hk] at this
    exact (List.mem_filter.1 this).1

/-- C26: there is never more than one kernel entry for a destination. -/
theorem C26_one_entry {c : Cfg} (ht : TablePerDestination c) (now : Timeval) (q : UInt16)
    (ifs : List Iface) (nc : NeighId → Nat) (rnd : Nat → Nat) (evs : List Ev)
    (hg : ∀ ev ∈ evs, SaneNexthop ev) (k : PKey) :
    ((run c (St.init now q ifs nc rnd (fun _ => .ok)) evs).fib.filter (fun e => e.key == k)).length ≤ 1 := by
  rw [(fib_run ht now q ifs nc rnd evs hg).fib k]
  cases wantOf c _ k <;> simp

/-- C26: after shutdown the kernel table is empty. -/
theorem C26_shutdown {c : Cfg} (ht : TablePerDestination c) (now : Timeval) (q : UInt16)
    (ifs : List Iface) (nc : NeighId → Nat) (rnd : Nat → Nat) (evs : List Ev)
    (hg : ∀ ev ∈ evs, SaneNexthop ev) :
    (run c (St.init now q ifs nc rnd (fun _ => .ok)) (evs ++ [.flushAll])).fib = [] := by
  have hg' : ∀ ev ∈ evs ++ [.flushAll], SaneNexthop ev := by
    intro ev h
    rcases List.mem_append.1 h with h | h
    · exact hg ev h
    · simp at h; subst h; trivial
  have hr : (run c (St.init now q ifs nc rnd (fun _ => .ok)) (evs ++ [.flushAll])).routes = [] := by
    unfold run
    rw [List.foldl_append]
    exact flushAll_ids c [] _ ((Inv.init c now q ifs nc rnd (fun _ => .ok)).run evs)
  rw [List.eq_nil_iff_forall_not_mem]
  intro e he
  obtain ⟨r, h1, -⟩ := (C26_kernel_mirror ht now q ifs nc rnd _ hg' e).1 he
  rw [hr] at h1; simp at h1

/-- The hypotheses are met by the running example, with a non-empty kernel table. -/
example : TablePerDestination Demo.cfg ∧ (∀ ev ∈ Demo.evs, SaneNexthop ev) ∧
    (run Demo.cfg Demo.start Demo.evs).fib = [⟨254, Demo.key 1, some (Demo.ll 2, 20, 0)⟩] ∧
    (run Demo.cfg Demo.start (Demo.evs ++ [.flushAll])).fib = [] := by
  refine ⟨fun _ _ _ => rfl, ?_, ?_⟩
  · intro ev h
    simp only [Demo.evs, List.mem_cons, List.not_mem_nil, or_false] at h
    rcases h with rfl | rfl | rfl | rfl <;> (unfold SaneNexthop; decide)
  · decide +kernel

/-- An IPv4-mapped next hop for an IPv6 destination. -/
def Demo.badEvs : List Ev :=
  [.update (some (Demo.rid 9)) (Demo.key 1) 7 200 400 1 (some (Demo.ll 1)),
   .update (some (Demo.rid 9)) (Demo.key 1) 7 150 400 2
     (some [0, 0, 0, 0, 0, 0, 0, 0, 0, 0, 0xff, 0xff, 192, 0, 2, 1])]

/-- Without `SaneNexthop` C26 fails even though the kernel never refuses anything: the kernel route of
the selected route has been deleted, the replacement was refused by `kernel_route` itself. -/
theorem C26_needs_sane_nexthop :
    let s := run Demo.cfg Demo.start Demo.badEvs
    s.fib = [] ∧ ∃ r ∈ s.routes, r.installed = true ∧ (entry Demo.cfg r).isSome := by decide +kernel

/-- An install filter that puts routes through interface 20 into table 100. -/
def Demo.tableCfg : Cfg := { Demo.cfg with installFilter := fun _ _ i => (0, if i = 20 then 100 else 0) }

/-- Without `TablePerDestination` C26 fails: the route stays in the table of the old route. -/
theorem C26_needs_table_per_destination :
    let s := run Demo.tableCfg Demo.start Demo.evs
    s.fib = [⟨254, Demo.key 1, some (Demo.ll 2, 20, 0)⟩] ∧
    ∃ r ∈ s.routes, r.installed = true ∧ entry Demo.tableCfg r = some ⟨100, Demo.key 1, some (Demo.ll 2, 20, 0)⟩ := by
  decide +kernel

/-! ### C37 -/

/-- C37: on a legitimate demand the sequence number increases by exactly one. -/
theorem C37_increments {c : Cfg} {s : St} (h : Reachable c s) {ev : Ev} (hd : Demanded c s ev) :
    (step c s ev).myseqno = s.myseqno + 1 := by
  obtain ⟨n, k, hop, q, x, rfl, h1, h2, h3, h4, h5⟩ := hd
  show (handleRequest c s n k hop q c.myid).myseqno = _
  unfold handleRequest
  rw [(preferred_iff h.inv).2 ⟨h2, h3, h4⟩]
  simp only
  have := (seqno_demand q s.myseqno).2 h5
  unfold answerOwn
  rw [if_pos ⟨h1, rfl, this.1⟩, if_neg this.2]
  rw [(qms_sendUpdateIf ..).same.myseqno]
  show seqnoPlus s.myseqno 1 = _
  unfold seqnoPlus
  apply UInt16.toNat_inj.1
  have := s.myseqno.toNat_lt
  simp [UInt16.toNat_add]
  omega

/-- C37: otherwise it does not change. -/
theorem C37_otherwise {c : Cfg} {s : St} (h : Reachable c s) {ev : Ev} (hd : ¬ Demanded c s ev) :
    (step c s ev).myseqno = s.myseqno := by
  by_cases hb : (allowEv ev).bump
  · cases ev with
    | seqnoRequest n k hop q id =>
      show (handleRequest c s n k hop q id).myseqno = _
      cases hp : preferredXroute c s k with
      | none => exact ((handleRequest_quiet c s n k hop q id hp).others h.inv).1 (fun h => h)
      | some x =>
        unfold handleRequest
        rw [hp]
        simp only
        unfold answerOwn
        split
        · next hc =>
          split
          · rfl
          · next hc2 =>
            exfalso; apply hd
            obtain ⟨a1, a2, a3⟩ := (preferred_iff h.inv).1 hp
            obtain ⟨b1, rfl, b3⟩ := hc
            exact ⟨n, k, hop, q, x, rfl, b1, a1, a2, a3, (seqno_demand q s.myseqno).1 ⟨b3, hc2⟩⟩
        · exact (qms_sendUpdateIf ..).same.myseqno
    | _ => exact hb.elim
  · exact ((run_ms c h.inv ev).others h.inv).1 hb

/-- A redistributed route and a demand for it. -/
def Demo.own : List Ev := [.kernelRoute true ⟨Demo.key 2, 0, 30, 4⟩]

example : (step Demo.cfg (run Demo.cfg Demo.start Demo.own)
      (.seqnoRequest 1 (Demo.key 2) 5 6 (Demo.rid 1))).myseqno = 6 ∧
    (step Demo.cfg (run Demo.cfg Demo.start Demo.own)
      (.seqnoRequest 1 (Demo.key 2) 5 90 (Demo.rid 1))).myseqno = 6 ∧
    (step Demo.cfg (run Demo.cfg Demo.start Demo.own)
      (.seqnoRequest 1 (Demo.key 2) 5 6 (Demo.rid 2))).myseqno = 5 ∧
    (step Demo.cfg (run Demo.cfg Demo.start Demo.own)
      (.seqnoRequest 1 (Demo.key 2) 5 5 (Demo.rid 1))).myseqno = 5 ∧
    (step Demo.cfg (run Demo.cfg Demo.start Demo.own)
      (.seqnoRequest 1 (Demo.key 2) 5 106 (Demo.rid 1))).myseqno = 5 := by decide +kernel

end Babel
