import Verif.Lemmas.Net
/-
The invariant of `Net.lean` is kept by announcements and by the other transitions.
-/
set_option linter.unusedSimpArgs false
set_option linter.unusedVariables false
set_option linter.unusedSectionVars false
namespace Babel
open Spec

section
variable {c : Cfg} {sk : SKey} {b : UInt16} {Lo : NeighId → Nat → Prop}

theorem updatedSource_rank {now : Int} {q : UInt16} {m : Nat} {x : Source} (hf : now - 200 ≤ x.time)
    (hx : Win b x.seqno) (hxm : x.metric ≤ INFINITY) (hq : Win b q) (hm : m < INFINITY) :
    now - 200 ≤ (updatedSource now q m x).time ∧
    (distOf (updatedSource now q m x) = (q, m) ∧ rank b (q, m) < rank b (distOf x) ∨
     distOf (updatedSource now q m x) = distOf x ∧ rank b (distOf x) ≤ rank b (q, m)) := by
  unfold updatedSource SOURCE_GC_TIME
  rw [if_neg (by omega)]
  split
  · next hc =>
    refine ⟨by show now - 200 ≤ now; omega, .inl ⟨rfl, ?_⟩⟩
    rcases hc with hc | hc | hc
    · omega
    · have h1 := seqnoCompare_neg.1 hc
      exact rank_newer hq hx ⟨h1.1, by have := h1.2; omega⟩ (Nat.le_of_lt hm)
    · show _ < rank b (x.seqno, x.metric)
      rw [hc.1]; exact rank_metric hc.2
  · next hc =>
    refine ⟨by show now - 200 ≤ now; omega, .inr ⟨rfl, ?_⟩⟩
    show rank b (x.seqno, x.metric) ≤ _
    by_cases he : q = x.seqno
    · rw [he]
      refine rank_metric_le (Nat.not_lt.1 fun h => hc (.inr (.inr ⟨he.symm, h⟩)))
    · exact Nat.le_of_lt (rank_newer hx hq (win_total hq hx he
        (fun h => hc (.inr (.inl (seqnoCompare_neg.2 h))))) hxm)

theorem NInv.frame {s s' : St} (h : NInv c sk b Lo s) (hf : Frame s s') :
    NInv c sk b Lo s' ∧ FdLe b sk s s' := by
  have e := srcv_keep (sk := sk) hf.now hf.sources
  refine ⟨h.same e hf.ncost (KSub.of_eq hf.kres).sub ?_ ?_, FdLe.of_eq e⟩
  · intro i q m ho
    right
    have h1 : Out.update i sk.id sk.key q m ∈ s'.out.filter (fun o => !o.minor) := by
      simp [ho, Out.minor]
    rw [hf.out] at h1
    exact (List.mem_filter.1 h1).1
  · intro r hr
    obtain ⟨r0, h0, e0⟩ := mem_core hf.routes hr
    exact (h.routes r0 h0).core e0

theorem NInv.send {s : St} (h : NInv c sk b Lo s) (i : IfId) (k : PKey) (q : UInt16) (m : Nat) :
    NInv c sk b Lo (reallySend c s i c.myid k q m) ∧ FdLe b sk s (reallySend c s i c.myid k q m) := by
  rcases reallySend_eq c s i c.myid k q m with e | ⟨m', e, _⟩ <;> rw [e]
  · exact ⟨h, FdLe.refl b sk s⟩
  · refine ⟨h.same rfl rfl (KSub.of_eq rfl).sub ?_ h.routes, FdLe.of_eq rfl⟩
    intro i' q' m1 ho
    rcases List.mem_cons.1 ho with ho | ho
    · left
      injection ho
    · exact .inr ho

theorem NInv.announce {s : St} (h : NInv c sk b Lo s) (hl : LInv c s.routes) (i : IfId) {r : Route}
    (hs : (findSource s r.skey).isSome) (hr : findInstalled s r.key = some r) :
    NInv c sk b Lo (updateSource (reallySend c s i r.id r.key r.seqno (routeMetric r)) r.skey r.seqno
      (routeMetric r)) ∧
    FdLe b sk s (updateSource (reallySend c s i r.id r.key r.seqno (routeMetric r)) r.skey r.seqno
      (routeMetric r)) := by
  obtain ⟨hrm, _, hri⟩ := findInstalled_mem hr
  -- the fields of the new state
  have hk := reallySend_keep c s i r.id r.key r.seqno (routeMetric r)
  have key : ∃ l, (reallySend c s i r.id r.key r.seqno (routeMetric r)) = { s with out := l } ∧
      ∀ i' id k q m, Out.update i' id k q m ∈ l → Out.update i' id k q m ∈ s.out ∨
        (id = r.id ∧ k = r.key ∧ q = r.seqno ∧ (m < INFINITY → routeMetric r ≤ m)) := by
    rcases reallySend_eq c s i r.id r.key r.seqno (routeMetric r) with e | ⟨m', e, e2, _⟩
    · exact ⟨s.out, by rw [e], fun _ _ _ _ _ h => .inl h⟩
    · refine ⟨_, e, fun i' id k q m ho => ?_⟩
      rcases List.mem_cons.1 ho with ho | ho
      · injection ho with h1 h2 h3 h4 h5
        right
        refine ⟨h2, h3, h4, fun h6 => ?_⟩
        rw [h5, e2] at h6 ⊢
        omega
      · exact .inl ho
  obtain ⟨l, el, hl2⟩ := key
  rw [el]
  have efs : findSource (updateSource { s with out := l } r.skey r.seqno (routeMetric r)) sk =
      (findSource s sk).map (fun x => if x.skey == r.skey then
        updatedSource s.now.sec r.seqno (routeMetric r) x else x) :=
    findSource_mod { s with out := l } r.skey sk _ (fun x => updatedSource_skey ..)
  have hnow : (updateSource { s with out := l } r.skey r.seqno (routeMetric r)).now = s.now := rfl
  by_cases hsk : r.skey = sk
  · rw [hsk] at hs
    cases hx : findSource s sk with
    | none => rw [hx] at hs; simp at hs
    | some x =>
      have exk := (findSource_key hx).1
      rw [hx] at efs
      simp only [Option.map_some] at efs
      rw [if_pos (by rw [exk, hsk]; simp)] at efs
      have e0 : srcv s sk = some (distOf x, decide (s.now.sec - 200 ≤ x.time)) := by
        unfold srcv; rw [hx]; rfl
      have f0 : fdr b s sk = some (rank b (distOf x)) := by unfold fdr; rw [e0]; rfl
      obtain ⟨hw, hxm, hfr⟩ := h.src _ _ e0
      have hfr := of_decide_eq_true hfr
      by_cases hm : routeMetric r < INFINITY
      · have href : r.refmetric < INFINITY := by unfold routeMetric at hm; omega
        have hp := (h.routes r hrm).pair hsk href
        have hlt : r.refmetric < routeMetric r := by
          have := (h.routes r hrm).cost
          unfold routeMetric at hm ⊢
          omega
        obtain ⟨h1, h2⟩ := updatedSource_rank (b := b) hfr hw hxm hp.1 hm
        generalize updatedSource s.now.sec r.seqno (routeMetric r) x = x' at efs h1 h2
        generalize hs' : updateSource { s with out := l } r.skey r.seqno (routeMetric r) = s' at efs hnow
        have e1 : srcv s' sk = some (distOf x', true) := by
          unfold srcv; rw [efs, hnow]; simp [h1]
        have f1 : fdr b s' sk = some (rank b (distOf x')) := by unfold fdr; rw [e1]; rfl
        have hle : rank b (distOf x') ≤ rank b (distOf x) := by
          rcases h2 with ⟨e, h3⟩ | ⟨e, h3⟩ <;> rw [e] <;> omega
        have hle2 : rank b (distOf x') ≤ rank b (r.seqno, routeMetric r) := by
          rcases h2 with ⟨e, h3⟩ | ⟨e, h3⟩ <;> rw [e] <;> omega
        have hfd : FdLe b sk s s' := by
          intro f hf
          rw [f0] at hf; cases hf
          exact ⟨_, f1, hle⟩
        have hro : s'.routes = s.routes := by rw [← hs']; rfl
        have hou : s'.out = l := by rw [← hs']; rfl
        refine ⟨⟨?_, ?_, ?_, ?_, ?_⟩, hfd⟩
        · intro d f hd
          rw [e1] at hd
          injection hd with hd; injection hd with h3 h4
          subst h3 h4
          rcases h2 with ⟨e, _⟩ | ⟨e, _⟩ <;> rw [e]
          · exact ⟨hp.1, Nat.le_of_lt hm, rfl⟩
          · exact ⟨hw, hxm, rfl⟩
        · intro y hy
          rw [hro] at hy
          have hy1 := h.routes y hy
          refine ⟨hy1.cost, hy1.fam, hy1.pair, fun h3 h4 h5 => ?_⟩
          have hyr : y = r := by
            have e2 : y.key = r.key := by
              have h6 : y.skey = r.skey := by rw [h3, hsk]
              exact (congrArg SKey.key h6 : _)
            have h7 := (findInstalled_iff hl).2 ⟨hy, rfl, h4⟩
            rw [e2, hr] at h7
            exact (Option.some.inj h7).symm
          subst hyr
          rcases h2 with ⟨e, _⟩ | ⟨e, _⟩
          · refine ⟨_, _, f1, hp.2, ?_⟩
            rw [e]; exact rank_metric hlt
          · obtain ⟨f, v, h6, h7, h8⟩ := hy1.edge h3 h4 h5
            rw [f0] at h6; cases h6
            exact ⟨_, v, f1, h7, by rw [e]; exact h8⟩
        · intro n; rw [← hs']; exact h.ncost n
        · intro n; rw [← hs']; exact h.kres n
        · intro hid i' q m ho hmm
          rw [hou] at ho
          rcases hl2 _ _ _ _ _ ho with h3 | ⟨_, _, h3, h4⟩
          · obtain ⟨h5, f, h6, h7⟩ := h.out hid i' q m h3 hmm
            rw [f0] at h6; cases h6
            exact ⟨h5, _, f1, Nat.le_trans hle h7⟩
          · rw [h3]
            exact ⟨hp.1, _, f1, Nat.le_trans hle2 (rank_metric_le (h4 hmm))⟩
      · have e1 : updatedSource s.now.sec r.seqno (routeMetric r) x = x := by
          unfold updatedSource; rw [if_pos (by omega)]
        rw [e1] at efs
        have e2 : srcv (updateSource { s with out := l } r.skey r.seqno (routeMetric r)) sk = srcv s sk := by
          unfold srcv; rw [efs, hx]; rfl
        refine ⟨?_, FdLe.of_eq e2⟩
        have f1 : fdr b (updateSource { s with out := l } r.skey r.seqno (routeMetric r)) sk = fdr b s sk := by
          unfold fdr; rw [e2]
        refine ⟨by rw [e2]; exact h.src, by rw [f1]; exact h.routes, h.ncost, h.kres, ?_⟩
        intro hid i' q m ho hmm
        rw [f1]
        rcases hl2 _ _ _ _ _ ho with h3 | ⟨_, _, h3, h4⟩
        · exact h.out hid i' q m h3 hmm
        · exact absurd (h4 hmm) (by omega)
  · have e2 : srcv (updateSource { s with out := l } r.skey r.seqno (routeMetric r)) sk = srcv s sk := by
      unfold srcv
      rw [efs]
      cases hx : findSource s sk with
      | none => rfl
      | some x =>
        simp only [Option.map_some]
        rw [if_neg (by rw [(findSource_key hx).1]; simpa using fun e => hsk e.symm)]
        rfl
    refine ⟨h.same e2 rfl (KSub.of_eq rfl).sub ?_ h.routes, FdLe.of_eq e2⟩
    intro i' q m ho
    rcases hl2 _ _ _ _ _ ho with h3 | ⟨h3, h4, _⟩
    · exact .inr h3
    · exact absurd (show (⟨r.id, r.key⟩ : SKey) = sk by rw [← h3, ← h4]) hsk

/-! ### Sources -/

theorem gc_find {s : St} {k : SKey} {y : Source} (h1 : findSource s k = some y) (h2 : s.now.sec - 200 ≤ y.time) :
    findSource (expireSources s) k = some (if y.time > s.now.sec then { y with time := s.now.sec } else y) := by
  have hp : (!((if y.time > s.now.sec then { y with time := s.now.sec } else y).routeCount == 0 &&
        decide ((if y.time > s.now.sec then { y with time := s.now.sec } else y).time <
          s.now.sec - SOURCE_GC_TIME))) = true := by
    unfold SOURCE_GC_TIME
    simp only [Bool.not_eq_true', Bool.and_eq_false_iff]
    right
    simp only [decide_eq_false_iff_not]
    split
    · show ¬ s.now.sec < s.now.sec - 200
      omega
    · omega
  have key : ∀ l : List Source, l.find? (fun x => x.skey == k) = some y →
      ((l.map (fun x => if x.time > s.now.sec then { x with time := s.now.sec } else x)).filter
        (fun x => !(x.routeCount == 0 && decide (x.time < s.now.sec - SOURCE_GC_TIME)))).find?
        (fun x => x.skey == k) =
        some (if y.time > s.now.sec then { y with time := s.now.sec } else y) := by
    intro l
    induction l with
    | nil => simp
    | cons a l ih =>
      intro h
      rw [List.find?_cons] at h
      rw [List.map_cons, List.filter_cons]
      cases hak : a.skey == k with
      | true =>
        rw [hak] at h
        simp at h
        rw [h, hp]
        simp only [if_true]
        rw [List.find?_cons]
        have : ((if y.time > s.now.sec then { y with time := s.now.sec } else y).skey == k) = true := by
          rw [← h]
          split <;> exact hak
        rw [this]
      | false =>
        rw [hak] at h
        have := ih (by simpa using h)
        have h5 : ((if a.time > s.now.sec then { a with time := s.now.sec } else a).skey == k) = false := by
          split <;> exact hak
        generalize (if a.time > s.now.sec then { a with time := s.now.sec } else a) = a' at h5 ⊢
        split
        · rw [List.find?_cons]
          rw [h5]; exact this
        · exact this
  exact key s.sources h1

theorem gc_none {s : St} {k : SKey} (h1 : findSource s k = none) : findSource (expireSources s) k = none := by
  unfold findSource at h1 ⊢
  rw [List.find?_eq_none] at h1 ⊢
  intro x hx
  have h2 := (List.mem_filter.1 (show x ∈ List.filter _ _ from hx)).1
  obtain ⟨y, hy, e⟩ := List.mem_map.1 h2
  have := h1 y hy
  rw [← e]
  split <;> exact this

theorem NInv.gc {s : St} (h : NInv c sk b Lo s) :
    NInv c sk b Lo (expireSources s) ∧ FdLe b sk s (expireSources s) := by
  have e : srcv (expireSources s) sk = srcv s sk := by
    cases hx : findSource s sk with
    | none => unfold srcv; rw [gc_none hx, hx]; rfl
    | some x =>
      have e0 : srcv s sk = some (distOf x, decide (s.now.sec - 200 ≤ x.time)) := by
        unfold srcv; rw [hx]; rfl
      have hfr := of_decide_eq_true (h.src _ _ e0).2.2
      unfold srcv
      rw [gc_find hx hfr, hx]
      simp only [Option.map_some]
      have : (expireSources s).now = s.now := rfl
      rw [this]
      split
      · simp [distOf, hfr]; omega
      · rfl
  exact ⟨h.same e rfl (KSub.of_eq rfl).sub (fun _ _ _ h => .inr h) h.routes, FdLe.of_eq e⟩

/-- A new source. -/
theorem NInv.ensure {s : St} (h : NInv c sk b Lo s) (k : SKey) (q : UInt16) (hq : k = sk → Win b q) :
    NInv c sk b Lo (ensureSource s k q) ∧ FdLe b sk s (ensureSource s k q) := by
  unfold ensureSource
  split
  · exact ⟨h, FdLe.refl b sk s⟩
  · next hn =>
    have ef : findSource { s with sources := s.sources ++ [⟨k, q, INFINITY, 0, s.now.sec⟩] } sk =
        (findSource s sk).or (if k = sk then some ⟨k, q, INFINITY, 0, s.now.sec⟩ else none) := by
      unfold findSource
      simp only [List.find?_append, List.find?_cons, List.find?_nil]
      congr 1
      by_cases hk : k = sk
      · simp [hk]
      · have : (k == sk) = false := by simpa using hk
        simp [hk, this]
    by_cases hk : k = sk
    · subst hk
      rw [hn] at ef
      simp only [if_true, Option.none_or] at ef
      have e0 : srcv s k = none := by unfold srcv; rw [hn]; rfl
      have f0 : fdr b s k = none := by unfold fdr; rw [e0]; rfl
      have e1 : srcv { s with sources := s.sources ++ [⟨k, q, INFINITY, 0, s.now.sec⟩] } k =
          some ((q, INFINITY), true) := by
        unfold srcv; rw [ef]; simp [distOf]; omega
      refine ⟨⟨?_, ?_, h.ncost, h.kres, ?_⟩, ?_⟩
      · intro d f hd
        rw [e1] at hd
        injection hd with hd; injection hd with h3 h4
        subst h3 h4
        exact ⟨hq rfl, Nat.le_refl _, rfl⟩
      · intro r hr
        have h1 := h.routes r hr
        refine ⟨h1.cost, h1.fam, h1.pair, fun h2 h3 h4 => ?_⟩
        obtain ⟨f, v, h5, _⟩ := h1.edge h2 h3 h4
        rw [f0] at h5; cases h5
      · intro hid i q' m ho hm
        obtain ⟨_, f, h5, _⟩ := h.out hid i q' m ho hm
        rw [f0] at h5; cases h5
      · intro f hf
        rw [f0] at hf; cases hf
    · rw [if_neg hk, Option.or_none] at ef
      have e : srcv { s with sources := s.sources ++ [⟨k, q, INFINITY, 0, s.now.sec⟩] } sk = srcv s sk := by
        unfold srcv; rw [ef]
      exact ⟨h.same e rfl (KSub.of_eq rfl).sub (fun _ _ _ h => .inr h) h.routes, FdLe.of_eq e⟩

/-! ### Updates -/

theorem ksub_apply (c : Cfg) (s : St) (k : PKey) (n : NeighId) (id : Bytes) (q : UInt16)
    (refm add hold : Nat) (u : Bool) : KSub s (applyUpdate c s k n id q refm add hold u) := by
  unfold applyUpdate
  simp only
  have h1 : KSub s (if u = true then uninstallRoute c s k n else s) := by
    split
    · exact ksub_uninstall ..
    · exact .refl s
  have h2 : KSub s (retainSource (if u = true then uninstallRoute c s k n else s) ⟨id, k⟩) :=
    h1.trans (.of_eq rfl)
  exact (h2.trans (ksub_modRoute ..)).trans ((ksub_metric ..).trans (ksub_modRoute ..))

/-- The routes after an update. -/
theorem apply_mem {s : St} (hkr0 : ∀ i, s.kres i ≠ .fail)
    (hfm0 : ∀ r ∈ s.routes, r.installed = true → familyOk r.key r.nexthop = true ∧ srcUnsupported c r.key = false)
    (hl : LInv c s.routes) (k : PKey) (n : NeighId) (id : Bytes) (q : UInt16)
    (refm add hold : Nat) (u : Bool) {x : Route}
    (hx : x ∈ (applyUpdate c s k n id q refm add hold u).routes) :
    (∃ y ∈ s.routes, x.core = y.core) ∨
    ∃ r ∈ s.routes, r.key = k ∧ r.neigh = n ∧ x.id = id ∧ x.key = k ∧ x.neigh = n ∧ x.seqno = q ∧
      x.refmetric = refm ∧ x.cost = s.ncost n ∧ x.nexthop = r.nexthop ∧
      (x.installed = true → r.installed = true ∧ u = false) := by
  unfold applyUpdate at hx
  simp only at hx
  -- the route may be deselected
  have key : ∃ s2, (if u = true then uninstallRoute c s k n else s) = s2 ∧ ((∀ i, s2.kres i ≠ .fail) ∧
      ∀ r ∈ s2.routes, r.installed = true → familyOk r.key r.nexthop = true ∧ srcUnsupported c r.key = false) ∧
      ∀ y ∈ s2.routes, (∃ z ∈ s.routes, y = z ∧ (u = true → z.key = k → z.neigh = n → z.installed = false)) ∨
        ∃ z ∈ s.routes, z.key = k ∧ z.neigh = n ∧ y = { z with installed := false } := by
    cases u with
    | false => exact ⟨s, rfl, ⟨hkr0, hfm0⟩, fun y hy => .inl ⟨y, hy, rfl, fun e => absurd e (by simp)⟩⟩
    | true =>
      refine ⟨_, rfl, ⟨fun i => ?_, ?_⟩, ?_⟩
      · simp only [if_true]
        obtain ⟨j, e⟩ := (ksub_uninstall c s k n).sub i
        rw [e]; exact hkr0 j
      · simp only [if_true]
        intro x hx
        rcases uninstallRoute_routes c s k n with ⟨e, _⟩ | e <;> rw [e] at hx
        · exact hfm0 x hx
        · rcases mem_flatModify hx with ⟨r, h1, _, _, e1⟩ | ⟨h1, _⟩
          · rw [e1]; intro h; cases h
          · exact hfm0 x h1
      intro y hy
      simp only [if_true] at hy
      rcases uninstallRoute_routes c s k n with ⟨e, hf⟩ | e <;> rw [e] at hy
      · refine .inl ⟨y, hy, rfl, fun _ h1 h2 => hf y ?_⟩
        rw [← h1, ← h2]; exact findRoute_of_mem hl hy
      · rcases mem_flatModify hy with ⟨z, h1, h2, h3, e1⟩ | ⟨h1, h2⟩
        · exact .inr ⟨z, h1, h2, h3, e1⟩
        · exact .inl ⟨y, h1, rfl, fun _ h3 h4 => absurd ⟨h3, h4⟩ h2⟩
  obtain ⟨s2, e2, h2, hm2⟩ := key
  rw [e2] at hx
  -- the last assignment
  have h5 : ∃ w ∈ (changeRouteMetric c (modRoute (retainSource s2 ⟨id, k⟩) k n (updRoute s.now.sec id q refm))
      k n refm (s.ncost n) add).routes,
      (w.key = k ∧ w.neigh = n ∧ x = { w with holdTime := hold } ∨ x = w ∧ ¬ (w.key = k ∧ w.neigh = n)) := by
    rcases mem_flatModify (show x ∈ flatModify _ k n _ from hx) with ⟨w, h3, h4, h5, e⟩ | ⟨h3, h4⟩
    · exact ⟨w, h3, .inl ⟨h4, h5, e⟩⟩
    · exact ⟨x, h3, .inr ⟨rfl, h4⟩⟩
  obtain ⟨w, hw, hxw⟩ := h5
  -- the metric
  have hfm : ∀ y ∈ (modRoute (retainSource s2 ⟨id, k⟩) k n (updRoute s.now.sec id q refm)).routes,
      y.installed = true → familyOk y.key y.nexthop = true ∧ srcUnsupported c y.key = false := by
    intro y hy
    rcases mem_flatModify (show y ∈ flatModify s2.routes k n _ from hy) with ⟨z, h3, _, _, e⟩ | ⟨h3, _⟩
    · rw [e]; exact h2.2 z h3
    · exact h2.2 y h3
  have hkr : ∀ i, (modRoute (retainSource s2 ⟨id, k⟩) k n (updRoute s.now.sec id q refm)).kres i ≠ .fail := h2.1
  obtain ⟨y, hy, e⟩ := mem_core (metric_routes hkr hfm k n refm (s.ncost n) add) hw
  rcases mem_flatModify hy with ⟨y1, h3, h4, h5, e1⟩ | ⟨h3, h4⟩
  · right
    rcases mem_flatModify (show y1 ∈ flatModify s2.routes k n _ from h3) with ⟨z, h6, h7, h8, e3⟩ | ⟨h6, h7⟩
    · have ew : w.core = (setRc refm (s.ncost n) add (updRoute s.now.sec id q refm z)).core := by
        rw [e, e1, e3]
      have hwk : w.key = k := by rw [core_key ew]; exact h7
      have hwn : w.neigh = n := by rw [core_neigh ew]; exact h8
      have ex : x = { w with holdTime := hold } := by
        rcases hxw with ⟨_, _, e⟩ | ⟨_, hc⟩
        · exact e
        · exact absurd ⟨hwk, hwn⟩ hc
      have g : ∀ {α : Type} (f : Route → α), f w.core = f (setRc refm (s.ncost n) add (updRoute s.now.sec id q refm z)).core :=
        fun f => by rw [ew]
      have hxi : x.installed = z.installed := by rw [ex]; exact g Route.installed
      have hxh : x.nexthop = z.nexthop := by rw [ex]; exact g Route.nexthop
      have f1 : x.id = id := by rw [ex]; exact g Route.id
      have f2 : x.seqno = q := by rw [ex]; exact g Route.seqno
      have f3 : x.refmetric = refm := by rw [ex]; exact g Route.refmetric
      have f4 : x.cost = s.ncost n := by rw [ex]; exact g Route.cost
      have f5 : x.key = k := by rw [ex]; exact hwk
      have f6 : x.neigh = n := by rw [ex]; exact hwn
      rcases hm2 z h6 with ⟨r, hr, er, hu⟩ | ⟨r, hr, h9, h10, er⟩
      · subst er
        refine ⟨z, hr, h7, h8, f1, f5, f6, f2, f3, f4, hxh, fun hi => ?_⟩
        rw [hxi] at hi
        refine ⟨hi, ?_⟩
        cases u with
        | false => rfl
        | true => rw [hu rfl h7 h8] at hi; simp at hi
      · refine ⟨r, hr, h9, h10, f1, f5, f6, f2, f3, f4, by rw [hxh, er], fun hi => ?_⟩
        rw [hxi, er] at hi
        simp at hi
    · exact absurd ⟨h4, h5⟩ h7
  · left
    have hyk : ¬ (w.key = k ∧ w.neigh = n) := by rw [core_key e, core_neigh e]; exact h4
    have exw : x = w := by
      rcases hxw with ⟨h9, h10, _⟩ | ⟨e, _⟩
      · exact absurd ⟨h9, h10⟩ hyk
      · exact e
    rcases mem_flatModify (show y ∈ flatModify s2.routes k n _ from h3) with ⟨z, h6, h7, h8, e3⟩ | ⟨h6, h7⟩
    · exact absurd ⟨by rw [e3]; exact h7, by rw [e3]; exact h8⟩ h4
    · rcases hm2 y h6 with ⟨r, hr, er, _⟩ | ⟨r, hr, h9, h10, er⟩
      · exact ⟨r, hr, by rw [exw, e, er]⟩
      · exact absurd ⟨by rw [er]; exact h9, by rw [er]; exact h10⟩ h4

/-- An update for a known route. -/
theorem NInv.apply {s : St} {ex : List SKey} (h : NInv c sk b Lo s) (hi : Inv c s ex) {r : Route} {id : Bytes} {q : UInt16}
    {refm add hold : Nat} {u : Bool} (hr : findRoute s r.key r.neigh = some r)
    (hs : r.id ≠ id → (findSource s ⟨id, r.key⟩).isSome)
    (hu : u = (!updateFeasible s (findSource s ⟨id, r.key⟩) q refm && r.installed && id != r.id))
    (hupd : ⟨id, r.key⟩ = sk → refm < INFINITY → Win b q ∧ Lo r.neigh (rank b (q, refm)))
    (hres : r.skey = sk → id = r.id → r.installed = true → INFINITY ≤ r.refmetric → refm < INFINITY →
      updateFeasible s (findSource s sk) q refm = true) :
    NInv c sk b Lo (applyUpdate c s r.key r.neigh id q refm add hold u) ∧
    FdLe b sk s (applyUpdate c s r.key r.neigh id q refm add hold u) := by
  have hk := applyUpdate_keep c s r.key r.neigh id q refm add hold u
  have ho := applyUpdate_others c s r.key r.neigh id q refm add hold u
  have e : srcv (applyUpdate c s r.key r.neigh id q refm add hold u) sk = srcv s sk :=
    srcv_mod hk.2 hk.1 (fun x => ⟨rfl, rfl, rfl⟩)
  refine ⟨h.same e ho.2.2 (ksub_apply ..).sub (fun _ _ _ h => .inr ((notes_apply ..).upd h)) ?_, FdLe.of_eq e⟩
  intro x hx
  rcases apply_mem h.kres (fun r hr => (h.routes r hr).fam) hi.lst _ _ _ _ _ _ _ _ hx with ⟨y, hy, e1⟩ | ⟨r', hr', h1, h2, h3, h4, h5, h6, h7, h8, h9, h10⟩
  · exact (h.routes y hy).core e1
  · have er : r' = r := by
      have := findRoute_of_mem hi.lst hr'
      rw [h1, h2, hr] at this
      exact (Option.some.inj this).symm
    subst er
    have hrr := h.routes r' hr'
    refine ⟨by rw [h8]; exact h.ncost _, fun hin => ?_, fun hsk hm => ?_, fun hsk hin hm => ?_⟩
    · rw [h4, h9]; exact hrr.fam (h10 hin).1
    · rw [h7] at hm
      have := hupd (by rw [← hsk]; unfold Route.skey; rw [h3, h4]) hm
      rw [h5, h6, h7]; exact this
    · rw [h7] at hm
      have hsk' : (⟨id, r'.key⟩ : SKey) = sk := by rw [← hsk]; unfold Route.skey; rw [h3, h4]
      have hp := hupd hsk' hm
      obtain ⟨hri, hu0⟩ := h10 hin
      rw [h5]
      -- the source
      have hsrc : ∃ x, findSource s sk = some x := by
        apply Option.isSome_iff_exists.1
        rw [← hsk']
        by_cases hid : r'.id = id
        · have := hi.hasSource hr'
          unfold Route.skey at this
          rw [hid] at this; exact this
        · exact hs hid
      obtain ⟨y, hy⟩ := hsrc
      by_cases hf : updateFeasible s (some y) q refm = true
      · have := h.feasible hy hp.1 hm hf
        exact ⟨_, _, this.1, hp.2, this.2⟩
      · have hid : id = r'.id := by
          rw [hu0, hsk', hy] at hu
          simp [hri, hf] at hu
          exact hu
        have hskr : r'.skey = sk := by rw [← hsk']; unfold Route.skey; rw [hid]
        by_cases hinf : r'.refmetric < INFINITY
        · exact hrr.edge hskr hri hinf
        · have := hres hskr hid hri (Nat.not_lt.1 hinf) hm
          rw [hy] at this
          exact absurd this hf

/-- An update for an unknown route. -/
theorem NInv.insert {s : St} (h : NInv c sk b Lo s) {k : PKey} {n : NeighId} {id : Bytes} {q : UInt16}
    {refm add hold : Nat} {nh : Bytes}
    (hupd : ⟨id, k⟩ = sk → refm < INFINITY → Win b q ∧ Lo n (rank b (q, refm))) :
    NInv c sk b Lo (notifyRoute { retainSource s ⟨id, k⟩ with
        routes := flatInsert s.routes (newRoute s k n id q refm add hold nh) } .add k n) ∧
    FdLe b sk s (notifyRoute { retainSource s ⟨id, k⟩ with
        routes := flatInsert s.routes (newRoute s k n id q refm add hold nh) } .add k n) := by
  have hk := keep_notify { retainSource s ⟨id, k⟩ with
      routes := flatInsert s.routes (newRoute s k n id q refm add hold nh) } .add k n
  have e : srcv (notifyRoute { retainSource s ⟨id, k⟩ with
        routes := flatInsert s.routes (newRoute s k n id q refm add hold nh) } .add k n) sk = srcv s sk :=
    srcv_mod (k := ⟨id, k⟩) (f := fun x => { x with routeCount := x.routeCount + 1 }) hk.now hk.sources
      (fun x => ⟨rfl, rfl, rfl⟩)
  have hnt : Notes s (notifyRoute { retainSource s ⟨id, k⟩ with
        routes := flatInsert s.routes (newRoute s k n id q refm add hold nh) } .add k n) :=
    (Notes.eq rfl).trans (notes_notify ..)
  have hks : KSub s (notifyRoute { retainSource s ⟨id, k⟩ with
        routes := flatInsert s.routes (newRoute s k n id q refm add hold nh) } .add k n) :=
    .of_eq (notifyRoute_kres ..)
  refine ⟨h.same e hk.ncost hks.sub (fun _ _ _ h => .inr (hnt.upd h)) ?_, FdLe.of_eq e⟩
  rw [notifyRoute_routes]
  intro x hx
  have hx : x ∈ flatInsert s.routes (newRoute s k n id q refm add hold nh) := hx
  unfold flatInsert at hx
  rcases List.mem_append.1 hx with hx | hx
  · exact h.routes x hx
  · rw [List.mem_singleton.1 hx]
    exact ⟨h.ncost n, fun e => absurd (show false = true from e) (by simp), fun h1 h2 => hupd h1 h2,
      fun _ e => absurd (show false = true from e) (by simp)⟩

/-! ### All transitions -/

theorem QM.net {s s' : St} {ex : List SKey} (h : QM c s s') (hi : Inv c s ex) (hn : NInv c sk b Lo s) :
    NInv c sk b Lo s' ∧ FdLe b sk s s' := by
  cases h with
  | frame h => exact hn.frame h
  | own i x _ => exact hn.send i x.key s.myseqno x.metric
  | retraction i k _ _ => exact hn.send i k s.myseqno INFINITY
  | route i r h1 _ _ =>
    exact hn.announce hi.lst i (hi.hasSource (findInstalled_mem h1).1) h1

/-- Transitions while no update is processed. -/
theorem M.net {A : Allow} (hA : ¬ A.env) (hu : ∀ n id k q m, ¬ A.upd n id k q m) {s s' : St} {ex ex' : List SKey}
    (h : M c A s ex s' ex') (hi : Inv c s ex) (hn : NInv c sk b Lo s) :
    NInv c sk b Lo s' ∧ FdLe b sk s s' := by
  have same : ∀ {t t' : St}, NInv c sk b Lo t → srcv t' sk = srcv t sk → t'.ncost = t.ncost → t'.kres = t.kres →
      Notes t t' → (∀ r ∈ t'.routes, r ∈ t.routes) → NInv c sk b Lo t' ∧ FdLe b sk t t' := by
    intro t t' h1 h2 h3 h4 h5 h6
    exact ⟨h1.same h2 h3 (KSub.of_eq h4).sub (fun _ _ _ h => .inr (h5.upd h)) (fun r hr => h1.routes r (h6 r hr)),
      FdLe.of_eq h2⟩
  have hno := h.notes hi.lst
  cases h with
  | q h => exact h.net hi hn
  | install h1 h2 h3 h4 => exact hn.install hi h1 h2 h3 h4
  | switch h1 h2 h3 h4 h5 h6 h7 => exact hn.switch hi h1 h2 h3 h4 h5 h6 h7
  | uninstall k n => exact hn.uninstall k n
  | @recost s k n r h1 h2 =>
    refine hn.metric k n _ _ _ (hn.ncost n) (.inr fun r' hr' h3 h4 => ?_)
    have := findRoute_of_mem hi.lst hr'
    rw [h3, h4, h1] at this
    rw [Option.some.inj this]
  | retract k n => exact hn.retract k n
  | expire q h1 h2 h3 => exact hn.expire _ _ q
  | apply id q refm add hold u h1 h2 h3 h4 h5 h6 => exact absurd h2 (hu _ _ _ _ _)
  | insert k n id q refm add hold nh h1 h2 h3 h4 h5 h6 h7 => exact absurd h2 (hu _ _ _ _ _)
  | @unlink s k n r h1 h2 hA' =>
    have hk := keep_notify s .flush k n
    refine same hn (srcv_keep hk.now hk.sources) hk.ncost (notifyRoute_kres ..) ((notes_notify ..).trans (.eq rfl)) ?_
    intro x hx
    have h3 := (List.mem_filter.1 (show x ∈ List.filter _ (notifyRoute s .flush k n).routes from hx)).1
    rw [notifyRoute_routes] at h3; exact h3
  | release k =>
    exact same hn (srcv_mod (k := k) (f := fun x => { x with routeCount := x.routeCount - 1 }) rfl rfl
      (fun x => ⟨rfl, rfl, rfl⟩)) rfl rfl (.eq rfl) (fun _ h => h)
  | ensure k q h1 => obtain ⟨n, m, h2⟩ := h1; exact absurd h2 (hu _ _ _ _ _)
  | gc hA' => exact hn.gc
  | xadd kr h1 h2 h3 hA' =>
    unfold addXroute; rw [h1]
    exact same hn rfl rfl rfl ((Notes.eq rfl).trans (notes_emit _ _ ⟨rfl, trivial⟩)) (fun _ h => h)
  | xdel x hx hA' =>
    exact same hn rfl rfl rfl ((notes_emit s (.notifyXroute .flush x) ⟨rfl, trivial⟩).trans (.eq rfl)) (fun _ h => h)
  | xmod x m p hx hm _ hA' =>
    exact same hn rfl rfl rfl ((Notes.eq rfl).trans (notes_emit _ _ ⟨rfl, trivial⟩)) (fun _ h => h)
  | bump _ => exact same hn rfl rfl rfl (.eq rfl) (fun _ h => h)
  | tick t h => exact absurd h hA
  | cost n v h => exact absurd h hA

theorem Ms.net {A : Allow} (hA : ¬ A.env) (hu : ∀ n id k q m, ¬ A.upd n id k q m) {s s' : St} {ex ex' : List SKey}
    (h : Ms c A s ex s' ex') (hi : Inv c s ex) (hn : NInv c sk b Lo s) :
    NInv c sk b Lo s' ∧ FdLe b sk s s' := by
  induction h with
  | refl => exact ⟨hn, FdLe.refl b sk s⟩
  | step h m ih =>
    have h1 := m.net hA hu (h.inv hi) ih.1
    exact ⟨h1.1, ih.2.trans h1.2⟩

end

end Babel
