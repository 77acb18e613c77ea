import Verif.Lemmas.Fd
/-
What each elementary transition sends.
-/
set_option linter.unusedSimpArgs false
set_option linter.unusedVariables false
set_option linter.unusedSectionVars false
namespace Babel
open Spec

/-- Notifications and the duplicate warning. -/
def Out.note : Out → Bool
  | .notifyRoute .. => true
  | .notifyXroute .. => true
  | .warnDuplicate .. => true
  | .selected .. => true
  | _ => false

/-- Only notifications were sent. -/
def Notes (s s' : St) : Prop := ∃ new, s'.out = new ++ s.out ∧ ∀ o ∈ new, o.note = true ∧ SelectionOk o

theorem Notes.refl (s : St) : Notes s s := ⟨[], rfl, by simp⟩
theorem Notes.eq {s s' : St} (h : s'.out = s.out) : Notes s s' := ⟨[], h, by simp⟩
theorem Notes.trans {a b d : St} (h : Notes a b) (g : Notes b d) : Notes a d := by
  obtain ⟨l, h1, h2⟩ := h
  obtain ⟨m, g1, g2⟩ := g
  refine ⟨m ++ l, by rw [g1, h1, List.append_assoc], ?_⟩
  intro o ho
  rcases List.mem_append.1 ho with ho | ho
  · exact g2 o ho
  · exact h2 o ho

theorem notes_emit (s : St) (o : Out) (h : o.note = true ∧ SelectionOk o) : Notes s (emit s o) :=
  ⟨[o], rfl, by simpa using h⟩

theorem seqnoCompare_pos {a b : UInt16} : seqnoCompare a b > 0 ↔ NewerEq a b := by
  unfold NewerEq
  have ha := a.toNat_lt
  have hb := b.toNat_lt
  rw [seqnoCompare_nat, UInt16.toNat_sub]
  repeat' split
  all_goals simp <;> omega

theorem updateFeasible_iff {s : St} {fd : Option Source} {q : UInt16} {m : Nat} :
    updateFeasible s fd q m = true ↔ Feasible fd s.now.sec (q, m) := by
  unfold updateFeasible Feasible
  cases fd with
  | none => simp
  | some x =>
    simp only
    unfold SOURCE_GC_TIME
    split
    · next h => simp [h]
    · next h =>
      split
      · next h2 => simp only [true_iff]; exact .inl h2
      · next h2 =>
        simp only [Bool.or_eq_true, decide_eq_true_eq, Bool.and_eq_true, beq_iff_eq, seqnoCompare_pos]
        constructor
        · rintro (h3 | h3)
          · exact .inr (.inr (.inl h3))
          · exact .inr (.inr (.inr ⟨h3.1.symm, h3.2⟩))
        · rintro (h3 | h3 | h3 | h3)
          · exact absurd h3 h2
          · exact absurd h3 h
          · exact .inl h3
          · exact .inr ⟨h3.1.symm, h3.2⟩

theorem notes_mark (s : St) (k : PKey) (n : NeighId) (old : Option Route)
    (h : ∀ r, findRoute s k n = some r → routeFeasible s r = true ∧
      (routeMetric r < INFINITY → routeExpired s r = false) ∧
      ∀ o, old = some o → routeMetric r < INFINITY ∧ (INFINITY ≤ routeMetric o ∨
        (routeMetric r ≤ routeMetric o ∧ r.smoothed < o.smoothed))) :
    Notes s (markInstalled s k n old) := by
  refine ⟨selectionLog s k n old, rfl, ?_⟩
  unfold selectionLog
  split
  · simp
  · next r e =>
    have h1 := h r e
    simp only [List.mem_singleton, forall_eq]
    refine ⟨rfl, updateFeasible_iff.1 h1.1, fun hm => ?_, h1.2.2⟩
    have := h1.2.1 hm
    unfold routeExpired at this
    simp only [decide_eq_false_iff_not] at this
    omega

theorem notes_notify (s : St) (kd : NKind) (k : PKey) (n : NeighId) : Notes s (notifyRoute s kd k n) := by
  unfold notifyRoute
  split
  · exact notes_emit s _ ⟨rfl, trivial⟩
  · exact .refl s

theorem KOnly.notes {s s' : St} (h : KOnly s s') : Notes s s' := .eq h.out

theorem notes_install (c : Cfg) (s : St) (k : PKey) (n : NeighId) {r : Route}
    (h : findRoute s k n = some r) (hi : r.installed = false) (hf : routeFeasible s r = true)
    (hx : routeMetric r < INFINITY → routeExpired s r = false) :
    Notes s (installRoute c s k n) := by
  rcases installRoute_cases (c := c) h hi hf with ⟨_, e⟩ | ⟨_, _, e⟩ | ⟨_, _, e⟩ <;> rw [e]
  · exact notes_emit s _ ⟨rfl, trivial⟩
  · exact (konly_changeAdd ..).notes
  · refine (konly_changeAdd c s r (metricToKernel c (routeMetric r))).notes.trans
      (Notes.trans ?_ (notes_notify ..))
    apply notes_mark
    have hk := konly_changeAdd c s r (metricToKernel c (routeMetric r))
    intro r' h'
    have : r' = r := by
      unfold findRoute at h h'
      rw [hk.routes, h] at h'
      exact (Option.some.inj h').symm
    subst this
    unfold routeFeasible updateFeasible findSource at hf ⊢
    unfold routeExpired at hx ⊢
    rw [hk.sources, hk.now]
    exact ⟨hf, hx, by simp⟩

theorem notes_switch (c : Cfg) (s : St) (k : PKey) (m n : NeighId) {o r : Route}
    (ho : findRoute s k m = some o) (hr : findRoute s k n = some r) (hf : routeFeasible s r = true)
    (hi : r.installed = false) (hx : routeExpired s r = false) (hm : routeMetric r < INFINITY)
    (hh : INFINITY ≤ routeMetric o ∨ (routeMetric r ≤ routeMetric o ∧ r.smoothed < o.smoothed)) :
    Notes s (switchRoutes c s k m n) := by
  rcases switchRoutes_cases (c := c) ho hr hf with ⟨_, e⟩ | ⟨_, _, e⟩ | ⟨_, _, e⟩ <;> rw [e]
  · exact .refl s
  · exact (konly_changeModify ..).notes
  · refine Notes.trans ?_ (notes_notify ..)
    refine Notes.trans ?_ (notes_notify ..)
    refine (konly_changeModify c s o (metricToKernel c (routeMetric o)) r.nexthop (c.ifOf r.neigh)
      (metricToKernel c (routeMetric r))).notes.trans ?_
    refine Notes.trans (b := modRoute (changeModify c s o (metricToKernel c (routeMetric o)) r.nexthop
      (c.ifOf r.neigh) (metricToKernel c (routeMetric r))).2 k m (fun r => { r with installed := false }))
      (.eq rfl) ?_
    apply notes_mark
    have hk := konly_changeModify c s o (metricToKernel c (routeMetric o)) r.nexthop (c.ifOf r.neigh)
      (metricToKernel c (routeMetric r))
    intro r' h'
    have hne : n ≠ m := by
      intro e; subst e; rw [ho] at hr; cases hr; simp_all
    have e2 := findRoute_modRoute (changeModify c s o (metricToKernel c (routeMetric o)) r.nexthop
      (c.ifOf r.neigh) (metricToKernel c (routeMetric r))).2 k k m n
      (fun r => { r with installed := false }) (fun _ => ⟨rfl, rfl⟩)
    have : r' = r := by
      rw [e2] at h'
      unfold findRoute at hr h'
      rw [hk.routes, hr] at h'
      simp [hne] at h'
      exact h'.symm
    subst this
    have hs : (modRoute (changeModify c s o (metricToKernel c (routeMetric o)) r'.nexthop
      (c.ifOf r'.neigh) (metricToKernel c (routeMetric r'))).2 k m
      (fun r => { r with installed := false })).sources = s.sources := hk.sources
    have hn : (modRoute (changeModify c s o (metricToKernel c (routeMetric o)) r'.nexthop
      (c.ifOf r'.neigh) (metricToKernel c (routeMetric r'))).2 k m
      (fun r => { r with installed := false })).now = s.now := hk.now
    unfold routeFeasible updateFeasible findSource at hf ⊢
    unfold routeExpired at hx ⊢
    rw [hs, hn]
    exact ⟨hf, fun _ => hx, by rintro o' h'; cases h'; exact ⟨hm, hh⟩⟩

theorem notes_uninstall (c : Cfg) (s : St) (k : PKey) (n : NeighId) :
    Notes s (uninstallRoute c s k n) := by
  cases h : findRoute s k n with
  | none => rw [uninstallRoute_noop (by simp [h])]; exact .refl s
  | some r =>
    cases hi : r.installed with
    | false => rw [uninstallRoute_noop (by rw [h]; simp [hi])]; exact .refl s
    | true =>
      rw [uninstallRoute_eq h hi]
      simp only
      have hk : Notes s (changeFlush c (modRoute s k n (fun r => { r with installed := false })) r
          (metricToKernel c (routeMetric r))).2 :=
        (Notes.eq rfl).trans (konly_changeFlush ..).notes
      split
      · exact hk.trans (notes_notify ..)
      · exact hk

theorem notes_metric (c : Cfg) (s : St) (k : PKey) (n : NeighId) (refm cost add : Nat) :
    Notes s (changeRouteMetric c s k n refm cost add) := by
  cases h : findRoute s k n with
  | none => rw [changeRouteMetric_noop _ _ _ h]; exact .refl s
  | some r =>
    rcases changeRouteMetric_cases (c := c) refm cost add h with ⟨_, _, e⟩ | ⟨s1, h1, e⟩ <;> rw [e]
    · exact (konly_changeModify ..).notes
    · have hs1 : Notes s s1 := by
        rcases h1 with ⟨_, _, e1⟩ | ⟨_, e1⟩
        · have := (konly_changeModify c s r (metricToKernel c (routeMetric r)) r.nexthop
            (c.ifOf r.neigh) (metricToKernel c (min (refm + cost + add) INFINITY))).notes
          rw [e1] at this; exact this
        · rw [e1]; exact .refl s
      have hs2 : Notes s1 (smoothRoute c s1 k n).2 := by
        unfold smoothRoute; split <;> exact .eq rfl
      exact hs1.trans (hs2.trans ((Notes.eq rfl).trans (notes_notify ..)))

theorem notes_apply (c : Cfg) (s : St) (k : PKey) (n : NeighId) (id : Bytes) (q : UInt16)
    (refm add hold : Nat) (u : Bool) : Notes s (applyUpdate c s k n id q refm add hold u) := by
  unfold applyUpdate
  simp only
  have h1 : Notes s (if u = true then uninstallRoute c s k n else s) := by
    split
    · exact notes_uninstall ..
    · exact .refl s
  refine h1.trans ((Notes.trans (b := modRoute (retainSource (if u = true then uninstallRoute c s k n
    else s) ⟨id, k⟩) k n (updRoute s.now.sec id q refm)) (.eq rfl) ?_))
  exact (notes_metric ..).trans (.eq rfl)

/-- A transition that is not of the update queue only notifies. -/
theorem M.notes {c : Cfg} {A : Allow} {s s' : St} {ex ex' : List SKey}
    (h : M c A s ex s' ex') (hl : LInv c s.routes) : (QM c s s' ∧ ex' = ex) ∨ Notes s s' := by
  cases h with
  | q h => exact .inl ⟨h, rfl⟩
  | install h1 h2 h3 h4 => exact .inr (notes_install c _ _ _ h1 h2 h3 h4)
  | @switch s k n r o ho hr h3 hf h4 h5 h6 =>
    obtain ⟨hm, hok, hoi⟩ := findInstalled_mem ho
    have hfo : findRoute s k o.neigh = some o := by rw [← hok]; exact findRoute_of_mem hl hm
    exact .inr (notes_switch c s k o.neigh n hfo hr hf h3 h5 h4 h6)
  | uninstall k n => exact .inr (notes_uninstall ..)
  | recost h1 h2 => exact .inr (notes_metric ..)
  | retract k n => exact .inr (notes_metric ..)
  | expire q h1 h2 h3 => exact .inr ((Notes.eq rfl).trans (notes_metric ..))
  | apply id q refm add hold u h1 h2 h3 h4 h5 h6 => exact .inr (notes_apply ..)
  | insert k n id q refm add hold nh h1 h2 h3 h4 h5 h6 h7 =>
    exact .inr ((Notes.eq rfl).trans (notes_notify ..))
  | unlink h1 h2 hA' => exact .inr ((notes_notify ..).trans (.eq rfl))
  | release k => exact .inr (.eq rfl)
  | ensure k' q =>
    refine .inr (.eq ?_)
    unfold ensureSource
    split <;> rfl
  | gc hA' => exact .inr (.eq rfl)
  | xadd kr h1 h2 h3 hA' =>
    right
    unfold addXroute; rw [h1]
    exact (Notes.eq rfl).trans (notes_emit _ _ ⟨rfl, trivial⟩)
  | xdel x hx hA' => exact .inr ((notes_emit s (.notifyXroute .flush x) ⟨rfl, trivial⟩).trans (.eq rfl))
  | xmod x m p hx hm _ hA' => exact .inr ((Notes.eq rfl).trans (notes_emit _ _ ⟨rfl, trivial⟩))
  | bump _ => exact .inr (.eq rfl)
  | tick t h => exact .inr (.eq rfl)
  | cost n v h => exact .inr (.eq rfl)

/-- A new output that is neither a request nor a notification comes from an announcement. -/
theorem QM.news {c : Cfg} {s s' : St} (h : QM c s s') {o : Out} (ho : o ∈ s'.out)
    (hm : o.minor = false) : o ∈ s.out ∨
    (∃ i x, findXroute s x.key = some x ∧ s' = emit s o ∧
      c.outputFilter (some c.myid) x.key i < INFINITY ∧
      o = .update i c.myid x.key s.myseqno (min (x.metric + c.outputFilter (some c.myid) x.key i) INFINITY)) ∨
    (∃ i k, findXroute s k = none ∧ findInstalled s k = none ∧ s' = emit s o ∧
      o = .update i c.myid k s.myseqno INFINITY) ∨
    (∃ i r, findInstalled s r.key = some r ∧ horizonBlocked c s i r = false ∧
      preferredXroute c s r.key = none ∧ c.outputFilter (some r.id) r.key i < INFINITY ∧
      o = .update i r.id r.key r.seqno (min (routeMetric r + c.outputFilter (some r.id) r.key i) INFINITY) ∧
      s' = updateSource (emit s o) r.skey r.seqno (routeMetric r)) := by
  cases h with
  | frame h =>
    left
    have h1 : o ∈ s'.out.filter (fun o => !o.minor) := by simp [ho, hm]
    rw [h.out] at h1
    exact (List.mem_filter.1 h1).1
  | own i x h1 =>
    rcases reallySend_eq c s i c.myid x.key s.myseqno x.metric with e | ⟨m', e, e2, e3⟩
    · rw [e] at ho; exact .inl ho
    · rw [e] at ho ⊢
      rcases List.mem_cons.1 ho with ho | ho
      · exact .inr (.inl ⟨i, x, h1, by rw [ho], e3, by rw [ho, e2]⟩)
      · exact .inl ho
  | retraction i k h1 h2 =>
    rcases reallySend_eq c s i c.myid k s.myseqno INFINITY with e | ⟨m', e, e2, e3⟩
    · rw [e] at ho; exact .inl ho
    · rw [e] at ho ⊢
      rcases List.mem_cons.1 ho with ho | ho
      · refine .inr (.inr (.inl ⟨i, k, h1, h2, by rw [ho], ?_⟩))
        rw [ho, e2, Nat.min_eq_right (by omega)]
      · exact .inl ho
  | route i r h1 h2 h3 =>
    rcases reallySend_eq c s i r.id r.key r.seqno (routeMetric r) with e | ⟨m', e, e2, e3⟩
    · rw [e] at ho; exact .inl ho
    · rw [e] at ho ⊢
      rcases List.mem_cons.1 (show o ∈ _ :: s.out from ho) with ho | ho
      · exact .inr (.inr (.inr ⟨i, r, h1, h2, h3, e3, by rw [ho, e2], by rw [ho]⟩))
      · exact .inl ho

/-- Every output that is neither a request nor a notification was sent by some announcement along the
way. -/
theorem Ms.news {c : Cfg} {A : Allow} {s s' : St} {ex ex' : List SKey}
    (h : Ms c A s ex s' ex') (hl : Inv c s ex) {o : Out} (ho : o ∈ s'.out)
    (hm : o.minor = false) (hn : o.note = false) :
    o ∈ s.out ∨ ∃ t e t', Ms c A s ex t e ∧ Inv c t e ∧ QM c t t' ∧ o ∈ t'.out ∧ o ∉ t.out ∧
      Ms c A t' e s' ex' := by
  induction h with
  | refl => exact .inl ho
  | @step t e u e3 h m ih =>
    have hi := h.inv hl
    by_cases hot : o ∈ t.out
    · rcases ih hot with h1 | ⟨a, e, b, h1, h2, h3, h4, h5, h6⟩
      · exact .inl h1
      · exact .inr ⟨a, e, b, h1, h2, h3, h4, h5, h6.step m⟩
    · right
      rcases m.notes hi.lst with ⟨hq, e⟩ | ⟨new, e1, e2⟩
      · subst e
        exact ⟨_, _, _, h, hi, hq, ho, hot, .refl _ _⟩
      · rw [e1] at ho
        rcases List.mem_append.1 ho with h1 | h1
        · rw [(e2 o h1).1] at hn; simp at hn
        · exact absurd h1 hot

/-- New selections are legal. -/
theorem Ms.selection {c : Cfg} {A : Allow} {s s' : St} {ex ex' : List SKey}
    (h : Ms c A s ex s' ex') (hl : Inv c s ex) (hs : ∀ o ∈ s.out, SelectionOk o) :
    ∀ o ∈ s'.out, SelectionOk o := by
  induction h with
  | refl => exact hs
  | @step t e u e3 h m ih =>
    intro o ho
    rcases m.notes (h.inv hl).lst with ⟨hq, e⟩ | ⟨new, e1, e2⟩
    · by_cases hm : o.minor = true
      · cases o <;> first | trivial | simp [Out.minor] at hm
      · rcases hq.news ho (by simpa using hm) with h1 | ⟨i, x, _, _, _, h7⟩ | ⟨i, x, _, _, _, h7⟩ |
          ⟨i, x, _, _, _, _, h7, _⟩
        · exact ih o h1
        all_goals rw [h7]; trivial
    · rw [e1] at ho
      rcases List.mem_append.1 ho with h1 | h1
      · exact (e2 o h1).2
      · exact ih o h1

/-- Outputs other than requests are never forgotten. -/
theorem QM.outMono {c : Cfg} {s s' : St} (h : QM c s s') {o : Out} (hm : o.minor = false)
    (ho : o ∈ s.out) : o ∈ s'.out := by
  cases h with
  | frame h =>
    have h1 : o ∈ s.out.filter (fun o => !o.minor) := by simp [ho, hm]
    rw [← h.out] at h1
    exact (List.mem_filter.1 h1).1
  | own i x h1 =>
    rcases reallySend_eq c s i c.myid x.key s.myseqno x.metric with e | ⟨m', e, _⟩ <;> rw [e]
    · exact ho
    · exact List.mem_cons_of_mem _ ho
  | retraction i k h1 h2 =>
    rcases reallySend_eq c s i c.myid k s.myseqno INFINITY with e | ⟨m', e, _⟩ <;> rw [e]
    · exact ho
    · exact List.mem_cons_of_mem _ ho
  | route i r h1 h2 h3 =>
    show o ∈ (reallySend c s i r.id r.key r.seqno (routeMetric r)).out
    rcases reallySend_eq c s i r.id r.key r.seqno (routeMetric r) with e | ⟨m', e, _⟩ <;> rw [e]
    · exact ho
    · exact List.mem_cons_of_mem _ ho

theorem M.outMono {c : Cfg} {A : Allow} {s s' : St} {ex ex' : List SKey}
    (h : M c A s ex s' ex') (hl : LInv c s.routes) {o : Out} (hm : o.minor = false)
    (ho : o ∈ s.out) : o ∈ s'.out := by
  rcases h.notes hl with ⟨hq, _⟩ | ⟨new, e1, e2⟩
  · exact hq.outMono hm ho
  · rw [e1]; exact List.mem_append.2 (.inr ho)

/-- No warning about an unfeasible route. -/
theorem Ms.no_warn {c : Cfg} {A : Allow} {s s' : St} {ex ex' : List SKey}
    (h : Ms c A s ex s' ex') (hl : Inv c s ex) {k : PKey} {n : NeighId}
    (ho : Out.warnUnfeasible k n ∈ s'.out) : Out.warnUnfeasible k n ∈ s.out := by
  rcases h.news hl ho rfl rfl with h1 | ⟨t, e, t', h1, h2, h3, h4, h5, h6⟩
  · exact h1
  · rcases h3.news h4 rfl with h7 | ⟨i, x, _, _, _, h7⟩ | ⟨i, x, _, _, _, h7⟩ | ⟨i, x, _, _, _, _, h7, _⟩
    · exact absurd h7 h5
    all_goals cases h7

end Babel
