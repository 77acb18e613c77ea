import Verif.Lemmas.Lost3
/-
What the neighbours have been told about a destination that cannot be reached any more: events.
-/
set_option linter.unusedSimpArgs false
set_option linter.unusedVariables false
set_option linter.unusedSectionVars false
namespace Babel
open Spec

variable {c : Cfg} {v : Bytes → Bytes} {e : Prop} {i : IfId} {k : PKey}

theorem j_sources (s : St) (l : List Source) : J c v e i k s { s with sources := l } :=
  .tbl (tbl_sources ..) fun _ a ha => ⟨a, ha, rfl⟩

theorem j_sourceFor (s : St) (r : Option Route) (sk : SKey) (q : UInt16) : J c v e i k s (sourceFor s r sk q) := by
  unfold sourceFor
  split
  · exact .refl s
  · unfold ensureSource
    split
    · exact .refl s
    · exact j_sources s _

theorem j_notify (s : St) (kd : NKind) (k' : PKey) (n : NeighId) : J c v e i k s (notifyRoute s kd k' n) := by
  refine .tbl (tbl_notify ..) fun _ a ha => ⟨a, ?_, rfl⟩
  rw [← ha]
  exact origin_of_core (by unfold selectedRoute; rw [notifyRoute_routes])

/-- A new route that is not in use. -/
theorem j_insert {s : St} {r : Route} (hn : findRoute s r.key r.neigh = none) (hi : r.installed = false)
    (hid : r.id ≠ c.myid) (hk : KeyOk r.key)
    (hsh : r.key = k → ∀ ifp, getIf s i = some ifp → ifp.splitHorizon = true → c.ifOf r.neigh ≠ i) :
    J c v e i k s { s with routes := flatInsert s.routes r } := by
  intro he
  have hsel : selectedRoute { s with routes := flatInsert s.routes r } k = selectedRoute s k := by
    unfold selectedRoute flatInsert
    simp [List.find?_append, hi]
  have ho : origin { s with routes := flatInsert s.routes r } k = origin s k := by unfold origin; rw [hsel]
  refine ⟨⟨he.linv.insert hn hi hid hk, he.own, ⟨he.ann.free, ?_⟩⟩, .refl i s, fun hg => ?_⟩
  · intro ifp hg hs r' hr' hk'
    unfold flatInsert at hr'
    rcases List.mem_append.1 hr' with h | h
    · exact he.ann.horizon ifp hg hs r' h hk'
    · simp at h
      subst h
      exact hsh hk' ifp hg hs
  · rcases hg with hg | hg
    · intro ifp hgi hup
      rw [ho]
      exact hg ifp hgi hup
    · exact absurd (fun a ha => ⟨a, ho.trans ha, rfl⟩) hg

theorem quiet_routes_find {s s' : St} (h : Quiet c s s') {k' : PKey} {n : NeighId} (hn : findRoute s k' n = none) :
    findRoute s' k' n = none := by
  cases hf : findRoute s' k' n with
  | none => rfl
  | some x =>
    obtain ⟨hm, hk, hn'⟩ := findRoute_mem hf
    obtain ⟨y, hy, e⟩ := mem_core h.ann.routes hm
    exfalso
    unfold findRoute flatFind at hn
    rw [List.find?_eq_none] at hn
    exact hn y hy (by simp [← core_key e, ← core_neigh e, hk, hn'])

theorem j_updateNew {s : St} {k' : PKey} {n : NeighId} {id' : Bytes} (hn : findRoute s k' n = none)
    (hid : id' ≠ c.myid) (hk : KeyOk k') (q : UInt16) (refm add hold : Nat) (nh : Option Bytes)
    (hsh : k' = k → ∀ ifp, getIf s i = some ifp → ifp.splitHorizon = true → c.ifOf n ≠ i) :
    J c v e i k s (updateNew c s k' n id' q refm add hold nh) := by
  unfold updateNew
  split
  · exact .refl s
  · simp only
    refine J.trans ?_ (j_considerRoute _ _ _)
    refine J.trans ?_ (j_notify _ _ _ _)
    intro he
    have hq : Quiet c s (if !updateFeasible s (findSource s ⟨id', k'⟩) q refm then
        sendUnfeasibleRequest c s n false q (min (refm + s.ncost n + add) INFINITY) ⟨id', k'⟩ else s) := by
      split
      · exact quiet_unfeasible he.linv ..
      · exact .refl s
    revert he
    show J c v e i k s _
    generalize (if !updateFeasible s (findSource s ⟨id', k'⟩) q refm then
        sendUnfeasibleRequest c s n false q (min (refm + s.ncost n + add) INFINITY) ⟨id', k'⟩ else s) = s1 at *
    refine (J.quiet fun _ => hq).trans (J.trans (b := retainSource s1 ⟨id', k'⟩) (j_sources s1 _) ?_)
    have hn1 : findRoute (retainSource s1 ⟨id', k'⟩) k' n = none := quiet_routes_find (s' := s1) hq hn
    refine j_insert (s := retainSource s1 ⟨id', k'⟩) (r := newRoute (retainSource s1 ⟨id', k'⟩) k' n id' q refm add hold _)
      hn1 rfl hid hk ?_
    intro hk' ifp hg hs
    obtain ⟨y, hy, ey⟩ := hq.ifSame i ifp hg
    exact hsh hk' y hy ((params_sh ey).symm.trans hs)

theorem sourceFor_ifaces (s : St) (r : Option Route) (sk : SKey) (q : UInt16) : (sourceFor s r sk q).ifaces = s.ifaces := by
  unfold sourceFor
  split
  · rfl
  · unfold ensureSource
    split <;> rfl

theorem j_updateRoute {s : St} (hl : LInv c s.routes) (id? : Option Bytes) (k' : PKey) (q : UInt16) (refm int : Nat) (n : NeighId)
    (nh : Option Bytes)
    (hsh : k' = k → ∀ ifp, getIf s i = some ifp → ifp.splitHorizon = true → c.ifOf n ≠ i) :
    J c v e i k s (updateRoute c s id? k' q refm int n nh) ∨
    ∃ id' r, id? = some id' ∧ findRoute s k' n = some r ∧ Bad c v k k' n r id' (updateRoute c s id? k' q refm int n nh) := by
  unfold updateRoute
  cases hrf : updateRefused c id? k' refm n with
  | true => exact .inl (.refl s)
  | false =>
    obtain ⟨h1, h2, h3, h4⟩ := updateRefused_spec hrf
    simp only [Bool.false_eq_true, if_false]
    cases hr : findRoute s k' n with
    | none =>
      left
      cases id? with
      | none => exact .refl s
      | some id' =>
        simp only
        split
        · exact .refl s
        · refine (j_sourceFor _ _ _ _).trans (j_updateNew ?_ (h2 id' rfl) h1 _ _ _ _ _ ?_)
          · unfold findRoute; rw [sourceFor_routes]; exact hr
          · intro hk ifp hg
            unfold getIf at hg
            rw [sourceFor_ifaces] at hg
            exact hsh hk ifp hg
    | some r =>
      obtain ⟨hrm, hrk, hrn⟩ := findRoute_mem hr
      subst hrk hrn
      have hid : id?.getD r.id ≠ c.myid := by
        cases id? with
        | none => exact (hl.ok r hrm).1
        | some id' => exact h2 id' rfl
      have hl' : LInv c (sourceFor s (some r) ⟨id?.getD r.id, r.key⟩ q).routes := by rw [sourceFor_routes]; exact hl
      have hr' : findRoute (sourceFor s (some r) ⟨id?.getD r.id, r.key⟩ q) r.key r.neigh = some r := by
        unfold findRoute; rw [sourceFor_routes]; exact hr
      rcases j_updateExisting (v := v) (e := e) (i := i) (k := k) hl' hr' hid q refm
        (c.inputFilter id? r.key (some r.neigh) (c.ifOf r.neigh)) (holdTimeOf int) with h | h
      · exact .inl ((j_sourceFor _ _ _ _).trans h)
      · right
        cases id? with
        | none => exact absurd rfl h.2.2.1
        | some id' => exact ⟨id', r, rfl, rfl, h⟩

/-! ### Walks -/

theorem j_walkFrom (act : St → NeighId → St) (h : ∀ s n, J c v e i k s (act s n)) (k' : PKey) (fuel : Nat) (m : Option NeighId)
    (s : St) : J c v e i k s (walkFrom act k' fuel m s) := by
  induction fuel generalizing m s with
  | zero => exact .refl s
  | succ fuel ih =>
    cases m with
    | none => exact .refl s
    | some n => exact (h s n).trans (ih _ _)

theorem j_walk (act : St → PKey → NeighId → St) (h : ∀ s k' n, J c v e i k s (act s k' n)) (fuel : Nat) (l : List PKey) (s : St) :
    J c v e i k s (l.foldl (walkSlot act fuel) s) :=
  .foldl _ (fun s k' => j_walkFrom _ (fun s n => h s k' n) k' fuel _ s) l s

theorem j_flushSlot (p : Route → Bool) (k' : PKey) (fuel : Nat) (s : St) : J c v e i k s (flushSlot c p k' fuel s) := by
  induction fuel generalizing s with
  | zero => exact .refl s
  | succ fuel ih =>
    unfold flushSlot
    split
    · exact .refl s
    · exact (j_flushRoute _ _ _).trans (ih _)

theorem j_flushWhere (p : Route → Bool) (s : St) : J c v e i k s (flushWhere c p s) :=
  .foldl _ (fun s k' => j_flushSlot p k' _ s) _ s

theorem j_expireKeep (s : St) (k' : PKey) (n : NeighId) : J c v e i k s (expireKeep c s k' n) := by
  unfold expireKeep
  simp only
  refine (j_updateRouteMetric s k' n).trans ?_
  split
  · exact .refl _
  · split
    · exact .quiet fun hl => quiet_urequest hl ..
    · exact .refl _

theorem j_expireFrom (k' : PKey) (fuel : Nat) (m : Option NeighId) (s : St) : J c v e i k s (expireFrom c k' fuel m s).1 := by
  induction fuel generalizing m s with
  | zero => exact .refl s
  | succ fuel ih =>
    cases m with
    | none => exact .refl s
    | some n =>
      unfold expireFrom
      split
      · exact .refl s
      · split
        · exact (j_flushRoute _ _ _).trans (ih _ _)
        · exact (j_expireKeep _ _ _).trans (ih _ _)

theorem j_expireRoutes (fuel : Nat) (s : St) : J c v e i k s (expireRoutes c fuel s).1 := by
  unfold expireRoutes
  have : ∀ (l : List PKey) (p : St × Bool), J c v e i k p.1 (l.foldl (fun p k =>
      let q := expireSlot c fuel p.1 k
      (q.1, p.2 && q.2)) p).1 := by
    intro l
    induction l with
    | nil => exact fun p => .refl p.1
    | cons a l ih =>
      intro p
      rw [List.foldl_cons]
      exact J.trans (b := (expireSlot c fuel p.1 a).1) (j_expireFrom a fuel _ p.1)
        (ih ((expireSlot c fuel p.1 a).1, p.2 && (expireSlot c fuel p.1 a).2))
  exact this _ (s, true)

/-! ### Messages -/

theorem quiet_popRand (s : St) : Quiet c s (popRand s).2 := .of ⟨rfl, rfl, rfl⟩ rfl ⟨[], rfl, by simp⟩

theorem quiet_wild {s : St} (hl : LInv c s.routes) (j : IfId) (u ss : Bool) : Quiet c s (sendUpdateWild c s j u ss) := by
  unfold sendUpdateWild
  split
  · exact .refl s
  · simp only
    have h1 : Quiet c s (sendSelfUpdate c s j) := .foldl _ (fun s x hl => quiet_sendIf hl ..) _ _ hl
    generalize sendSelfUpdate c s j = s1 at h1
    have h2 : Quiet c s1 ((installedKeys s1).foldl (fun s k => if k.isSS == ss then bufferUpdate c s j k else s) s1) :=
      .foldl _ (fun s x hl => by split <;> first | exact quiet_buffer hl .. | exact .refl s) _ _ (h1.linv hl)
    refine (h1.trans h2).trans ?_
    generalize (installedKeys s1).foldl (fun s k => if k.isSS == ss then bufferUpdate c s j k else s) s1 = s2
    refine (quiet_popRand s2).trans (.trans (b := modIf (popRand s2).2 j fun x => { x with
      updateTimeout := setTimeout s.now (popRand s2).1 (x.updateInterval : Int) }) ?_ (quiet_schedule ..))
    exact .modIf _ _ _ (fun _ => rfl) (fun _ _ h => h)

theorem quiet_any {s : St} (hl : LInv c s.routes) (j : IfId) (u : Bool) : Quiet c s (sendUpdateAny c s j u) := by
  unfold sendUpdateAny
  split
  · exact .refl s
  · have h1 := quiet_wild (c := c) hl j u false
    exact (h1.trans (quiet_wild (h1.linv hl) j u true)).trans (quiet_schedule ..)

theorem quiet_doResendOne {s : St} (hl : LInv c s.routes) (j : Nat) : Quiet c s (doResendOne c s j) := by
  unfold doResendOne
  split
  · exact .refl s
  · split
    · simp only
      have fin : ∀ t : St, Quiet c s t → Quiet c s { t with resends := t.resends.modify j (fun r =>
          { r with delay := min 65535 (r.delay * 2), max := (r.max + 255) % 256 }) } :=
        fun t h => h.trans (.of ⟨rfl, rfl, rfl⟩ rfl ⟨[], rfl, by simp⟩)
      refine fin _ ?_
      split
      · exact quiet_mmh hl ..
      · unfold sendUpdateOpt
        split
        · exact (quiet_sendUpdate hl ..).1
        · exact quiet_sendIf hl ..
    · exact .refl s

theorem quiet_doResend {s : St} (hl : LInv c s.routes) : Quiet c s (doResend c s) := by
  unfold doResend
  exact (Quiet.foldl _ (fun s j hl => quiet_doResendOne hl j) _ _ hl).trans (.of ⟨rfl, rfl, rfl⟩ rfl ⟨[], rfl, by simp⟩)

theorem j_handleRequest (s : St) (n : NeighId) (k' : PKey) (hop : Nat) (q : UInt16) (id : Bytes) :
    J c v e i k s (handleRequest c s n k' hop q id) := by
  unfold handleRequest
  split
  · unfold answerOwn
    split
    · split
      · exact .refl s
      · refine J.trans (b := { s with myseqno := seqnoPlus s.myseqno 1 }) ?_ (.quiet fun hl => quiet_sendIf hl ..)
        exact .tbl (.same ⟨rfl, rfl, rfl, rfl, [], rfl, by simp⟩ rfl rfl) fun _ a ha => ⟨a, ha, rfl⟩
    · exact .quiet fun hl => quiet_sendIf hl ..
  · simp only
    split
    · exact .quiet fun hl => quiet_sendIf hl ..
    · split
      · exact .refl s
      · split
        · exact .refl s
        · split
          · exact .refl s
          · refine J.trans (b := (chooseSuccessor c s n k' (findInstalled s k')).2) ?_ ?_
            · unfold chooseSuccessor
              simp only
              split
              · split
                · next h => exact .quiet fun _ => quiet_findBest h
                · next h => split <;> exact .quiet fun _ => quiet_findBest h
              · exact .refl s
            · unfold forwardRequest
              split
              · exact .refl _
              · split
                · exact .refl _
                · exact .quiet fun hl => (quiet_umh hl ..).trans (quiet_record ..)

/-! ### Interfaces -/

theorem j_modIf_other {s : St} {j : IfId} (hj : j ≠ i) (f : Iface → Iface) (hf : ∀ x, (f x).ifindex = x.ifindex) :
    J c v e i k s (modIf s j f) := by
  have hg : getIf (modIf s j f) i = getIf s i := by
    rw [getIf_modIf _ _ _ hf, if_neg (fun h => hj h.symm)]
  intro he
  refine ⟨⟨he.linv, he.own, ⟨fun x hx => he.ann.free x (hg ▸ hx), fun x hx => he.ann.horizon x (hg ▸ hx)⟩⟩,
    fun x hx => ⟨x, hg ▸ hx, rfl⟩, fun h => ?_⟩
  rcases h with h | h
  · exact fun x hx => h x (hg ▸ hx)
  · exact absurd (fun a ha => ⟨a, ha, rfl⟩) h

theorem env_modIf {s : St} (he : Env c i k s) (f : Iface → Iface) (hf : ∀ x, { f x with up := x.up }.params = x.params) :
    Env c i k (modIf s i f) := by
  have hfi : ∀ x, (f x).ifindex = x.ifindex := fun x => (congrArg Iface.ifindex (hf x) : _)
  refine ⟨he.linv, he.own, ⟨?_, ?_⟩⟩
  · intro x hx id
    rw [getIf_modIf _ _ _ hfi, if_pos rfl] at hx
    cases hy : getIf s i with
    | none => rw [hy] at hx; cases hx
    | some y =>
      rw [hy] at hx
      cases hx
      rw [← he.ann.free y hy id, ← barred_params (hf y) id k]
      rfl
  · intro x hx hs
    rw [getIf_modIf _ _ _ hfi, if_pos rfl] at hx
    cases hy : getIf s i with
    | none => rw [hy] at hx; cases hx
    | some y =>
      rw [hy] at hx
      cases hx
      exact he.ann.horizon y hy ((params_sh (hf y)).symm.trans hs)

/-- Split horizon is not switched on or off. -/
def ShSame (i : IfId) (s s' : St) : Prop :=
  ∀ x, getIf s' i = some x → ∃ y, getIf s i = some y ∧ x.splitHorizon = y.splitHorizon

theorem IfSame.sh {s s' : St} (h : IfSame i s s') : ShSame i s s' := by
  intro x hx
  obtain ⟨y, hy, e⟩ := h x hx
  exact ⟨y, hy, params_sh e⟩

/-! ### Events -/

theorem j_step {s : St} (he : Env c i k s) (ev : Ev) (hs : ¬ Spec.Ev.outOfScope i ev)
    (hh : ∀ ifp, getIf s i = some ifp → ifp.splitHorizon = true → ¬ Spec.Ev.heardOn c i k ev) :
    (Env c i k (step c s ev) ∧ ShSame i s (step c s ev) ∧
      (GoodAt v e i k s ∨ ¬ Cls v k s (step c s ev) → GoodAt v e i k (step c s ev))) ∨
    ∃ id' q refm int n nh r, ev = .update (some id') k q refm int n nh ∧ findRoute s k n = some r ∧
      Bad c v k k n r id' (step c s ev) := by
  have fin : J c v e i k s (step c s ev) →
      Env c i k (step c s ev) ∧ ShSame i s (step c s ev) ∧
        (GoodAt v e i k s ∨ ¬ Cls v k s (step c s ev) → GoodAt v e i k (step c s ev)) :=
    fun h => ⟨(h he).1, (h he).2.1.sh, (h he).2.2⟩
  cases ev with
  | tick t => exact .inl (fin (.quiet fun _ => .of ⟨rfl, rfl, rfl⟩ rfl ⟨[], rfl, by simp⟩))
  | setCost n v => exact .inl (fin (.quiet fun _ => .of ⟨rfl, rfl, rfl⟩ rfl ⟨[], rfl, by simp⟩))
  | update id? k' q refm int n nh =>
    rcases j_updateRoute (v := v) (e := e) (i := i) (k := k) he.linv id? k' q refm int n nh
      (fun hk ifp hg hsp hn => hh ifp hg hsp ⟨hk, hn⟩) with h | ⟨id', r, h1, h2, h3⟩
    · exact .inl (fin h)
    · right
      obtain ⟨-, hk, -⟩ := id h3
      subst hk h1
      exact ⟨id', q, refm, int, n, nh, r, rfl, h2, h3⟩
  | retractNeigh fuel n =>
    exact .inl (fin (j_walk _ (fun s k' m => by split <;> first | exact j_retractOne _ _ _ | exact .refl s) _ _ _))
  | updNeigh fuel n =>
    exact .inl (fin (j_walk _ (fun s k' m => by split <;> first | exact j_updateRouteMetric _ _ _ | exact .refl s) _ _ _))
  | updIface fuel n =>
    exact .inl (fin (j_walk _ (fun s k' m => by split <;> first | exact j_updateRouteMetric _ _ _ | exact .refl s) _ _ _))
  | flushNeigh n => exact .inl (fin (j_flushWhere _ _))
  | flushIface j b => exact .inl (fin (j_flushWhere _ _))
  | ifDown j =>
    left
    by_cases hj : j = i
    · subst hj
      have h1 : Env c j k (modIf s j (fun x => { x with up := false })) := env_modIf he _ (fun _ => rfl)
      obtain ⟨h2, h2s, -⟩ := j_flushWhere (v := v) (e := e)
        (fun r => c.ifOf r.neigh == j && (!false || v4mapped r.nexthop)) _ h1
      have key : ∀ ifp, getIf (step c s (.ifDown j)) j = some ifp → ∃ y z w, getIf (flushWhere c
          (fun r => c.ifOf r.neigh == j && (!false || v4mapped r.nexthop)) (modIf s j (fun x => { x with up := false }))) j = some y ∧
          y.params = z.params ∧ getIf s j = some w ∧ z = { w with up := false } ∧ ifp = { y with queue := [], queueCap := 0 } := by
        intro ifp hg
        simp only [step, flushInterfaceRoutes] at hg
        rw [getIf_modIf _ _ (fun x => { x with queue := [], queueCap := 0 }) (fun _ => rfl), if_pos rfl] at hg
        cases hy : getIf (flushWhere c (fun r => c.ifOf r.neigh == j && (!false || v4mapped r.nexthop))
          (modIf s j (fun x => { x with up := false }))) j with
        | none => rw [hy] at hg; cases hg
        | some y =>
          rw [hy] at hg
          cases hg
          obtain ⟨z, hz, ez⟩ := h2s y hy
          rw [getIf_modIf _ _ (fun x => { x with up := false }) (fun _ => rfl), if_pos rfl] at hz
          cases hw : getIf s j with
          | none => rw [hw] at hz; cases hz
          | some w =>
            rw [hw] at hz; cases hz
            exact ⟨y, _, w, rfl, ez, rfl, rfl, rfl⟩
      refine ⟨env_modIf h2 _ (fun _ => rfl), fun ifp hg => ?_, fun _ ifp hg hup => ?_⟩
      · obtain ⟨y, z, w, -, ez, hw, rfl, rfl⟩ := key ifp hg
        exact ⟨w, hw, (params_sh ez : _)⟩
      exfalso
      obtain ⟨y, z, w, -, ez, hw, rfl, rfl⟩ := key ifp hg
      have h3 := params_up ez
      rw [show y.up = true from hup] at h3
      cases h3
    · exact fin ((j_modIf_other hj (fun x => { x with up := false }) (fun _ => rfl)).trans
        ((j_flushWhere _ _).trans (j_modIf_other hj (fun x => { x with queue := [], queueCap := 0 }) (fun _ => rfl))))
  | ifUp j full =>
    have hj : j ≠ i := hs
    refine .inl (fin ((j_modIf_other hj (fun x => { x with up := true }) (fun _ => rfl)).trans
      (J.trans ?_ (.quiet fun hl => quiet_mrequestIf hl ..))))
    unfold announceUp
    split
    · exact J.quiet fun hl => quiet_any hl ..
    · exact .quiet fun _ => .refl _
  | expireRoutes fuel => exact .inl (fin (j_expireRoutes _ _))
  | expireSources => exact .inl (fin (.quiet fun _ => .of ⟨rfl, rfl, rfl⟩ rfl ⟨[], rfl, by simp⟩))
  | expireResend =>
    refine .inl (fin (.quiet fun _ => ?_))
    simp only [step]
    unfold expireResend
    split
    · exact .of ⟨rfl, rfl, rfl⟩ rfl ⟨[], rfl, by simp⟩
    · exact .refl s
  | doResend => exact .inl (fin (.quiet fun hl => quiet_doResend hl))
  | flushUpdates j => exact .inl (fin (.quiet fun hl => quiet_flush hl j))
  | fullUpdate j u => exact .inl (fin (.quiet fun hl => quiet_any hl j u))
  | routeRequest n k' => exact .inl (fin (.quiet fun hl => quiet_sendIf hl ..))
  | seqnoRequest n k' hop q id => exact .inl (fin (j_handleRequest _ _ _ _ _ _))
  | kernelRoute add kr => exact absurd trivial hs
  | checkXroutes krs upd => exact absurd trivial hs
  | flushAll => exact absurd trivial hs

end Babel
