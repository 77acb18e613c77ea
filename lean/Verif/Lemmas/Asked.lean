import Verif.Lemmas.Lost4
import Verif.Props.Choice
/-
Requests that follow the loss of a route.
-/
set_option linter.unusedSimpArgs false
set_option linter.unusedVariables false
set_option linter.unusedSectionVars false
namespace Babel
open Spec

variable {c : Cfg}

theorem findInstalled_none_core {s s' : St} (h : s'.routes.map Route.core = s.routes.map Route.core) {k : PKey}
    (hn : findInstalled s k = none) : findInstalled s' k = none := by
  have := findInstalled_core (l := s) (l' := s') k (filter_core h (fun r => r.key == k) (fun _ => rfl))
  rw [hn] at this
  simpa using this

/-- Nothing is said about a destination without route, so its sources are left alone. -/
theorem QM.source_same {s s' : St} (h : QM c s s') {sk : SKey} (hn : findInstalled s sk.key = none) :
    findSource s' sk = findSource s sk := by
  cases h with
  | frame h => unfold findSource; rw [h.sources]
  | own => unfold findSource; rw [(reallySend_keep ..).1]
  | retraction => unfold findSource; rw [(reallySend_keep ..).1]
  | route i r hr =>
    unfold updateSource
    rw [findSource_mod _ _ _ _ (updatedSource_skey _ _ _)]
    have e : findSource (reallySend c s i r.id r.key r.seqno (routeMetric r)) sk = findSource s sk := by
      unfold findSource; rw [(reallySend_keep ..).1]
    rw [e]
    cases hf : findSource s sk with
    | none => rfl
    | some x =>
      have hx : x.skey = sk := by
        unfold findSource at hf
        have := List.find?_some hf
        simpa using this
      have hne : ¬ (x.skey == r.skey) = true := by
        intro he
        have he : sk = r.skey := by rw [← hx]; simpa using he
        have : r.key = sk.key := by rw [he]; rfl
        rw [this, hn] at hr
        cases hr
      show some (if x.skey == r.skey then _ else x) = some x
      rw [if_neg hne]

theorem QMs.source_same {s s' : St} (h : QMs c s s') {sk : SKey} (hn : findInstalled s sk.key = none) :
    findSource s' sk = findSource s sk := by
  induction h with
  | refl => rfl
  | step h m ih => rw [m.source_same (findInstalled_none_core h.same.routes hn), ih]

theorem findBest_none_iff (s : St) (k : PKey) (fe : Bool) (ex : Option NeighId) :
    (findBest c s k fe ex).1 = none ↔ ∀ n, ¬ Acceptable s k fe ex n := by
  have hb := findBest_best c s k fe ex
  have hf := frame_findBest c s k fe ex
  constructor
  · intro h n ha
    rw [h] at hb
    have hmem : n ∈ (slotOf s.routes k).map (·.neigh) := by
      obtain ⟨r, hr, -⟩ := ha
      exact mem_slot_of_find hr
    have ha' : Acceptable (findBest c s k fe ex).2 k fe ex n := ha.frame hf
    obtain ⟨b, e, -⟩ := hb.2 n hmem ha'
    cases e
  · intro h
    cases hn : (findBest c s k fe ex).1 with
    | none => rfl
    | some b =>
      obtain ha := hb.1 b hn
      exact absurd (ha.frame_inv hf) (h b)

theorem acceptable_false {s s' : St} (h : s'.routes.map Route.core = s.routes.map Route.core) (ht : s'.now = s.now) {k : PKey}
    {n : NeighId} {ex : Option NeighId} (ha : Acceptable s k false ex n) : Acceptable s' k false ex n := by
  obtain ⟨r, hr, hacc⟩ := ha
  have := find_core h (fun r => r.key == k && r.neigh == n) (fun _ => rfl)
  have : (findRoute s' k n).map Route.core = (findRoute s k n).map Route.core := this
  rw [hr] at this
  obtain ⟨r', hr', e⟩ := map_core_some this
  refine ⟨r', hr', ?_⟩
  rw [← hacc]
  unfold routeAcceptable routeExpired
  rw [ht, core_neigh e]
  have : r'.time = r.time ∧ r'.holdTime = r.holdTime := by rw [core_eq e]; exact ⟨rfl, rfl⟩
  rw [this.1, this.2]
  simp

/-- A message is still there after more messages are sent. -/
theorem fold_mh {f : St → IfId → St} {k : PKey} {q : UInt16} {id : Bytes} {h : Nat}
    (hf : f = fun s i => if ifUp s i then sendMh s i none k q id h else s) (l : List IfId) (s : St) :
    (l.foldl f s).ifaces = s.ifaces ∧ (∀ o ∈ s.out, o ∈ (l.foldl f s).out) ∧
    ∀ i ∈ l, ifUp s i = true → ssBlocked s i k = false → .mhRequest i none k q id h ∈ (l.foldl f s).out := by
  induction l generalizing s with
  | nil => exact ⟨rfl, fun _ h => h, fun i hi => by cases hi⟩
  | cons a l ih =>
    rw [List.foldl_cons]
    have h1 : (f s a).ifaces = s.ifaces ∧ (∀ o ∈ s.out, o ∈ (f s a).out) ∧
        (ifUp s a = true → ssBlocked s a k = false → .mhRequest a none k q id h ∈ (f s a).out) := by
      rw [hf]
      simp only
      split
      · unfold sendMh
        split
        · next hb => exact ⟨rfl, fun _ h => h, fun _ h => by rw [hb] at h; cases h⟩
        · exact ⟨rfl, fun o h => List.mem_cons_of_mem _ h, fun _ _ => List.mem_cons_self ..⟩
      · next hu => exact ⟨rfl, fun _ h => h, fun h => absurd h hu⟩
    obtain ⟨e1, e2, e3⟩ := ih (f s a)
    refine ⟨e1.trans h1.1, fun o ho => e2 o (h1.2.1 o ho), ?_⟩
    intro i hi hu hb
    rcases List.mem_cons.1 hi with rfl | hi
    · exact e2 _ (h1.2.2 hu hb)
    · refine e3 i hi ?_ ?_
      · unfold ifUp getIf at hu ⊢; rw [h1.1]; exact hu
      · unfold ssBlocked getIf at hb ⊢; rw [h1.1]; exact hb

theorem record_out (s : St) (kd : RKind) (k : PKey) (q : UInt16) (id : Option Bytes) (i : Option IfId) (d : Nat) :
    (recordResend c s kd k q id i d).out = s.out := by
  obtain ⟨l, t, e⟩ := record_fields_told (c := c) s kd k q id i d
  rw [e]

theorem ifUp_params {s s' : St} (h : Quiet c s s') {i : IfId} {ifp : Iface} (hg : getIf s i = some ifp) :
    ifUp s' i = ifp.up ∧ ∀ k, ssBlocked s' i k = (k.isSS && ifp.rfc6126) := by
  obtain ⟨y, hy, py, -⟩ := h.told i ifp hg
  unfold ifUp ssBlocked
  rw [hy]
  exact ⟨params_up py, fun k => by
    show (k.isSS && y.rfc6126) = _
    rw [show y.rfc6126 = ifp.rfc6126 from (congrArg Iface.rfc6126 py : _)]⟩

/-- `send_request_resend`. -/
theorem requestResend_out {s : St} (hl : LInv c s.routes) (k : PKey) (q : UInt16) (id : Bytes) :
    (∃ n, Acceptable s k false none n ∧ ∀ ifp, getIf s (c.ifOf n) = some ifp → (k.isSS && ifp.rfc6126) = false →
      .mhRequest (c.ifOf n) (some n) k q id 127 ∈ (sendRequestResend c s k q id).out) ∨
    ((∀ n, ¬ Acceptable s k false none n) ∧ ∀ i ifp, getIf s i = some ifp → ifp.up = true → (k.isSS && ifp.rfc6126) = false →
      .mhRequest i none k q id 127 ∈ (sendRequestResend c s k q id).out) := by
  have hnone := findBest_none_iff (c := c) s k false none
  unfold sendRequestResend
  generalize hb : findBest c s k false none = p at hnone
  obtain ⟨b, s1⟩ := p
  have hq : Quiet c s s1 := quiet_findBest hb
  have hl1 := hq.linv hl
  cases b with
  | some n =>
    left
    refine ⟨n, (findBest_acceptable hb).frame_inv (findBest_frame hb), fun ifp hg hss => ?_⟩
    simp only
    rw [record_out]
    unfold sendUnicastMh sendMh
    rw [(ifUp_params (hq.trans (quiet_flush hl1 (c.ifOf n))) hg).2, hss]
    exact List.mem_cons_self ..
  | none =>
    right
    refine ⟨hnone.1 rfl, fun i ifp hg hup hss => ?_⟩
    have hp := ifUp_params hq hg
    obtain ⟨-, -, h3⟩ := fold_mh (k := k) (q := q) (id := id) (h := 127) rfl (allIfs s1) s1
    refine h3 i ?_ (hp.1.trans hup) ((hp.2 k).trans hss)
    rw [hq.ids]
    exact List.mem_map.2 ⟨ifp, (getIf_mem hg).2, (getIf_mem hg).1⟩

theorem routeLost_asked {s : St} (hl : LInv c s.routes) {sk : SKey} {m : Nat} {src : Source} (hn : findInstalled s sk.key = none)
    (hs : findSource s sk = some src) (hm : m ≤ INFINITY / 2) (hno : ∀ n, ¬ Acceptable s sk.key true none n) :
    (∃ n, Acceptable s sk.key false none n ∧ ∀ ifp, getIf s (c.ifOf n) = some ifp → (sk.key.isSS && ifp.rfc6126) = false →
      .mhRequest (c.ifOf n) (some n) sk.key (requestSeqno src) sk.id 127 ∈ (routeLost c s sk m).out) ∨
    ((∀ n, ¬ Acceptable s sk.key false none n) ∧
      ∀ i ifp, getIf s i = some ifp → ifp.up = true → (sk.key.isSS && ifp.rfc6126) = false →
        .mhRequest i none sk.key (requestSeqno src) sk.id 127 ∈ (routeLost c s sk m).out) := by
  unfold routeLost
  have hnone := (findBest_none_iff (c := c) s sk.key true none).2 hno
  generalize hb : findBest c s sk.key true none = p at hnone
  obtain ⟨b, s1⟩ := p
  simp only at hnone
  subst hnone
  simp only
  have hf := findBest_frame hb
  have hq : Quiet c s s1 := quiet_findBest hb
  have hl1 := hq.linv hl
  have hn1 := findInstalled_none_core hf.routes hn
  unfold announceLost
  rw [if_pos (by unfold INFINITY at *; omega), if_pos hm]
  have hqm := qms_sendUpdateResend c s1 sk.key
  have hq2 := (quiet_sendUpdateResend hl1 sk.key).1
  generalize sendUpdateResend c s1 sk.key = s2 at hqm hq2
  rw [hqm.source_same hn1, show findSource s1 sk = some src by unfold findSource; rw [hf.sources]; exact hs]
  simp only
  have hqq := hq.trans hq2
  have hnow : s2.now = s.now := hqm.same.now.trans hf.now
  rcases requestResend_out (hqq.linv hl) sk.key (requestSeqno src) sk.id with ⟨n, h1, h2⟩ | ⟨h1, h2⟩
  · left
    refine ⟨n, acceptable_false hqq.ann.routes.symm hnow.symm h1, fun ifp hg hss => ?_⟩
    obtain ⟨y, hy, py, -⟩ := hqq.told _ ifp hg
    exact h2 y hy (by rw [show y.rfc6126 = ifp.rfc6126 from (congrArg Iface.rfc6126 py : _)]; exact hss)
  · right
    refine ⟨fun n ha => h1 n (acceptable_false hqq.ann.routes hnow ha), fun i ifp hg hup hss => ?_⟩
    obtain ⟨y, hy, py, -⟩ := hqq.told _ ifp hg
    exact h2 i y hy ((params_up py).trans hup) (by rw [show y.rfc6126 = ifp.rfc6126 from (congrArg Iface.rfc6126 py : _)]; exact hss)

/-- `flush_route` for the selected route. -/
theorem flushRoute_asked {s : St} (hi : Inv c s []) {r : Route} (hr : r ∈ s.routes) (hri : r.installed = true)
    (hm : routeMetric r ≤ INFINITY / 2)
    (hno : ∀ x ∈ s.routes, x.key = r.key → x.neigh ≠ r.neigh → routeAcceptable s x true none = false) :
    ∃ src, findSource s r.skey = some src ∧
    ((∃ x ∈ s.routes, x.key = r.key ∧ x.neigh ≠ r.neigh ∧ routeAcceptable s x false none = true ∧
      ∀ ifp, getIf s (c.ifOf x.neigh) = some ifp → (r.key.isSS && ifp.rfc6126) = false →
      .mhRequest (c.ifOf x.neigh) (some x.neigh) r.key (requestSeqno src) r.id 127 ∈ (flushRoute c s r.key r.neigh).out) ∨
    ((∀ x ∈ s.routes, x.key = r.key → x.neigh ≠ r.neigh → routeAcceptable s x false none = false) ∧
      ∀ i ifp, getIf s i = some ifp → ifp.up = true → (r.key.isSS && ifp.rfc6126) = false →
        .mhRequest i none r.key (requestSeqno src) r.id 127 ∈ (flushRoute c s r.key r.neigh).out)) := by
  have hl := hi.lst
  have hf := findRoute_of_mem hl hr
  obtain ⟨src, hsrc⟩ : ∃ src, findSource s r.skey = some src := by
    obtain ⟨x, hx, e⟩ := hi.src.has r.skey (by
      unfold refs
      have : 0 < s.routes.countP (fun x => x.skey == r.skey) := List.countP_pos_iff.2 ⟨r, hr, by simp⟩
      omega)
    cases hs : findSource s r.skey with
    | some y => exact ⟨y, rfl⟩
    | none =>
      unfold findSource at hs
      rw [List.find?_eq_none] at hs
      exact absurd (by simp [e]) (hs x hx)
  refine ⟨src, hsrc, ?_⟩
  unfold flushRoute
  rw [hf]
  simp only [hri, if_true]
  have ht : Tbl c s (unlinkRoute (notifyRoute (uninstallRoute c s r.key r.neigh) .flush r.key r.neigh) r.key r.neigh) :=
    ((tbl_uninstall ..).trans (tbl_notify ..)).trans (tbl_unlink ..)
  have hroutes : (unlinkRoute (notifyRoute (uninstallRoute c s r.key r.neigh) .flush r.key r.neigh) r.key r.neigh).routes =
      flatRemove s.routes r.key r.neigh := by
    show flatRemove (notifyRoute (uninstallRoute c s r.key r.neigh) .flush r.key r.neigh).routes r.key r.neigh = _
    rw [notifyRoute_routes]
    rcases uninstallRoute_routes c s r.key r.neigh with ⟨h, -⟩ | h
    · rw [h]
    · rw [h, flatRemove_modify _ _ _ _ (keepsId_installed _)]
  have hsrcs : (unlinkRoute (notifyRoute (uninstallRoute c s r.key r.neigh) .flush r.key r.neigh) r.key r.neigh).sources = s.sources := by
    show (notifyRoute (uninstallRoute c s r.key r.neigh) .flush r.key r.neigh).sources = _
    rw [← (keep_uninstall c s r.key r.neigh).sources]
    unfold notifyRoute
    split <;> rfl
  generalize unlinkRoute (notifyRoute (uninstallRoute c s r.key r.neigh) .flush r.key r.neigh) r.key r.neigh = s2 at *
  have hl2 := ht.linv hl
  have hmem : ∀ x, x ∈ s2.routes ↔ x ∈ s.routes ∧ ¬ (x.key = r.key ∧ x.neigh = r.neigh) := by
    intro x
    rw [hroutes]
    unfold flatRemove
    rw [List.mem_filter]
    simp
    intro _
    constructor
    · intro h1 h2 h3
      rcases h1 with h1 | h1
      · exact h1 h2
      · exact h1 h3
    · intro h1
      by_cases h2 : x.key = r.key
      · exact .inr (h1 h2)
      · exact .inl h2
  have hacc : ∀ x b, routeAcceptable s2 x b none = routeAcceptable s x b none := by
    intro x b
    unfold routeAcceptable routeExpired routeFeasible findSource updateFeasible
    rw [ht.hard.now, hsrcs]
  have hA : ∀ n b, Acceptable s2 r.key b none n ↔ ∃ x ∈ s.routes, x.key = r.key ∧ x.neigh = n ∧ n ≠ r.neigh ∧
      routeAcceptable s x b none = true := by
    intro n b
    constructor
    · rintro ⟨x, hx, ha⟩
      obtain ⟨h1, h2, h3⟩ := findRoute_mem hx
      have := (hmem x).1 h1
      exact ⟨x, this.1, h2, h3, fun h => this.2 ⟨h2, h3.trans h⟩, by rw [← hacc]; exact ha⟩
    · rintro ⟨x, h1, h2, h3, h4, h5⟩
      refine ⟨x, ?_, by rw [hacc]; exact h5⟩
      have := findRoute_of_mem hl2 ((hmem x).2 ⟨h1, fun h => h4 (h3 ▸ h.2)⟩)
      rw [h2, h3] at this
      exact this
  have hn2 : findInstalled s2 r.key = none := by
    cases hx : findInstalled s2 r.key with
    | none => rfl
    | some x =>
      exfalso
      obtain ⟨h1, h2, h3⟩ := findInstalled_mem hx
      have h4 := (hmem x).1 h1
      have h5 := installed_of_find hl hf hri
      have h6 := (findInstalled_iff hl).2 ⟨h4.1, h2, h3⟩
      rw [h5] at h6
      cases h6
      exact h4.2 ⟨rfl, rfl⟩
  have hg : ∀ i, getIf s2 i = getIf s i := fun i => by unfold getIf; rw [ht.hard.ifaces]
  rcases routeLost_asked hl2 (sk := r.skey) (m := routeMetric r) (src := src) hn2 (by unfold findSource; rw [hsrcs]; exact hsrc) hm
    (fun n ha => by
      obtain ⟨x, h1, h2, h3, h4, h5⟩ := (hA n true).1 ha
      rw [hno x h1 h2 (h3 ▸ h4)] at h5
      cases h5) with ⟨n, h1, h2⟩ | ⟨h1, h2⟩
  · left
    obtain ⟨x, h3, h4, h5, h6, h7⟩ := (hA n false).1 h1
    subst h5
    exact ⟨x, h3, h4, h6, h7, fun ifp hgi => h2 ifp ((hg _).trans hgi)⟩
  · right
    refine ⟨fun x h3 h4 h5 => ?_, fun i ifp hgi => h2 i ifp ((hg i).trans hgi)⟩
    cases hx : routeAcceptable s x false none with
    | false => rfl
    | true => exact absurd ((hA x.neigh false).2 ⟨x, h3, h4, rfl, h5, hx⟩) (h1 x.neigh)

end Babel
