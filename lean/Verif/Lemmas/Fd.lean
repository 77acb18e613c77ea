import Verif.Lemmas.Inv2
import Verif.Lemmas.Util
import Verif.Spec.Route
/-
Feasibility distances only improve.
-/
set_option linter.unusedSimpArgs false
set_option linter.unusedVariables false
set_option linter.unusedSectionVars false
namespace Babel
open Spec

theorem seqnoCompare_neg {a b : UInt16} : seqnoCompare a b < 0 ↔ Newer b a := by
  unfold Newer
  have ha := a.toNat_lt
  have hb := b.toNat_lt
  rw [seqnoCompare_nat, UInt16.toNat_sub]
  repeat' split
  all_goals simp <;> omega

theorem Spec.Improves.trans {a b d : Dist} (h : Improves a b) (g : Improves b d) : Improves a d := by
  induction h with
  | refl => exact g
  | step _ b ih => exact (ih g).step b

theorem Spec.Improves.one {a b : Dist} (h : Better a b) : Improves a b := (Improves.refl b).step h

/-! ### Lookup after modification -/

theorem findSource_mod (s : St) (k k' : SKey) (f : Source → Source) (hf : ∀ x, (f x).skey = x.skey) :
    findSource (modSource s k f) k' =
      (findSource s k').map (fun x => if x.skey == k then f x else x) := by
  unfold findSource modSource
  rw [List.find?_map]
  congr 1
  congr 1
  funext x
  simp only [Function.comp]
  split <;> simp [hf]

theorem updatedSource_skey (now : Int) (q : UInt16) (m : Nat) (x : Source) :
    (updatedSource now q m x).skey = x.skey := by
  unfold updatedSource
  repeat' split
  all_goals rfl

/-- A fresh source stays fresh and improves. -/
theorem updatedSource_improves {now : Int} {q : UInt16} {m : Nat} {x : Source}
    (h : now - 200 ≤ x.time) :
    now - 200 ≤ (updatedSource now q m x).time ∧
    Improves (distOf (updatedSource now q m x)) (distOf x) := by
  unfold updatedSource SOURCE_GC_TIME
  split
  · exact ⟨h, .refl _⟩
  · split
    · next hc =>
      refine ⟨by show now - 200 ≤ now; omega, .one ?_⟩
      rcases hc with hc | hc | hc
      · omega
      · exact .inl (seqnoCompare_neg.1 hc)
      · exact .inr ⟨hc.1.symm, hc.2⟩
    · exact ⟨by show now - 200 ≤ now; omega, .refl _⟩

/-- After `update_source` with a finite metric the distance is at least as good. -/
theorem updatedSource_announced {now : Int} {q : UInt16} {m : Nat} {x : Source} (hm : m < INFINITY)
    (hnw : q.toNat ≠ (x.seqno.toNat + 32768) % 65536) :
    now - 200 ≤ (updatedSource now q m x).time ∧
    Improves (distOf (updatedSource now q m x)) (q, m) := by
  unfold updatedSource
  rw [if_neg (by omega)]
  split
  · exact ⟨by show now - 200 ≤ now; omega, .refl _⟩
  · next hc =>
    refine ⟨by show now - 200 ≤ now; omega, ?_⟩
    show Improves (x.seqno, x.metric) (q, m)
    by_cases he : x.seqno = q
    · by_cases hmm : x.metric = m
      · rw [he, hmm]; exact .refl _
      · refine .one (.inr ⟨he, ?_⟩)
        have : ¬ x.metric > m := fun h => hc (.inr (.inr ⟨he, h⟩))
        show x.metric < m
        omega
    · refine .one (.inl ?_)
      have h1 : ¬ Newer q x.seqno := fun h => hc (.inr (.inl (seqnoCompare_neg.2 h)))
      have hq := q.toNat_lt
      have hx := x.seqno.toNat_lt
      have hne : x.seqno.toNat ≠ q.toNat := fun h => he (UInt16.toNat_inj.1 h)
      unfold Newer at h1 ⊢
      rw [UInt16.toNat_sub] at h1 ⊢
      show 0 < (2 ^ 16 - q.toNat + x.seqno.toNat) % 2 ^ 16 ∧
        (2 ^ 16 - q.toNat + x.seqno.toNat) % 2 ^ 16 < 32768
      omega

/-- One source, fresh and with a distance at least as good as `d`. -/
def FdOk (s : St) (k : SKey) (d : Dist) : Prop :=
  ∃ y, findSource s k = some y ∧ Spec.Fresh s y ∧ Improves (distOf y) d

theorem FdOk.mod {s s' : St} {k k' : SKey} {d : Dist} {f : Source → Source} (h : FdOk s k d)
    (hf : ∀ x, (f x).skey = x.skey) (hn : s'.now = s.now) (hs : s'.sources = (modSource s k' f).sources)
    (hi : ∀ x, s.now.sec - 200 ≤ x.time → s.now.sec - 200 ≤ (f x).time ∧
      Improves (distOf (f x)) (distOf x)) : FdOk s' k d := by
  obtain ⟨y, h1, h2, h3⟩ := h
  have e : findSource s' k = findSource (modSource s k' f) k := by unfold findSource; rw [hs]
  rw [findSource_mod _ _ _ _ hf, h1] at e
  simp only [Option.map_some] at e
  refine ⟨_, e, ?_⟩
  unfold Spec.Fresh at h2 ⊢
  rw [hn]
  split
  · exact ⟨(hi y h2).1, (hi y h2).2.trans h3⟩
  · exact ⟨h2, h3⟩

theorem FdOk.keep {s s' : St} {k : SKey} {d : Dist} (h : FdOk s k d) (hn : s'.now = s.now)
    (hs : s'.sources = s.sources) : FdOk s' k d := by
  obtain ⟨y, h1, h2, h3⟩ := h
  refine ⟨y, by unfold findSource at h1 ⊢; rw [hs]; exact h1, ?_, h3⟩
  unfold Spec.Fresh at h2 ⊢
  rw [hn]; exact h2

theorem reallySend_keep (c : Cfg) (s : St) (i : IfId) (id : Bytes) (k : PKey) (q : UInt16) (m : Nat) :
    (reallySend c s i id k q m).sources = s.sources ∧ (reallySend c s i id k q m).now = s.now := by
  rcases reallySend_eq c s i id k q m with h | ⟨m', h, _⟩ <;> rw [h] <;> exact ⟨rfl, rfl⟩

theorem QM.fd {c : Cfg} {s s' : St} (h : QM c s s') {k : SKey} {d : Dist} (hi : FdOk s k d) :
    FdOk s' k d := by
  cases h with
  | frame h => exact hi.keep h.now h.sources
  | own i x _ => exact hi.keep (reallySend_keep ..).2 (reallySend_keep ..).1
  | retraction i k _ _ => exact hi.keep (reallySend_keep ..).2 (reallySend_keep ..).1
  | route i r _ _ _ =>
    refine FdOk.mod (k' := r.skey) (f := updatedSource s.now.sec r.seqno (routeMetric r))
      (hi.keep (reallySend_keep c s i r.id r.key r.seqno (routeMetric r)).2
        (reallySend_keep c s i r.id r.key r.seqno (routeMetric r)).1)
      (fun x => updatedSource_skey ..) rfl ?_ ?_
    · show (modSource _ _ (updatedSource (reallySend c s i r.id r.key r.seqno (routeMetric r)).now.sec
        r.seqno (routeMetric r))).sources = _
      rw [(reallySend_keep ..).2]
    · intro x hx
      rw [(reallySend_keep ..).2] at hx ⊢
      exact updatedSource_improves hx

theorem applyUpdate_keep (c : Cfg) (s : St) (k : PKey) (n : NeighId) (id : Bytes) (q : UInt16)
    (refm add hold : Nat) (u : Bool) :
    (applyUpdate c s k n id q refm add hold u).sources = (retainSource s ⟨id, k⟩).sources ∧
    (applyUpdate c s k n id q refm add hold u).now = s.now := by
  unfold applyUpdate
  simp only
  have key : ∃ s2, (if u = true then uninstallRoute c s k n else s) = s2 ∧ Keep s s2 := by
    cases u with
    | false => exact ⟨s, rfl, .refl s⟩
    | true => exact ⟨_, rfl, keep_uninstall ..⟩
  obtain ⟨s2, e2, hk2⟩ := key
  rw [e2]
  have hk4 := keep_metric c (modRoute (retainSource s2 ⟨id, k⟩) k n
      (updRoute s.now.sec id q refm)) k n refm (s.ncost n) add
  constructor
  · show (changeRouteMetric c (modRoute (retainSource s2 ⟨id, k⟩) k n
      (updRoute s.now.sec id q refm)) k n refm (s.ncost n) add).sources = _
    rw [hk4.sources]
    show (retainSource s2 ⟨id, k⟩).sources = _
    unfold retainSource modSource
    simp only [hk2.sources]
  · show (changeRouteMetric c (modRoute (retainSource s2 ⟨id, k⟩) k n
      (updRoute s.now.sec id q refm)) k n refm (s.ncost n) add).now = _
    rw [hk4.now]
    exact hk2.now

theorem applyUpdate_others (c : Cfg) (s : St) (k : PKey) (n : NeighId) (id : Bytes) (q : UInt16)
    (refm add hold : Nat) (u : Bool) :
    (applyUpdate c s k n id q refm add hold u).myseqno = s.myseqno ∧
    (applyUpdate c s k n id q refm add hold u).xroutes = s.xroutes ∧
    (applyUpdate c s k n id q refm add hold u).ncost = s.ncost := by
  unfold applyUpdate
  simp only
  have key : ∃ s2, (if u = true then uninstallRoute c s k n else s) = s2 ∧ Keep s s2 := by
    cases u with
    | false => exact ⟨s, rfl, .refl s⟩
    | true => exact ⟨_, rfl, keep_uninstall ..⟩
  obtain ⟨s2, e2, hk2⟩ := key
  rw [e2]
  have hk4 := keep_metric c (modRoute (retainSource s2 ⟨id, k⟩) k n
      (updRoute s.now.sec id q refm)) k n refm (s.ncost n) add
  exact ⟨hk4.myseqno.trans hk2.myseqno, hk4.xroutes.trans hk2.xroutes, hk4.ncost.trans hk2.ncost⟩

theorem M.fd {c : Cfg} {A : Allow} (hA : ¬ A.env) {s s' : St} {ex ex' : List SKey}
    (h : M c A s ex s' ex') (hl : LInv c s.routes) {k : SKey} {d : Dist} (hi : FdOk s k d) :
    FdOk s' k d := by
  cases h with
  | q h => exact h.fd hi
  | install h1 h2 h3 h4 =>
    have hk := keep_install c _ _ _ h1 h2 h3; exact hi.keep hk.now hk.sources
  | @switch s k n r o ho hr h3 hf h4 h5 h6 =>
    obtain ⟨hm, hok, hoi⟩ := findInstalled_mem ho
    have hfo : findRoute s k o.neigh = some o := by rw [← hok]; exact findRoute_of_mem hl hm
    have hk := keep_switch c s k o.neigh n hfo hr hf
    exact hi.keep hk.now hk.sources
  | uninstall k n => have hk := keep_uninstall c s k n; exact hi.keep hk.now hk.sources
  | @recost s k n r h1 h2 =>
    have hk := keep_metric c s k n r.refmetric (s.ncost n)
      (c.inputFilter (some r.id) k (some n) (c.ifOf n))
    exact hi.keep hk.now hk.sources
  | retract k n =>
    have hk := keep_metric c s k n INFINITY INFINITY 0; exact hi.keep hk.now hk.sources
  | @expire s k n r q h1 h2 h3 =>
    have hk := (keep_modRoute s k n (fun r => { r with seqno := q })).trans
      (keep_metric c _ k n INFINITY INFINITY 0)
    exact hi.keep hk.now hk.sources
  | @apply s r id q refm add hold u h1 h2 h3 h4 h5 h6 =>
    have hk := applyUpdate_keep c s r.key r.neigh id q refm add hold u
    exact FdOk.mod (f := fun x => { x with routeCount := x.routeCount + 1 }) hi (fun x => rfl) hk.2 hk.1 (fun x hx => ⟨hx, .refl _⟩)
  | insert k n id q refm add hold nh h1 h2 h3 h4 h5 h6 h7 =>
    have hk := keep_notify { retainSource s ⟨id, k⟩ with
      routes := flatInsert s.routes (newRoute s k n id q refm add hold nh) } .add k n
    exact FdOk.mod (f := fun x => { x with routeCount := x.routeCount + 1 }) hi (fun x => rfl) hk.now hk.sources (fun x hx => ⟨hx, .refl _⟩)
  | @unlink s k n r h1 h2 hA' =>
    have hk := keep_notify s .flush k n; exact hi.keep hk.now hk.sources
  | release k => exact FdOk.mod (f := fun x => { x with routeCount := x.routeCount - 1 }) hi (fun x => rfl) rfl rfl (fun x hx => ⟨hx, .refl _⟩)
  | ensure k' q =>
    obtain ⟨y, h1, h2, h3⟩ := hi
    have h4 := ensure_routes s k' q
    refine ⟨y, ?_, by unfold Spec.Fresh at h2 ⊢; rw [h4.2.1]; exact h2, h3⟩
    unfold ensureSource
    split
    · exact h1
    · unfold findSource at h1 ⊢
      show (s.sources ++ _).find? _ = _
      rw [List.find?_append, h1]; rfl
  | gc hA' =>
    obtain ⟨y, h1, h2, h3⟩ := hi
    unfold Spec.Fresh at h2
    have hm := findSource_key h1
    have hp : ∀ y : Source, s.now.sec - 200 ≤ y.time →
        (!((if y.time > s.now.sec then { y with time := s.now.sec } else y).routeCount == 0 &&
          decide ((if y.time > s.now.sec then { y with time := s.now.sec } else y).time <
            s.now.sec - SOURCE_GC_TIME))) = true := by
      intro y hy
      unfold SOURCE_GC_TIME
      simp only [Bool.not_eq_true', Bool.and_eq_false_iff]
      right
      simp only [decide_eq_false_iff_not]
      split
      · show ¬ s.now.sec < s.now.sec - 200
        omega
      · omega
    -- the first entry with the key survives
    have key : ∀ l : List Source, l.find? (fun x => x.skey == k) = some y →
        ((l.map (fun x => if x.time > s.now.sec then { x with time := s.now.sec } else x)).filter
          (fun x => !(x.routeCount == 0 && decide (x.time < s.now.sec - SOURCE_GC_TIME)))).find?
          (fun x => x.skey == k) =
          some (if y.time > s.now.sec then { y with time := s.now.sec } else y) := by
      intro l
      induction l with
      | nil => simp
      | cons a l ih =>
        intro h
        rw [List.find?_cons] at h
        rw [List.map_cons, List.filter_cons]
        cases hak : a.skey == k with
        | true =>
          rw [hak] at h
          simp at h
          rw [h, hp y h2]
          simp only [if_true]
          rw [List.find?_cons]
          have : ((if y.time > s.now.sec then { y with time := s.now.sec } else y).skey == k) = true := by
            rw [← h]
            split <;> exact hak
          rw [this]
        | false =>
          rw [hak] at h
          have := ih (by simpa using h)
          have h5 : ((if a.time > s.now.sec then { a with time := s.now.sec } else a).skey == k) = false := by
            split <;> exact hak
          generalize (if a.time > s.now.sec then { a with time := s.now.sec } else a) = a' at h5 ⊢
          split
          · rw [List.find?_cons]
            rw [h5]; exact this
          · exact this
    refine ⟨_, key s.sources h1, ?_, ?_⟩
    · unfold Spec.Fresh
      show s.now.sec - 200 ≤ _
      split
      · show s.now.sec - 200 ≤ s.now.sec
        omega
      · exact h2
    · have : distOf (if y.time > s.now.sec then { y with time := s.now.sec } else y) = distOf y := by
        split <;> rfl
      rw [this]; exact h3
  | xadd kr h1 h2 h3 hA' => unfold addXroute; rw [h1]; exact hi.keep rfl rfl
  | xdel x hx hA' => exact hi.keep rfl rfl
  | xmod x m p hx hm _ hA' => exact hi.keep rfl rfl
  | bump _ => exact hi.keep rfl rfl
  | tick t h => exact absurd h hA
  | cost n v h => exact absurd h hA

theorem Ms.fd {c : Cfg} {A : Allow} (hA : ¬ A.env) {s s' : St} {ex ex' : List SKey}
    (h : Ms c A s ex s' ex') (hl : Inv c s ex) {k : SKey} {d : Dist} (hi : FdOk s k d) :
    FdOk s' k d := by
  induction h with
  | refl => exact hi
  | step h m ih => exact m.fd hA (h.inv hl).lst ih

end Babel
