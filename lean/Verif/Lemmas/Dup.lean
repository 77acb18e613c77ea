import Verif.Lemmas.Sel
import Verif.Lemmas.Reach
import Verif.Lemmas.Store
/-
Which routes may become selected for redistributed destinations, and requests for newer sequence numbers.
-/
set_option linter.unusedSimpArgs false
set_option linter.unusedVariables false
set_option linter.unusedSectionVars false
namespace Babel
open Spec

theorem M.dup {c : Cfg} {A : Allow} (hA : ¬ A.xr) {s s' : St} {ex ex' : List SKey} (h : M c A s ex s' ex')
    (hl : LInv c s.routes) {k : PKey} {n : NeighId} (hs : Sel s'.routes k n) :
    Sel s.routes k n ∨ xrouteBlocks c s k = false := by
  cases h with
  | q h => exact .inl (hs.core h.same.routes)
  | @install s k' n' r h1 h2 h3 h4 h5 =>
    rcases installRoute_cases (c := c) h1 h2 h3 with ⟨_, e⟩ | ⟨_, _, e⟩ | ⟨_, _, e⟩ <;> rw [e] at hs
    · exact .inl hs
    · rw [(konly_changeAdd ..).routes] at hs; exact .inl hs
    · rw [notifyRoute_routes] at hs
      rcases Sel.mark hs with h | ⟨e1, e2⟩
      · rw [(konly_changeAdd ..).routes] at h; exact .inl h
      · subst e1 e2
        exact .inr (h5.resolve_right hA)
  | @switch s k' n' r o ho hr h3 hf h4 h5 h6 h7 =>
    obtain ⟨hm, hok, hoi⟩ := findInstalled_mem ho
    have hfo : findRoute s k' o.neigh = some o := by rw [← hok]; exact findRoute_of_mem hl hm
    rcases switchRoutes_cases (c := c) hfo hr hf with ⟨_, e⟩ | ⟨_, _, e⟩ | ⟨_, _, e⟩ <;> rw [e] at hs
    · exact .inl hs
    · rw [(konly_changeModify ..).routes] at hs; exact .inl hs
    · rw [notifyRoute_routes, notifyRoute_routes] at hs
      rcases Sel.mark hs with h | ⟨e1, e2⟩
      · have h := Sel.modify (keepsId_installed false) (fun r hr => by simp at hr) h
        rw [(konly_changeModify ..).routes] at h; exact .inl h
      · subst e1 e2
        exact .inr h7
  | uninstall k n => exact .inl (Sel.uninstall hs)
  | recost h1 h2 => exact .inl (Sel.metric hs)
  | retract k n => exact .inl (Sel.metric hs)
  | @expire s k n r q h1 h2 h3 =>
    exact .inl (Sel.modify (f := fun r => { r with seqno := q }) (fun _ => ⟨rfl, rfl⟩) (fun _ e => e)
      (Sel.metric hs))
  | apply id q refm add hold u h1 h2 h3 h4 h5 h6 => exact .inl (Sel.apply hs)
  | insert k n id q refm add hold nh h1 h2 h3 h4 h5 h6 h7 =>
    rw [notifyRoute_routes] at hs
    exact .inl (Sel.insert (by rfl) hs)
  | unlink h1 h2 hA' =>
    left
    have h : Sel (flatRemove (notifyRoute s .flush _ _).routes _ _) k n := hs
    rw [notifyRoute_routes] at h
    exact Sel.remove h
  | release k => exact .inl hs
  | ensure k' q =>
    have := (ensure_routes s k' q).1
    rw [this] at hs; exact .inl hs
  | gc hA' => exact .inl hs
  | xadd kr h1 h2 h3 hA' => exact absurd hA' hA
  | xdel x hx hA' => exact absurd hA' hA
  | xmod x m p hx hm _ hA' => exact absurd hA' hA
  | bump _ => exact .inl hs
  | tick t h => exact .inl hs
  | cost n v h => exact .inl hs

theorem M.xroutes {c : Cfg} {A : Allow} (hA : ¬ A.xr) {s s' : St} {ex ex' : List SKey} (h : M c A s ex s' ex')
    (hl : LInv c s.routes) : s'.xroutes = s.xroutes := by
  cases h with
  | q h => exact h.same.xroutes
  | install h1 h2 h3 h4 => exact (keep_install c _ _ _ h1 h2 h3).xroutes
  | @switch s k n r o ho hr h3 hf h4 h5 h6 =>
    obtain ⟨hm, hok, hoi⟩ := findInstalled_mem ho
    have hfo : findRoute s k o.neigh = some o := by rw [← hok]; exact findRoute_of_mem hl hm
    exact (keep_switch c s k o.neigh n hfo hr hf).xroutes
  | uninstall k n => exact (keep_uninstall c s k n).xroutes
  | recost h1 h2 => exact (keep_metric ..).xroutes
  | retract k n => exact (keep_metric ..).xroutes
  | expire q h1 h2 h3 => exact (keep_metric ..).xroutes
  | @apply s r id q refm add hold u h1 h2 h3 h4 h5 h6 =>
    unfold applyUpdate
    show (changeRouteMetric c _ _ _ _ _ _).xroutes = _
    rw [(keep_metric ..).xroutes]
    show (if u = true then uninstallRoute c s r.key r.neigh else s).xroutes = _
    split
    · exact (keep_uninstall ..).xroutes
    · rfl
  | insert k n id q refm add hold nh h1 h2 h3 h4 h5 h6 h7 => rw [notifyRoute_eq]; rfl
  | unlink h1 h2 hA' =>
    show (notifyRoute s .flush _ _).xroutes = _
    rw [notifyRoute_eq]
  | release k => rfl
  | ensure k' q => unfold ensureSource; split <;> rfl
  | gc hA' => rfl
  | xadd kr h1 h2 h3 hA' => exact absurd hA' hA
  | xdel x hx hA' => exact absurd hA' hA
  | xmod x m p hx hm _ hA' => exact absurd hA' hA
  | bump _ => rfl
  | tick t h => rfl
  | cost n v h => rfl

theorem blocks_congr {c : Cfg} {s s' : St} (h : s'.xroutes = s.xroutes) (k : PKey) :
    xrouteBlocks c s' k = xrouteBlocks c s k := by
  unfold xrouteBlocks findXroute; rw [h]

theorem Ms.dup {c : Cfg} {A : Allow} (hA : ¬ A.xr) {s s' : St} {ex ex' : List SKey} (h : Ms c A s ex s' ex')
    (hl : Inv c s ex) : s'.xroutes = s.xroutes ∧
      ∀ {k : PKey} {n : NeighId}, Sel s'.routes k n → Sel s.routes k n ∨ xrouteBlocks c s k = false := by
  induction h with
  | refl => exact ⟨rfl, fun hs => .inl hs⟩
  | step h m ih =>
    have hi := (h.inv hl).lst
    obtain ⟨h1, h2⟩ := ih
    refine ⟨(m.xroutes hA hi).trans h1, fun {k n} hs => ?_⟩
    rcases m.dup hA hi hs with h3 | h3
    · exact h2 h3
    · rw [blocks_congr h1] at h3; exact .inr h3

end Babel
