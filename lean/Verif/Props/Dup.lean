import Verif.Lemmas.Dup
import Verif.Lemmas.Demo
import Verif.Spec.Xroute
/-
C60 routes to redistributed destinations.
-/
set_option linter.unusedSimpArgs false
set_option linter.unusedVariables false
namespace Babel
open Spec

/-- C60: an event other than a change of the kernel's table makes a route to a redistributed destination the selected
one only if duplicates are allowed down from a value larger than the metric of the redistributed route. -/
theorem C60_selected {c : Cfg} {s : St} (h : Reachable c s) {ev : Ev} (h1 : ∀ a kr, ev ≠ .kernelRoute a kr)
    (h2 : ∀ krs u, ev ≠ .checkXroutes krs u) {k : PKey} {n : NeighId} (hs : Selected (step c s ev) k n)
    (hn : ¬ Selected s k n) {x : Xroute} (hx : exported s k = some x) : ∃ a, c.allowDup = some a ∧ x.metric < a := by
  have hA : ¬ (allowEv ev).xr := by
    cases ev <;> first | exact (fun h => h) | exact absurd rfl (h1 _ _) | exact absurd rfl (h2 _ _)
  have hm := step_ms c s ev (fun r hr => (h.inv.lst.ok r hr).1)
  rcases (hm.dup hA h.inv).2 hs with h3 | h3
  · exact absurd h3 hn
  · unfold xrouteBlocks at h3
    rw [show findXroute s k = some x from hx] at h3
    simp only at h3
    cases ha : c.allowDup with
    | none => rw [ha] at h3; cases h3
    | some a => rw [ha] at h3; simp at h3; exact ⟨a, rfl, h3⟩

/-- C60: in particular, in the default configuration no event other than a change of the kernel's table makes a
route to a redistributed destination the selected one. -/
theorem C60_partial {c : Cfg} (hc : c.allowDup = none) {s : St} (h : Reachable c s) {ev : Ev}
    (h1 : ∀ a kr, ev ≠ .kernelRoute a kr) (h2 : ∀ krs u, ev ≠ .checkXroutes krs u) {k : PKey} {n : NeighId}
    (hs : Selected (step c s ev) k n) (hn : ¬ Selected s k n) : exported s k = none := by
  cases hx : exported s k with
  | none => rfl
  | some x =>
    obtain ⟨a, ha, -⟩ := C60_selected h h1 h2 hs hn hx
    rw [hc] at ha; cases ha

end Babel
