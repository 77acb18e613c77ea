import Verif.Lemmas.Armed
import Verif.Lemmas.Demo
/-
C38: updates that are to be sent again are sent again.
-/
set_option linter.unusedSimpArgs false
set_option linter.unusedVariables false
namespace Babel
open Spec

/-- Whatever happens to a daemon that starts with no recorded entries, if the clock does not go back: while an update is to be sent again, the
timer of the retransmissions is set, for no later than the time of this update.  (For requests this is false: `C38_armed_false`.) -/
theorem C38_update_armed {c : Cfg} {s : St} (h : s.resends = []) (ht : s.resendTime = ⟨0, 0⟩) (hn : TvOk s.now) (hl : 66 ≤ s.now.sec)
    (evs : List Ev) (hf : Forward s.now evs) {r : Resend} (hr : r ∈ (run c s evs).resends) (hk : r.kind = .update) (hd : 0 < r.delay)
    (hm : 0 < r.max) :
    (run c s evs).resendTime.sec ≠ 0 ∧ micros (run c s evs).resendTime ≤ micros r.time + 1000 * r.delay := by
  have h0 : AInv s.now s :=
    ⟨⟨rfl, hn, hl, by rw [h]; intro r hr; cases hr⟩, by rw [ht]; exact ⟨by decide, by decide⟩, by rw [h]; intro r hr; cases hr⟩
  obtain ⟨T, hT⟩ := h0.run (c := c) evs hf
  have ha := hT.armed r hr hk hd hm
  rw [← (C03_add_msec_exact r.time (r.delay : Int) (hT.ents.ent r hr).1 (by omega)).1]
  exact ha

/-- The only route is lost: the retraction is to be sent again, and is once the time has come. -/
def Demo38.gone : List Ev :=
  [.update (some (Demo.rid 9)) (Demo.key 1) 7 200 400 1 (some (Demo.ll 1)), .flushUpdates 10, .flushUpdates 20, .flushNeigh 1]

example : let s := run Demo.cfg Demo.start Demo38.gone
    Demo.start.resends = [] ∧ Demo.start.resendTime = ⟨0, 0⟩ ∧ 66 ≤ Demo.start.now.sec ∧
    (s.resends.any fun r => r.kind == .update && decide (r.delay = 2000) && decide (0 < r.max) && decide (r.time = ⟨1000, 0⟩)) = true ∧
    s.resendTime = ⟨1002, 0⟩ ∧
    (run Demo.cfg s [.tick ⟨1002, 1⟩, .doResend]).resendTime = ⟨1004, 0⟩ := by
  decide +kernel

example : Forward Demo.start.now (Demo38.gone ++ [.tick ⟨1002, 1⟩, .doResend]) := by
  refine ⟨⟨by decide, by decide⟩, by decide, trivial⟩

end Babel
