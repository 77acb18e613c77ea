import Verif.Spec.Node
/-
A small concrete daemon, used to show that the hypotheses of the theorems are met.
-/
namespace Babel.Demo
open Spec

/-- 2001:db8:N::/48 from anywhere. -/
def key (n : UInt8) : PKey :=
  ⟨[0x20, 0x01, 0x0d, 0xb8, 0, n, 0, 0, 0, 0, 0, 0, 0, 0, 0, 0], 48, List.replicate 16 0, 0⟩

/-- fe80::N -/
def ll (n : UInt8) : Bytes := [0xfe, 0x80, 0, 0, 0, 0, 0, 0, 0, 0, 0, 0, 0, 0, 0, n]

/-- Router-id N. -/
def rid (n : UInt8) : Bytes := [2, 0, 0, 0, 0, 0, 0, n]

/-- Neighbour 1 is on interface 10, the others on interface 20; no filters. -/
def cfg : Cfg where
  myid := rid 1
  kernelMetric := 0
  reflect := false
  allowDup := none
  halfLife := 0
  subtrees := true
  exportTable := 254
  resendDelay := 2000
  ifOf := fun n => if n = 1 then 10 else 20
  inputFilter := fun _ _ _ _ => 0
  outputFilter := fun _ _ _ => 0
  installFilter := fun _ _ _ => (0, 0)
  redistFilter := fun _ _ _ => (0, none)

def iface (i : IfId) : Iface :=
  ⟨i, true, false, false, true, false, 4000, 16000, 1400, [], 0, ⟨0, 0⟩, ⟨0, 0⟩⟩

/-- Time 1000, all links cost 96, the kernel accepts everything. -/
def start : St := St.init ⟨1000, 0⟩ 5 [iface 10, iface 20] (fun _ => 96) (fun i => i) (fun _ => .ok)

/-- Neighbour 1 announces the prefix with metric 200, seqno 7; neighbour 2 with metric 150. -/
def evs : List Ev :=
  [.update (some (rid 9)) (key 1) 7 200 400 1 (some (ll 1)),
   .update (some (rid 9)) (key 1) 7 150 400 2 (some (ll 2)),
   .flushUpdates 10, .flushUpdates 20]

theorem reachable_run {c : Cfg} {s : St} (h : Reachable c s) (evs : List Ev) :
    Reachable c (run c s evs) := by
  unfold run
  induction evs generalizing s with
  | nil => exact h
  | cons e l ih => exact ih (h.step e)

theorem reachable : Reachable cfg (run cfg start evs) := reachable_run (.init ..) _

end Babel.Demo
