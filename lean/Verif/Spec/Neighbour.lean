import Verif.Model.Neighbour
/-
What a reachability register means.  Hellos carry absolute numbers here (`Nat`); the wire
carries them modulo 2^16.  A `Log` is what an ideal observer with unbounded memory would
write down: the number of the last hello accounted for (received or missed) and all the
numbers received.  Only the record type `Timeval` and the millisecond difference
`timevalMinusMsec` (specified by property C03) are taken from the model.
-/
namespace Babel.Spec

/-- What happens to a neighbour's hellos: hello number `n`, announcing the next one within
`interval` centiseconds, is received; or the periodic check runs. -/
inductive Obs
  | heard (now : Timeval) (n interval : Nat)
  | check (now : Timeval)

structure Log where
  pos : Nat
  got : List Nat
  time : Timeval
  interval : Nat
deriving DecidableEq, Repr

def Log.start : Log := ⟨0, [], ⟨0, 0⟩, 0⟩

/-- The number of hellos that are overdue after `elapsed` milliseconds: `m` hellos are overdue
once `m + 0.7` intervals of `10 * interval` milliseconds have passed.  With no known interval
all hellos are overdue. -/
def overdue (interval elapsed : Nat) : Nat :=
  if interval = 0 then 16 else (elapsed - 7 * interval) / (10 * interval)

def Log.see (l : Log) : Obs → Log
  | .heard now n iv =>
    ⟨n, n :: l.got, if iv = 0 then l.time else now, if iv = 0 then l.interval else iv⟩
  | .check now =>
    let m := overdue l.interval (timevalMinusMsec now l.time)
    ⟨l.pos + m, l.got, if m = 0 then l.time else timevalAddMsec l.time (m * l.interval * 10),
     l.interval⟩

/-- The register has a one exactly for the hellos received among the last 16. -/
def Records (reach : Nat) (l : Log) : Prop :=
  reach < 65536 ∧ ∀ i, i < 16 → (reach.testBit (15 - i) = true ↔ i ≤ l.pos ∧ l.pos - i ∈ l.got)

/-- The register never claims a hello that was not received. -/
def Honest (reach : Nat) (l : Log) : Prop :=
  reach < 65536 ∧ ∀ i, i < 16 → reach.testBit (15 - i) = true → i ≤ l.pos ∧ l.pos - i ∈ l.got

/-- Each hello is ahead of what was accounted for, by less than half the number space. -/
def Ahead (l : Log) : Obs → Prop
  | .heard _ n _ => l.got = [] ∨ (l.pos < n ∧ n ≤ l.pos + 32767)
  | .check _ => True

/-- Each hello is within half the number space of what was accounted for. -/
def Near (l : Log) : Obs → Prop
  | .heard _ n _ => l.got = [] ∨ (n ≤ l.pos + 32767 ∧ l.pos ≤ n + 32768)
  | .check _ => True

/-- A condition `P` holds at each step of a history. -/
def Throughout (P : Log → Obs → Prop) : Log → List Obs → Prop
  | _, [] => True
  | l, o :: os => P l o ∧ Throughout P (l.see o) os

/-- The number of hellos received among the last three. -/
def lastThree (reach : Nat) : Nat :=
  (reach.testBit 15).toNat + (reach.testBit 14).toNat + (reach.testBit 13).toNat

end Babel.Spec

namespace Babel

/-- The model run over observations. -/
def Hist.see (h : Hist) : Spec.Obs → Hist
  | .heard now n iv => (h.hear now (UInt16.ofNat n) iv).1
  | .check now => (h.check now).1

end Babel
