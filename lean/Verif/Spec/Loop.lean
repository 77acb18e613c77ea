import Verif.Model.Loop
import Verif.Spec.Util
/-
Timers of the main loop.
-/
namespace Babel.Spec

/-- The intervals are not 0. -/
def LoopCfgOk (c : LoopCfg) : Prop := ∀ i, 1 ≤ c.hello i ∧ 1 ≤ c.update i

/-- Which timers are changed by packets and jobs, besides those for which the jobs are done.  Delays are not 0. -/
def WriteOk : Write → Prop
  | .set t _ ms => 1 ≤ ms ∧ ((∃ i, t = .buf i) ∨ (∃ i, t = .flush i) ∨ (∃ n, t = .nbuf n) ∨ t = .resend)
  | .clear t => (∃ i, t = .buf i) ∨ (∃ i, t = .flush i) ∨ (∃ n, t = .nbuf n) ∨ t = .resend
  | .sooner t _ ms => 1 ≤ ms ∧ (t = .nbrs ∨ t = .ifs)
  | _ => True

/-- No interfaces or neighbours come or go, and no full update is made. -/
def Settled : Write → Prop
  | .dumped _ _ => False
  | .addNbr _ => False
  | .delNbr _ => False
  | .down _ => False
  | .up _ _ _ _ => False
  | _ => True

/-- Jobs during which interfaces or neighbours may come and go, and full updates may be made. -/
def Unsettling : Timer → Bool
  | .nbrs => true
  | .ifs => true
  | .expiry => true
  | .sources => true
  | .dump => true
  | _ => false

/-- What is assumed of the jobs.  Packets can be signed.  When requests are resent not too late, the next time is later than now. -/
structure JobsOk (δ : Int) (j : Jobs) : Prop where
  ok : ∀ s t, ∀ w ∈ (j.work s t).writes, WriteOk w
  settled : ∀ s t, Unsettling t = false → ∀ w ∈ (j.work s t).writes, Settled w
  signs : ∀ s t, (j.work s t).failed = false
  next : ∀ s, TvOk (j.work s .resend).next ∧ 0 ≤ (j.work s .resend).next.sec ∧
    ((s.due .resend).sec ≠ 0 → micros s.now ≤ micros (s.due .resend) + 2 * δ →
      (j.work s .resend).next.sec = 0 ∨ micros s.now < micros (j.work s .resend).next)

/-- The timers that are in use. -/
def Used (c : LoopCfg) (s : Loop) : Timer → Prop
  | .nbrs => True
  | .ifs => True
  | .expiry => True
  | .sources => True
  | .dump => 0 < c.check
  | .resend => True
  | .buf i => (i, true) ∈ s.ifs
  | .hello i => (i, true) ∈ s.ifs
  | .update i => (i, true) ∈ s.ifs
  | .flush i => (i, true) ∈ s.ifs
  | .nbuf n => n ∈ s.nbrs

/-- The interval of a timer of an interface, in milliseconds. -/
def Every (c : LoopCfg) : Timer → Option Nat
  | .hello i => some (c.hello i)
  | .update i => some (c.update i)
  | _ => none

/-- The loop is entered: times are proper, and timers that are always used are set.  The interfaces that are up have sent a
hello and a full update, and set their timers then. -/
structure LoopStart (c : LoopCfg) (s : Loop) : Prop where
  now : TvOk s.now ∧ 1 ≤ s.now.sec
  tv : ∀ t, TvOk (s.due t) ∧ 0 ≤ (s.due t).sec
  secs : ∀ t, t.secs = true → (s.due t).usec = 0 ∧ s.now.sec < (s.due t).sec
  later : ∀ t, Used c s t → (s.due t).sec = 0 ∨ micros s.now < micros (s.due t)
  base : 1 ≤ (s.due .nbrs).sec ∧ 1 ≤ (s.due .ifs).sec
  log : ∀ e ∈ s.log, micros e.1 ≤ micros s.now ∧ e.2.2.sec = 0
  gap : ∀ e ∈ s.log, ∀ n, Every c e.2.1 = some n → micros e.1 + 1000 * (3 * n / 4) ≤ micros (s.due e.2.1)
  up : ∀ t n, Used c s t → Every c t = some n →
    1 ≤ (s.due t).sec ∧ ∃ T D, (T, t, D) ∈ s.log ∧ micros (s.due t) ≤ micros T + 1250 * n

/-- The clock does not go back, the loop takes at most `δ` microseconds to begin the next turn, and it is woken up at most `δ`
microseconds late. -/
structure Prompt (δ : Int) (c : LoopCfg) (s : Loop) (T : Turn) : Prop where
  start : TvOk T.start
  finish : TvOk T.finish
  begins : micros s.now ≤ micros T.start ∧ micros T.start ≤ micros s.now + δ
  wakes : micros T.start ≤ micros T.finish ∧ micros T.finish ≤ max (micros T.start) (micros (s.wake c T.rnd)) + δ
  input : ∀ w ∈ T.input, WriteOk w

/-- States that the loop gets into, if it is not delayed by more than `δ` microseconds. -/
inductive LoopReach (δ : Int) (c : LoopCfg) (j : Jobs) : Loop → Prop
  | init (s) : LoopStart c s → LoopReach δ c j s
  | turn {s} (T : Turn) : LoopReach δ c j s → Prompt δ c s T → LoopReach δ c j (s.turn c j T)

/-- The change does not concern neighbour `n` or its buffer. -/
def Leaves (n : NeighId) : Write → Prop
  | .set t _ _ => t ≠ .nbuf n
  | .clear t => t ≠ .nbuf n
  | .sooner t _ _ => t ≠ .nbuf n
  | .addNbr m => m ≠ n
  | .delNbr m => m ≠ n
  | _ => True

end Babel.Spec
