import Verif.Model.System
import Verif.Spec.Config
/-
Specification for C81: the time, and what the kernel and the interfaces can do.
-/
namespace Babel.Spec

/-- The time, given the readings of a clock that may be set: it goes on as the clock does, but
setting the clock back counts as no time.  `wall` and `time` are those of the last reading. -/
def elapsed (wall time : Int) : List (Int × Nat) → List (Int × Nat)
  | [] => []
  | (s, u) :: l => (time + max 0 (s - wall), u) :: elapsed s (time + max 0 (s - wall)) l

/-- The name of a release of the kernel starts with two decimal numbers separated by a dot. -/
inductive Release : Bytes → Nat → Nat → Prop
  | mk {w1 w2 rest a b} : Digits 10 0 w1 a → w1 ≠ [] → Digits 10 0 w2 b → w2 ≠ [] →
      (∀ c ∈ rest, c ≠ 0) → (∀ c t, rest = c :: t → c < 48 ∨ 57 < c) →
      Release (w1 ++ 46 :: (w2 ++ rest)) a b

/-- Release `a.b` is at least `x.y`. -/
def AtLeast (a b x y : Nat) : Prop := x < a ∨ (x = a ∧ y ≤ b)

/-- A time in microseconds. -/
def inMicros (t : Int × Nat) : Int := t.1 * 1000000 + t.2

end Babel.Spec
