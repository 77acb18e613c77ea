import Verif.Model.Table
/-
What a keyed table should do, independently of how it is stored: a partial map from keys to
entries, in which adding never replaces an existing entry.
-/
namespace Babel.Spec

/-- A partial map. -/
abbrev Map (κ α : Type) := κ → Option α

def Map.step [DecidableEq κ] (key : α → κ) (m : Map κ α) : TOp α κ → Map κ α
  | .add e => fun k => if k = key e ∧ m k = none then some e else m k
  | .del k' => fun k => if k = k' then none else m k

/-- The map after a history of additions and removals. -/
def Map.run [DecidableEq κ] (key : α → κ) (ops : List (TOp α κ)) : Map κ α :=
  ops.foldl (Map.step key) (fun _ => none)

/-- Strictly increasing keys. -/
def Sorted (cmp : κ → κ → Ordering) (key : α → κ) (t : List α) : Prop :=
  t.Pairwise (fun a b => cmp (key a) (key b) = .lt)

/-- A comparison function which is a strict total order, `.eq` exactly on equal arguments. -/
structure TotalOrder (cmp : κ → κ → Ordering) : Prop where
  eq_iff : ∀ a b, cmp a b = .eq ↔ a = b
  swap : ∀ a b, cmp b a = (cmp a b).swap
  trans : ∀ a b c, cmp a b = .lt → cmp b c = .lt → cmp a c = .lt

/-- Canonical keys: a key without source restriction has the one spelling of "any source" that
belongs to its address family (this is what the message parser and the kernel interface
produce). -/
def Canonical (k : PKey) : Prop :=
  isDefault k.srcPrefix k.srcPlen = true →
    if v4mapped k.prefix_ then k.srcPrefix = v4prefix ∧ k.srcPlen = 96
    else k.srcPrefix = zeroes16 ∧ k.srcPlen = 0

end Babel.Spec
