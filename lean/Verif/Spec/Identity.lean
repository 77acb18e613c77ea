import Verif.Model.Identity
/-
Specification of the router-id that the daemon chooses (babeld.man, -r and router-id; RFC 4291, appendix A).
-/
namespace Babel.Spec

/-- The modified EUI-64 of a hardware address: a 48-bit address has FF FE put in its middle; the global bit is flipped. -/
def modifiedEui64 : Bytes → Option Bytes
  | [a, b, c, d, e, f] => some [a ^^^ 2, b, c, 0xFF, 0xFE, d, e, f]
  | [a, b, c, d, e, f, g, h] => some [a ^^^ 2, b, c, d, e, f, g, h]
  | _ => none

/-- An address that no two interfaces should share: not null, not of a group, assigned by the manufacturer. -/
def Unique (a : Bytes) : Prop := (∃ x ∈ a, x ≠ 0) ∧ ∀ x, a.head? = some x → x.toNat % 4 = 0

/-- The part of the hardware address that is used, by the type of the interface: Ethernet, FDDI, token ring and IEEE 802 have addresses
of 48 bits; the others known have an EUI-64, or something that is taken for one, at the beginning. -/
def usedPart (h : HwAddr) : Bytes :=
  if h.family ∈ [1, 774, 800, 6] then h.addr.take 6
  else if h.family ∈ [27, 24, 32] then h.addr.take 8
  else []

/-- The hardware address is as long as its type says. -/
def Whole (h : HwAddr) : Prop :=
  (h.family ∈ [1, 774, 800, 6] → 6 ≤ h.addr.length) ∧ (h.family ∈ [27, 24, 32] → 8 ≤ h.addr.length)

/-- The hardware gives the identifier. -/
def Gives (h : HwAddr) (id : Bytes) : Prop := Unique (usedPart h) ∧ modifiedEui64 (usedPart h) = some id

/-- The interface with this index has hardware that gives the identifier. -/
def GivesAt (b : Boot) (i : Nat) (id : Bytes) : Prop := ∃ h, b.hw i = some (some h) ∧ Gives h id

/-- The identifier comes from the first interface, by index, that gives one. -/
def FirstGives (b : Boot) (id : Bytes) : Prop :=
  ∃ i, 1 ≤ i ∧ i ≤ 255 ∧ GivesAt b i id ∧ ∀ j, 1 ≤ j → j < i → ∀ id', ¬ GivesAt b j id'

/-- No interface gives one. -/
def NoneGives (b : Boot) : Prop := ∀ i, 1 ≤ i → i ≤ 255 → ∀ id, ¬ GivesAt b i id

/-- The identifier is the random bytes, with the two lowest bits of the first cleared. -/
def RandomId (b : Boot) (id : Bytes) : Prop :=
  ∃ x y r, b.random = some (x :: r) ∧ id = y :: r ∧ y.toNat = x.toNat / 4 * 4

/-- The daemon starts on a host where hardware addresses are as long as they should be and there are 8 random bytes. -/
def FairBoot (b : Boot) : Prop :=
  (∀ i h, b.hw i = some (some h) → Whole h) ∧ ∃ r, b.random = some r ∧ r.length = 8

end Babel.Spec
