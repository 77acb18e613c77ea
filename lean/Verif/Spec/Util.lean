import Verif.Model.Util
/-
Independent specifications for util.c: real-number meaning of times, bit-level meaning of
prefixes, decimal meaning of literals.  Nothing here uses a model function.
-/
namespace Babel.Spec

/-- Sign of the difference of two counters. -/
def counterOrder (a b : Nat) : Int := if a < b then -1 else if a = b then 0 else 1

/-- The point in time a `timeval` denotes, in microseconds. -/
def micros (t : Timeval) : Int := t.sec * 1000000 + t.usec

/-- A well-formed `timeval`. -/
def TvOk (t : Timeval) : Prop := 0 ≤ t.usec ∧ t.usec < 1000000

/-- Bit `i` of an address, most significant bit of the first byte first. -/
def bitAt (a : Bytes) (i : Nat) : Bool := (a.getD (i / 8) 0).toNat.testBit (7 - i % 8)

/-- `a` and `b` have the same first `n` bits. -/
def SameBits (n : Nat) (a b : Bytes) : Prop := ∀ i, i < n → bitAt a i = bitAt b i

/-- The destinations Babel must never announce: multicast, link-local, unspecified, loopback;
for IPv4 127/8, 0/8, 224/4 and the limited broadcast address. -/
def martianBlocks : List (Bytes × Nat) :=
  [ ([0xFF,0,0,0, 0,0,0,0, 0,0,0,0, 0,0,0,0], 8),
    ([0xFE,0x80,0,0, 0,0,0,0, 0,0,0,0, 0,0,0,0], 10),
    ([0,0,0,0, 0,0,0,0, 0,0,0,0, 0,0,0,0], 128),
    ([0,0,0,0, 0,0,0,0, 0,0,0,0, 0,0,0,1], 128),
    ([0,0,0,0, 0,0,0,0, 0,0,0xFF,0xFF, 127,0,0,0], 104),
    ([0,0,0,0, 0,0,0,0, 0,0,0xFF,0xFF, 0,0,0,0], 104),
    ([0,0,0,0, 0,0,0,0, 0,0,0xFF,0xFF, 0xE0,0,0,0], 100),
    ([0,0,0,0, 0,0,0,0, 0,0,0xFF,0xFF, 0xFF,0xFF,0xFF,0xFF], 128) ]

/-- Prefix `p/plen` lies inside one of the forbidden blocks. -/
def Martian (p : Bytes) (plen : Nat) : Prop :=
  ∃ b ∈ martianBlocks, b.2 ≤ plen ∧ SameBits b.2 p b.1

/-- ASCII decimal digit. -/
def Digit (c : UInt8) : Prop := 48 ≤ c.toNat ∧ c.toNat ≤ 57
/-- Space or tab. -/
def Blank (c : UInt8) : Prop := c = 32 ∨ c = 9

/-- The number denoted by a string of decimal digits. -/
def decValue (ds : Bytes) : Nat := ds.foldl (fun v c => v * 10 + (c.toNat - 48)) 0

/-- The byte string spelled by pairs of hexadecimal digits, most significant first. -/
def hexDigit (n : Nat) : UInt8 := UInt8.ofNat (if n < 10 then 48 + n else 97 + (n - 10))
def hexDigitU (n : Nat) : UInt8 := UInt8.ofNat (if n < 10 then 48 + n else 65 + (n - 10))
/-- `c` is a hexadecimal digit (either case) of value `n`. -/
def IsHex (c : UInt8) (n : Nat) : Prop := n < 16 ∧ (c = hexDigit n ∨ c = hexDigitU n)

/-- `s` spells the bytes `bs` in hexadecimal. -/
inductive Spells : Bytes → Bytes → Prop
  | nil : Spells [] []
  | cons {c d x y s bs} : IsHex c x → IsHex d y → Spells s bs →
      Spells (c :: d :: s) (UInt8.ofNat (16 * x + y) :: bs)

end Babel.Spec
