/-
Model of the small helpers of util.h and util.c.

Conventions used in all model files:
* `Bytes` is a C byte array; an address or prefix is a list of 16 bytes.
* C `int`, `unsigned`, `time_t`, ... are modelled by `Int`/`Nat`; wherever the C code can
  truncate or overflow this is made explicit (`u16`, `u32`, `ckInt`).
* 16-bit sequence numbers are `UInt16`, whose arithmetic wraps like `unsigned short`.
-/
namespace Babel

/-- A C array of `unsigned char`. -/
abbrev Bytes := List UInt8

/-- Conversion to `unsigned short` (C integer conversion). -/
def u16 (n : Nat) : Nat := n % 65536

/-- Conversion to 32-bit `unsigned`. -/
def u32 (n : Nat) : Nat := n % 4294967296

/-- The largest `int`. -/
def INT_MAX : Int := 2147483647

/-- Result of a signed `int` operation: `none` is signed overflow (undefined behaviour). -/
def ckInt (x : Int) : Option Int :=
  if -INT_MAX - 1 ≤ x ∧ x ≤ INT_MAX then some x else none

/-- babeld.h:23, `INFINITY` = `(unsigned short)(~0)`. -/
def INFINITY : Nat := 65535

/-- util.h:40-47 `seqno_compare`.  `s2 - s1` is computed on `int`, but only its bit 15 is
inspected, which is also bit 15 of the 16-bit difference. -/
def seqnoCompare (s1 s2 : UInt16) : Int :=
  if s1 = s2 then 0
  else if (s2 - s1) &&& 0x8000 ≠ 0 then 1 else -1

/-- Conversion of a 16-bit word to a signed `short`. -/
def toShort (x : UInt16) : Int :=
  if x.toNat < 32768 then (x.toNat : Int) else (x.toNat : Int) - 65536

/-- util.h:49-53 `seqno_minus`. -/
def seqnoMinus (s1 s2 : UInt16) : Int := toShort (s1 - s2)

/-- util.h:55-59 `seqno_plus`.  `& 0xFFFF` on a (two's complement) int is reduction mod 2^16. -/
def seqnoPlus (s : UInt16) (plus : Int) : UInt16 :=
  UInt16.ofNat (((s.toNat : Int) + plus) % 65536).toNat

/-- util.c:41-50 `roughly`, with `r` the value returned by `random()`.
Computed in unbounded integers; see `roughlyC` for the overflow check. -/
def roughly (r : Nat) (value : Int) : Int :=
  if value < 0 then
    let v := -value
    if v ≤ 1 then -v else -((v * 3) / 4 + (r : Int) % (v / 2))
  else if value ≤ 1 then value
  else (value * 3) / 4 + (r : Int) % (value / 2)

/-- util.c:41-50 `roughly` on C `int`s: `none` when an intermediate result overflows. -/
def roughlyC (r : Nat) (value : Int) : Option Int := do
  if value < 0 then
    let v ← ckInt (-value)
    if v ≤ 1 then return -v
    let t ← ckInt (v * 3)
    let s ← ckInt (t / 4 + (r : Int) % (v / 2))
    return -s
  else if value ≤ 1 then return value
  else
    let t ← ckInt (value * 3)
    ckInt (t / 4 + (r : Int) % (value / 2))

/-- `struct timeval`. -/
structure Timeval where
  sec : Int
  usec : Int
deriving DecidableEq, Repr, Inhabited

/-- util.h:63-67 `time_us`: microseconds modulo 2^32. -/
def timeUs (t : Timeval) : Nat := ((t.sec * 1000000 + t.usec) % 4294967296).toNat

/-- util.c:52-63 `timeval_minus`. -/
def timevalMinus (s1 s2 : Timeval) : Timeval :=
  if s1.usec ≥ s2.usec then ⟨s1.sec - s2.sec, s1.usec - s2.usec⟩
  else ⟨s1.sec - s2.sec - 1, s1.usec + 1000000 - s2.usec⟩

/-- util.c:65-84 `timeval_minus_msec`.  C division of the (possibly negative) microsecond
difference truncates towards zero. -/
def timevalMinusMsec (s1 s2 : Timeval) : Nat :=
  if s1.sec < s2.sec then 0
  else if s1.sec - s2.sec > 2000000 then 2000000000
  else if s1.sec > s2.sec then
    ((s1.sec - s2.sec) * 1000 + (s1.usec - s2.usec).tdiv 1000).toNat
  else if s1.usec ≤ s2.usec then 0
  else ((s1.usec - s2.usec) / 1000).toNat

/-- util.c:86-98 `timeval_add_msec`. -/
def timevalAddMsec (s : Timeval) (msecs : Int) : Timeval :=
  let sec := s.sec + msecs.tdiv 1000
  let usecs := s.usec + (msecs.tmod 1000) * 1000
  if usecs < 1000000 then ⟨sec, usecs⟩ else ⟨sec + 1, usecs - 1000000⟩

/-- util.c:100-113 `timeval_compare`. -/
def timevalCompare (s1 s2 : Timeval) : Int :=
  if s1.sec < s2.sec then -1
  else if s1.sec > s2.sec then 1
  else if s1.usec < s2.usec then -1
  else if s1.usec > s2.usec then 1
  else 0

/-- util.c:115-125 `timeval_min` (returns the new `*d`). -/
def timevalMin (d s : Timeval) : Timeval :=
  if s.sec = 0 then d
  else if d.sec = 0 ∨ timevalCompare d s > 0 then s else d

/-- util.c:127-134 `timeval_min_sec` (returns the new `*d`); `r` is `random()`. -/
def timevalMinSec (r : Nat) (d : Timeval) (secs : Int) : Timeval :=
  if d.sec = 0 ∨ d.sec > secs then ⟨secs, (r : Int) % 1000000⟩ else d

/-- Value of an ASCII digit, used by `parse_thousands` (`string[i] - '0'`). -/
def isDigit (c : UInt8) : Bool := 48 ≤ c && c ≤ 57

/-- `' '` or `'\t'`. -/
def isBlank (c : UInt8) : Bool := c == 32 || c == 9

/-- Digit loop `acc = acc*10 + string[i]-'0'` on 32-bit unsigned (util.c:168-171,175-179):
returns the accumulator, number of digits, and the rest of the string. -/
def digitLoop (acc n : Nat) : Bytes → Nat × Nat × Bytes
  | [] => (acc, n, [])
  | c :: cs =>
    if isDigit c then digitLoop (u32 (acc * 10 + (c.toNat - 48))) (n + 1) cs
    else (acc, n, c :: cs)

/-- util.c:181-184: `while(j > 3) { fl /= 10; j--; }`. -/
def scaleDown (fl : Nat) : Nat → Nat
  | 0 => fl
  | k + 1 => scaleDown (fl / 10) k

/-- util.c:185-188: `while(j < 3) { fl *= 10; j++; }` on 32-bit unsigned. -/
def scaleUp (fl : Nat) : Nat → Nat
  | 0 => fl
  | k + 1 => scaleUp (u32 (fl * 10)) k

/-- Conversion of a 32-bit unsigned to `int` on return (two's complement). -/
def toInt32 (n : Nat) : Int := if n < 2147483648 then (n : Int) else (n : Int) - 4294967296

/-- util.c:172-189, the optional fraction of `parse_thousands`: value in thousandths, rest. -/
def fracPart : Bytes → Nat × Bytes
  | 46 :: s' =>
    let (fl, j, s'') := digitLoop 0 0 s'
    (scaleUp (scaleDown fl (j - 3)) (3 - j), s'')
  | s => (0, s)

/-- util.c:156-198 `parse_thousands`.  The C string is the list of bytes before the
terminating NUL. -/
def parseThousands (s : Bytes) : Int :=
  let s := s.dropWhile isBlank
  let (inn, _, s) := digitLoop 0 0 s
  let (fl, s) := fracPart s
  let s := s.dropWhile isBlank
  if s = [] then toInt32 (u32 (u32 (inn * 1000) + fl)) else -1

/-- util.c:200-211 `h2i`. -/
def h2i (c : UInt8) : Option Nat :=
  if 48 ≤ c ∧ c ≤ 57 then some (c.toNat - 48)
  else if 97 ≤ c ∧ c ≤ 102 then some (c.toNat - 97 + 10)
  else if 65 ≤ c ∧ c ≤ 70 then some (c.toNat - 65 + 10)
  else none

/-- util.c:213-230 `fromhex`: `none` is the return value -1. -/
def fromhex : Bytes → Option Bytes
  | [] => some []
  | [_] => none
  | a :: b :: rest =>
    match h2i a with
    | none => none
    | some x =>
      match h2i b with
      | none => none
      | some y =>
        match fromhex rest with
        | none => none
        | some r => some (UInt8.ofNat (x * 16 + y) :: r)

/-- util.c:259 and 277: the mask `0xFF << (8 - plen % 8)` truncated to a byte. -/
def plenMask (plen : Nat) : UInt8 := UInt8.ofNat (0xFF <<< (8 - plen % 8))

/-- util.c:244-262 `in_prefix`; `plen` is an `unsigned char`.  Comparing the first n bytes with
memcmp is comparing the `take n`.  Reading `x[plen/8]` is in bounds for 16-byte arrays. -/
def inPrefix (address pfx : Bytes) (plen : Nat) : Bool :=
  let plen := if plen > 128 then 128 else plen
  if address.take (plen / 8) != pfx.take (plen / 8) then false
  else if plen % 8 = 0 then true
  else (address.getD (plen / 8) 0 &&& plenMask plen) == (pfx.getD (plen / 8) 0 &&& plenMask plen)

/-- util.c:264-279 `normalize_prefix`. -/
def normalizePrefix (pfx : Bytes) (plen : Nat) : Bytes :=
  if plen ≥ 128 then pfx.take 16
  else
    let ret := pfx.take (plen / 8) ++ List.replicate (16 - plen / 8) 0
    if plen % 8 ≠ 0 then ret.set (plen / 8) (pfx.getD (plen / 8) 0 &&& plenMask plen)
    else ret

/-- util.c:281 `v4prefix`. -/
def v4prefix : Bytes := [0, 0, 0, 0, 0, 0, 0, 0, 0, 0, 0xFF, 0xFF, 0, 0, 0, 0]

/-- util.c:284 `llprefix`. -/
def llprefix : Bytes := [0xFE, 0x80, 0, 0, 0, 0, 0, 0, 0, 0, 0, 0, 0, 0, 0, 0]

/-- babeld.h `zeroes`, 16 bytes. -/
def zeroes16 : Bytes := List.replicate 16 0

/-- util.c:492-496 `v4mapped`. -/
def v4mapped (a : Bytes) : Bool := a.take 12 == v4prefix.take 12

/-- util.c:486-490 `linklocal`. -/
def linklocal (a : Bytes) : Bool := a.take 8 == llprefix.take 8

/-- util.c:498-503 `v4tov6`. -/
def v4tov6 (a : Bytes) : Bytes := v4prefix.take 12 ++ a.take 4

/-- util.c:505-509 `ae_is_v4`. -/
def aeIsV4 (ae : Nat) : Bool := ae == 1 || ae == 4

/-- util.h:111-115 `is_default`. -/
def isDefault (pfx : Bytes) (plen : Nat) : Bool := plen == 0 || (plen == 96 && v4mapped pfx)

/-- util.c:471-484 `martian_prefix`. -/
def martianPrefix (pfx : Bytes) (plen : Nat) : Bool :=
  let b := fun i => pfx.getD i 0
  (decide (plen ≥ 8) && b 0 == 0xFF) ||
  (decide (plen ≥ 10) && b 0 == 0xFE && (b 1 &&& 0xC0) == 0x80) ||
  (decide (plen ≥ 128) && pfx.take 15 == List.replicate 15 0 && (b 15 == 0 || b 15 == 1)) ||
  (decide (plen ≥ 96) && v4mapped pfx &&
    ((decide (plen ≥ 104) && (b 12 == 127 || b 12 == 0)) ||
     (decide (plen ≥ 100) && (b 12 &&& 0xF0) == 0xE0) ||
     (decide (plen ≥ 128) && (pfx.drop 12).take 4 == [0xFF, 0xFF, 0xFF, 0xFF])))

end Babel
