import Verif.Model.Config
import Verif.Model.Node
/-
Model of the state file, babeld.c:479-508 and 813-835.
-/
namespace Babel

/-- The digits of a number, `%d` for a non-negative number; `fuel` is at least their number. -/
def decDigits : Nat → Nat → Bytes
  | 0, _ => []
  | fuel + 1, n =>
    if n < 10 then [UInt8.ofNat (48 + n)] else decDigits fuel (n / 10) ++ [UInt8.ofNat (48 + n % 10)]

/-- babeld.c:813-835: the state file written on shutdown, `none` if there is none.  The buffer of 10
characters is always large enough. -/
def saveState (openOk writeOk : Bool) (myseqno : UInt16) : Option Bytes :=
  if !openOk then none
  else
    let buf := decDigits 10 myseqno.toNat ++ [10]
    if buf.length ≥ 10 then none
    else if writeOk then some buf else none

/-- `sscanf(buf, "%d\n", &s)`: `none` if the result is not 1.  Overflow is that of glibc. -/
def scanInt (buf : Bytes) : Option Int :=
  let (neg, t) := signOf ((cstr buf).dropWhile isSpaceC)
  let (v, n, _) := digitsOf 10 0 0 t
  if n = 0 then none
  else some (longToInt (if neg then max (-(v : Int)) (-9223372036854775808) else min (v : Int) 9223372036854775807))

/-- babeld.c:479-508: the initial value of `myseqno`, given the value of `random()`, the contents of
the state file if it can be opened, and whether `unlink` and `read` succeed. -/
def startSeqno (random : Nat) (file : Option Bytes) (unlinkOk readOk : Bool) : UInt16 :=
  match file with
  | none => UInt16.ofNat random
  | some text =>
    if !unlinkOk then UInt16.ofNat random
    else if !readOk then UInt16.ofNat random
    else
      match scanInt (text.take 99) with
      | some s => if s ≥ 0 ∧ s ≤ 0xFFFF then seqnoPlus (UInt16.ofNat s.toNat) 1 else UInt16.ofNat random
      | none => UInt16.ofNat random

/-- One life of the daemon: its surroundings when it starts, and what happens to it. -/
structure Life where
  now : Timeval
  ifaces : List Iface
  ncost : NeighId → Nat
  rand : Nat → Nat
  kres : Nat → KRes
  evs : List Ev
  /-- `random()` at the next start. -/
  random : Nat

/-- The state at the end of a life that starts with the given sequence number. -/
def Life.endState (c : Cfg) (q : UInt16) (l : Life) : St :=
  run c (St.init l.now q l.ifaces l.ncost l.rand l.kres) l.evs

/-- Several lives, each ended by an orderly shutdown: everything sent, and the sequence number with
which the next one starts. -/
def lives (c : Cfg) : UInt16 → List Life → List Out × UInt16
  | q, [] => ([], q)
  | q, l :: ls =>
    let s := l.endState c q
    let r := lives c (startSeqno l.random (saveState true true s.myseqno) true true) ls
    (r.1 ++ s.out, r.2)

end Babel
