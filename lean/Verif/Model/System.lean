import Verif.Model.Restart
/-
What the daemon asks the system: the time, and what the kernel and the interfaces can do
(kernel.c:38-131, kernel_netlink.c:787-954).
-/
namespace Babel

/-- The static variables of `gettime`, kernel.c:44-47; `posix` is `have_posix_clocks` (none: -1). -/
structure ClockSt where
  posix : Option Bool := none
  offset : Int := 0
  previous : Int := 0

/-- What the system calls made by one call of `gettime` return: whether the first `clock_gettime`, made
once only, succeeds, and the results of the second one (seconds, nanoseconds) and of `gettimeofday`
(seconds, microseconds); none is failure. -/
structure ClockIn where
  probe : Bool
  mono : Option (Int × Nat)
  wall : Option (Int × Nat)

/-- kernel.c:38-82 `gettime`.  `time_t` is taken to be unbounded. -/
def gettime (c : ClockSt) (i : ClockIn) : ClockSt × Option (Int × Nat) :=
  let posix := c.posix.getD i.probe
  let c := { c with posix := some posix }
  if posix then
    match i.mono with
    | none => (c, none)
    | some (sec, nsec) => (c, some (sec, nsec / 1000))
  else
    match i.wall with
    | none => (c, none)
    | some (sec, usec) =>
      let t := sec + c.offset
      if c.previous > t then ({ c with offset := c.offset + (c.previous - t) }, some (c.previous, usec))
      else ({ c with previous := t }, some (t, usec))

/-- The results of calls made one after the other. -/
def clockRun : ClockSt → List ClockIn → List (Option (Int × Nat))
  | _, [] => []
  | c, i :: is => (gettime c i).2 :: clockRun (gettime c i).1 is

/-- One `%d` of `sscanf`: the number and what follows it.  Overflow is that of glibc. -/
def scanD (t : Bytes) : Option (Int × Bytes) :=
  let (neg, t) := signOf (t.dropWhile isSpaceC)
  let (v, n, t) := digitsOf 10 0 0 t
  if n = 0 then none
  else some (longToInt (if neg then max (-(v : Int)) (-9223372036854775808) else min (v : Int) 9223372036854775807), t)

/-- kernel.c:126 `sscanf(un.release, "%d.%d", &v, &sub_v)`; none if the result is not 2. -/
def scanVersion (release : Bytes) : Option (Int × Int) :=
  match scanD (cstr release) with
  | some (v, c :: t) => if c = 46 then (scanD t).map fun r => (v, r.1) else none
  | _ => none

/-- What `uname` returns, if it succeeds: the names of the system and of the release. -/
abbrev Uname := Option (Bytes × Bytes)

/-- kernel.c:116-131 `kernel_older_than`. -/
def kernelOlderThan (un : Uname) (sysname : Bytes) (version sub : Int) : Int :=
  match un with
  | none => -1
  | some (name, release) =>
    if sysname ≠ cstr name then -1
    else
      match scanVersion release with
      | none => -1
      | some (v, s) => if v < version ∨ (v = version ∧ s < sub) then 1 else 0

/-- kernel_netlink.c:934-938 `kernel_has_ipv6_subtrees`. -/
def hasIpv6Subtrees (un : Uname) : Bool := kernelOlderThan un (ascii "Linux") 3 11 == 0

/-- kernel_netlink.c:940-946 `kernel_has_v4viav6`. -/
def hasV4viav6 (un : Uname) : Bool := kernelOlderThan un (ascii "Linux") 5 2 == 0

/-- kernel_netlink.c:949-953 `kernel_safe_v4viav6`. -/
def safeV4viav6 (un : Uname) : Bool := kernelOlderThan un (ascii "Linux") 5 13 == 0

/-- linux/if.h -/
def IFF_UP_BIT : Nat := 0x1
def IFF_RUNNING_BIT : Nat := 0x40

/-- kernel_netlink.c:787-800 `kernel_interface_operational`, given the flags that the kernel returns, if it does. -/
def interfaceOperational (linkDetect : Bool) (flags : Option Nat) : Int :=
  let wanted := if linkDetect then IFF_UP_BIT ||| IFF_RUNNING_BIT else IFF_UP_BIT
  match flags with
  | none => -1
  | some f => if f &&& wanted = wanted then 1 else 0

/-- The result of `access`: it succeeds, fails with ENOENT, or fails otherwise. -/
inductive Access | ok | noent | other
  deriving DecidableEq

/-- The result of SIOCGIFBR: the indices of the bridges, ENOPKG, or another error. -/
inductive BrRes | bridges (l : List Nat) | nopkg | other

/-- The result of SIOCGIWNAME: it succeeds, fails with EOPNOTSUPP or EINVAL, or fails otherwise. -/
inductive IwRes | ok | notsup | other
  deriving DecidableEq

/-- What the system says about an interface. -/
structure IfProbe where
  /-- /sys/class/net/NAME is readable. -/
  sysfs : Bool
  /-- /sys/class/net/NAME/bridge exists. -/
  bridge : Access
  brctl : BrRes
  /-- /sys/devices/virtual/net/NAME/mesh exists. -/
  mesh : Access
  iwname : IwRes

/-- kernel_netlink.c:856-875, after `fallback`. -/
def bridgeFallback (p : IfProbe) (ifindex : Nat) : Int :=
  match p.brctl with
  | .bridges l => if l.contains ifindex then 1 else 0
  | .nopkg => 0
  | .other => -1

/-- kernel_netlink.c:833-875 `isbridge`.  The names of interfaces are short, so that `snprintf` does not
fail. -/
def isbridge (p : IfProbe) (ifindex : Nat) : Int :=
  if p.sysfs then
    match p.bridge with
    | .ok => 1
    | .noent => 0
    | .other => bridgeFallback p ifindex
  else bridgeFallback p ifindex

/-- kernel_netlink.c:877-897 `isbatman`. -/
def isbatman (p : IfProbe) : Int :=
  match p.mesh with
  | .ok => 1
  | .noent => 0
  | .other => -1

/-- kernel_netlink.c:899-923 `kernel_interface_wireless`. -/
def interfaceWireless (p : IfProbe) (ifindex : Nat) : Int :=
  if isbridge p ifindex ≠ 0 ∨ isbatman p ≠ 0 then -1
  else
    match p.iwname with
    | .ok => 1
    | .notsup => 0
    | .other => -1

end Babel
