import Verif.Model.Util
/-
Model of kernel_netlink.c:86-165, 230-276, 626-698, 739-786: the settings of the host (files under /proc/sys/net) that the
daemon changes while it runs, and of the part of interface.c and babeld.c that decides when.
Simplifications: memory allocation does not fail; sockets are left out; a write to a setting changes no other setting.
-/
namespace Babel

/-- The settings: kernel_netlink.c:91-96, and `net/ipv4/conf/NAME/rp_filter` (kernel_netlink.c:751). -/
inductive Ctl
  | forward6 | forward4 | redirects6 | rpAll
  | rp (name : Bytes)
deriving DecidableEq, Repr

/-- The files.  `val c` is the number in the file, if it can be read; a negative number in it, which the code cannot tell from a
failure, counts as unreadable.  `ro c` tells that it cannot be written. -/
structure Proc where
  val : Ctl → Option Nat
  ro : Ctl → Bool

/-- kernel_netlink.c:231-253 `read_proc`. -/
def readProc (p : Proc) (c : Ctl) : Int :=
  match p.val c with
  | some v => (v : Int)
  | none => -1

/-- kernel_netlink.c:255-276 `write_proc`.  Only numbers that are not negative are written.  A file that does not exist is not created. -/
def writeProc (p : Proc) (c : Ctl) (v : Nat) : Bool × Proc :=
  if (p.val c).isNone ∨ p.ro c then (false, p)
  else (true, { p with val := fun x => if x = c then some v else p.val x })

/-- kernel_netlink.c:84-89 `struct sysctl_setting`. -/
structure Sysctl where
  ctl : Ctl
  want : Nat
  was : Int
deriving DecidableEq, Repr

/-- kernel_netlink.c:91-96 `sysctl_settings`. -/
def sysctlSettings : List Sysctl :=
  [⟨.forward6, 1, -1⟩, ⟨.forward4, 1, -1⟩, ⟨.redirects6, 0, -1⟩, ⟨.rpAll, 0, -1⟩]

/-- kernel_netlink.c:64-66. -/
def MAX_INTERFACES : Nat := 1024

/-- An interface of the daemon. -/
structure HostIf where
  name : Bytes
  ifindex : Nat
  up : Bool
deriving DecidableEq, Repr

/-- The state: the files; `sysctl_settings`; `old_if` (kernel_netlink.c:98-106); the interfaces (interface.c:50). -/
structure Host where
  proc : Proc
  settings : List Sysctl
  olds : List (Bytes × Int)
  ifs : List HostIf

/-- kernel_netlink.c:653-666: the loop of `kernel_setup(1)`. -/
def setupLoop : List Sysctl → Proc → Bool × List Sysctl × Proc
  | [], p => (true, [], p)
  | s :: ss, p =>
    let was := readProc p s.ctl
    if was < 0 then (false, { s with was := was } :: ss, p)
    else
      let (ok, p) := if was ≠ s.want then writeProc p s.ctl s.want else (true, p)
      if !ok then (false, { s with was := was } :: ss, p)
      else
        let (ok, ss, p) := setupLoop ss p
        (ok, { s with was := was } :: ss, p)

/-- kernel_netlink.c:684-693: the loop of `kernel_setup(0)`. -/
def restoreLoop : List Sysctl → Proc → Proc
  | [], p => p
  | s :: ss, p =>
    let (ok, p) := if s.was ≥ 0 ∧ s.was ≠ s.want then writeProc p s.ctl s.was.toNat else (true, p)
    if !ok then p else restoreLoop ss p

/-- kernel_netlink.c:626-669 `kernel_setup(1)`. -/
def kernelSetup (skip : Bool) (p : Proc) : Bool × Host :=
  if skip then (true, ⟨p, sysctlSettings, [], []⟩)
  else
    let (ok, ss, p) := setupLoop sysctlSettings p
    (ok, ⟨p, ss, [], []⟩)

/-- kernel_netlink.c:670-697 `kernel_setup(0)`. -/
def kernelRestore (skip : Bool) (h : Host) : Host :=
  let h := { h with olds := [] }
  if skip then h else { h with proc := restoreLoop h.settings h.proc }

/-- kernel_netlink.c:117-143 `get_old_if`: the index and the new table; `none` for -1. -/
def getOldIf (olds : List (Bytes × Int)) (name : Bytes) : Option Nat × List (Bytes × Int) :=
  match olds.findIdx? (fun o => o.1 == name) with
  | some i => (some i, olds)
  | none => if olds.length ≥ MAX_INTERFACES then (none, olds) else (some olds.length, olds ++ [(name, -1)])

/-- kernel_netlink.c:145-165 `free_old_if`: the last entry takes the place of the one that is removed. -/
def freeOldIf (olds : List (Bytes × Int)) (i : Nat) : List (Bytes × Int) :=
  match olds.getLast? with
  | none => olds
  | some l => if i ≥ olds.length then olds else (olds.set i l).dropLast

/-- kernel_netlink.c:739-769 `kernel_setup_interface(1, name)`.  `none` is undefined behaviour: kernel_netlink.c:763
reads `old_if[-1]` when the table is full. -/
def setupIf (skip : Bool) (h : Host) (name : Bytes) : Option (Bool × Host) :=
  if skip then some (true, h)
  else if name.length + 34 ≥ 100 then some (false, h)
  else
    match getOldIf h.olds name with
    | (none, _) => none
    | (some i, olds) =>
      let v := readProc h.proc (.rp name)
      let h := { h with olds := olds.set i (name, v) }
      if v ≠ 0 then
        let (ok, p) := writeProc h.proc (.rp name) 0
        some (ok, { h with proc := p })
      else some (true, h)

/-- kernel_netlink.c:739-754, 770-786 `kernel_setup_interface(0, name)`. -/
def restoreIf (skip : Bool) (h : Host) (name : Bytes) : Host :=
  if skip then h
  else if name.length + 34 ≥ 100 then h
  else
    match getOldIf h.olds name with
    | (none, _) => h
    | (some i, olds) =>
      let v := ((olds[i]?).map Prod.snd).getD (-1)
      let p := if v > 0 then (writeProc h.proc (.rp name) v.toNat).2 else h.proc
      { h with olds := freeOldIf olds i, proc := p }

/-- The interface `name` with the flag `IF_UP` set or cleared. -/
def setUp (h : Host) (name : Bytes) (up : Bool) : Host :=
  { h with ifs := h.ifs.map fun f => if f.name = name then { f with up := up } else f }

/-- interface.c:493-515 `interface_updown(ifp, 0)`, of an interface that is up. -/
def hostDown (skip : Bool) (h : Host) (f : HostIf) : Host :=
  let h := setUp h f.name false
  if f.ifindex > 0 then restoreIf skip h f.name else h

/-- interface.c:254-278 and what follows, `interface_updown(ifp, 1)`, of an interface that is down.  `ok` tells that the rest of the
function succeeds; otherwise it brings the interface down again (interface.c:523-527). -/
def hostUp (skip : Bool) (h : Host) (f : HostIf) (ok : Bool) : Option Host :=
  let h := setUp h f.name true
  if f.ifindex = 0 then some (hostDown skip h f)
  else
    (setupIf skip h f.name).map fun r => if r.1 && ok then r.2 else hostDown skip r.2 f

/-- Events. -/
inductive HostEv
  /-- interface.c:66-98 `add_interface`. -/
  | add (name : Bytes)
  /-- interface.c:100-131 `flush_interface`. -/
  | flush (name : Bytes)
  /-- interface.c:551-577 `check_interfaces`, for one interface: what `if_nametoindex` and `kernel_interface_operational` return, and
  whether bringing it up succeeds apart from the settings. -/
  | check (name : Bytes) (index : Nat) (operational ok : Bool)
  /-- Someone else changes a setting; an interface that appears or disappears does so with its settings. -/
  | host (c : Ctl) (v : Option Nat)

/-- interface.c:557-563: the new index of an interface. -/
def setIndex (h : Host) (name : Bytes) (index : Nat) : Host :=
  { h with ifs := h.ifs.map fun f => if f.name = name then { f with ifindex := index } else f }

/-- interface.c:551-570, for one interface. -/
def hostCheck (skip : Bool) (h : Host) (name : Bytes) (index : Nat) (operational ok : Bool) : Option Host :=
  match h.ifs.find? (fun f => f.name = name) with
  | none => some h
  | some f =>
    let changed := index ≠ f.ifindex
    let h := if changed ∧ f.up then hostDown skip h f else h
    let h := setIndex h name index
    let f : HostIf := ⟨name, index, if changed then false else f.up⟩
    let wanted := decide (0 < index) && operational
    if wanted = f.up then some h
    else if wanted then hostUp skip h f ok
    else some (hostDown skip h f)

/-- One event. -/
def hostStep (skip : Bool) (h : Host) : HostEv → Option Host
  | .add name => some (if h.ifs.any (fun f => f.name = name) then h else { h with ifs := h.ifs ++ [⟨name, 0, false⟩] })
  | .flush name =>
    match h.ifs.find? (fun f => f.name = name) with
    | none => some h
    | some f =>
      let h := if f.up then hostDown skip h f else h
      some { h with ifs := h.ifs.filter fun f => f.name ≠ name }
  | .check name index operational ok => hostCheck skip h name index operational ok
  | .host c v => some { h with proc := { h.proc with val := fun x => if x = c then v else h.proc.val x } }

/-- A history. -/
def hostRun (skip : Bool) : Host → List HostEv → Option Host
  | h, [] => some h
  | h, e :: es => (hostStep skip h e).bind fun h => hostRun skip h es

/-- babeld.c:811-817, 848-855: the end of the program. -/
def hostStop (skip : Bool) (h : Host) : Host :=
  kernelRestore skip (h.ifs.foldl (fun h f => if f.up then hostDown skip h f else h) h)

/-- babeld.c:417-421, 811-817, 848-860: the program.  If the setup fails, it ends at once. -/
def hostMain (skip : Bool) (p : Proc) (evs : List HostEv) : Option Host :=
  let (ok, h) := kernelSetup skip p
  if !ok then some h else (hostRun skip h evs).map (hostStop skip)

end Babel
