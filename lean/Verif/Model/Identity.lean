import Verif.Model.Config
/-
Model of the choice of the router-id: babeld.c:443-477, kernel_netlink.c:167-228 and kernel.c:86-103.
-/
namespace Babel

/-- What the kernel knows about the hardware address of an interface: its type (`ARPHRD_…`, linux/if_arp.h) and the address. -/
structure HwAddr where
  family : Nat
  addr : Bytes
deriving DecidableEq, Repr

/-- `ifr_hwaddr.sa_data` after `ioctl(SIOCGIFHWADDR)`, kernel_netlink.c:176-178: the kernel copies what fits of the address into the
14 bytes, which have been cleared. -/
def HwAddr.saData (h : HwAddr) : Bytes := (h.addr ++ List.replicate 14 0).take 14

/-- kernel_netlink.c:188-193: `ARPHRD_ETHER`, `ARPHRD_FDDI`, `ARPHRD_IEEE802_TR`, `ARPHRD_IEEE802`. -/
def isMac48 (family : Nat) : Bool := family == 1 || family == 774 || family == 800 || family == 6

/-- kernel_netlink.c:211-213: `ARPHRD_EUI64`, `ARPHRD_IEEE1394`, `ARPHRD_INFINIBAND`. -/
def isEui64 (family : Nat) : Bool := family == 27 || family == 24 || family == 32

/-- `eui[0] ^= 2`. -/
def flipGlobal : Bytes → Bytes
  | [] => []
  | a :: r => (a ^^^ 2) :: r

/-- kernel_netlink.c:198-199 and 216-217: null, or one of the group and local bits is set. -/
def badMac (mac : Bytes) : Bool :=
  mac.all (· == 0) || mac.headD 0 &&& 1 != 0 || mac.headD 0 &&& 2 != 0

/-- kernel_netlink.c:169-228 `if_eui64`, given the answer of the `ioctl`, `none` if it fails.  Opening the socket does not fail. -/
def ifEui64 (hw : Option HwAddr) : Option Bytes :=
  match hw with
  | none => none
  | some h =>
    if isMac48 h.family then
      let mac := h.saData.take 6
      if badMac mac then none
      else some (flipGlobal (mac.take 3 ++ [0xFF, 0xFE] ++ (mac.drop 3).take 3))
    else if isEui64 h.family then
      let mac := h.saData.take 8
      if badMac mac then none else some (flipGlobal mac)
    else none

/-- What the host offers when the daemon starts: the interfaces by index (`if_indextoname`), `none` if there is none, with their
hardware address; and what `read_random_bytes` returns, `none` if it fails. -/
structure Boot where
  hw : Nat → Option (Option HwAddr)
  random : Option Bytes

/-- babeld.c:452-464: the loop, from index `i`, `n` more indices. -/
def scanIds (b : Boot) : Nat → Nat → Option Bytes
  | _, 0 => none
  | i, n + 1 =>
    match b.hw i with
    | none => scanIds b (i + 1) n
    | some h =>
      match ifEui64 h with
      | none => scanIds b (i + 1) n
      | some e => some e

/-- babeld.c:476: `myid[0] &= ~3`. -/
def clearBits : Bytes → Bytes
  | [] => []
  | a :: r => (a &&& ~~~3) :: r

/-- babeld.c:447-477: the router-id, `none` if the daemon gives up.  `have_id` and the id in the options are `routerId`. -/
def chooseId (o : Opts) (b : Boot) : Option Bytes :=
  let found := match o.routerId with
    | some id => some id
    | none => if o.randomId then none else scanIds b 1 255
  match found with
  | some id => some id
  | none => b.random.map clearBits

end Babel
