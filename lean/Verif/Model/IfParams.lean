import Verif.Model.Config
/-
Model of interface.c:255-527 `interface_updown`: the parameters an interface gets when it is brought up.  What is
done with routes and messages is modelled in Node.lean and Buffer.lean.
-/
namespace Babel

/-- interface.h:32-35. -/
def IF_TYPE_DEFAULT : Nat := 0
def IF_TYPE_WIRED : Nat := 1
def IF_TYPE_WIRELESS : Nat := 2
def IF_TYPE_TUNNEL : Nat := 3

/-- interface.h:69-71 `CONFIG_DEFAULT` etc. -/
def CONFIG_DEFAULT : Nat := 0
def CONFIG_NO : Nat := 1
def CONFIG_YES : Nat := 2

/-- interface.h:73-96: the numbers of the bits. -/
def IFB_UP : Nat := 0
def IFB_WIRELESS : Nat := 1
def IFB_SPLIT_HORIZON : Nat := 2
def IFB_LQ : Nat := 3
def IFB_FARAWAY : Nat := 4
def IFB_UNICAST : Nat := 5
def IFB_TIMESTAMPS : Nat := 6
def IFB_RFC6126 : Nat := 7
def IFB_ACCEPT_BAD_SIGNATURES : Nat := 8
def IFB_V4VIAV6 : Nat := 10
def IFB_PROBE_MTU : Nat := 11

/-- `flags |= 1 << b`; `flags` is an `unsigned short`. -/
def flagSet (f : BitVec 16) (b : Nat) : BitVec 16 := f ||| (1#16 <<< b)

/-- `flags &= ~(1 << b)`. -/
def flagClear (f : BitVec 16) (b : Nat) : BitVec 16 := f &&& ~~~(1#16 <<< b)

/-- `flags & (1 << b)`. -/
def flagTest (f : BitVec 16) (b : Nat) : Bool := (f &&& (1#16 <<< b)) != 0#16

/-- What `interface_updown` depends on besides the configuration of the interface: command line options, the index of
the interface, and what the functions of the kernel return. -/
structure IfEnv where
  /-- babeld.c:232, option `-w`. -/
  allWireless : Bool
  /-- babeld.c:197, message.c:48, option `-s`: `split_horizon` is 0. -/
  noSplitHorizon : Bool
  /-- babeld.c:310-316. -/
  wirelessHello : Nat
  wiredHello : Nat
  ifindex : Nat
  /-- `kernel_setup_interface`. -/
  setup : Int
  /-- `kernel_interface_mtu`. -/
  mtu : Int
  /-- `kernel_interface_wireless`. -/
  wireless : Int
  /-- `kernel_safe_v4viav6`. -/
  safeV4viaV6 : Bool
  /-- `check_link_local_addresses`. -/
  linkLocal : Int
  /-- `setsockopt(IPV6_JOIN_GROUP)`. -/
  join : Int
deriving DecidableEq, Repr

/-- interface.h:124-154 `struct interface`, the parameters. -/
structure IfData where
  flags : BitVec 16
  cost : Nat
  helloInterval : Nat
  updateInterval : Nat
  flushInterval : Nat
  rttDecay : Nat
  rttMin : Nat
  rttMax : Nat
  maxRttPenalty : Nat
  bufSize : Nat
  key : Option Bytes
deriving DecidableEq, Repr

/-- interface.c:81: `calloc`. -/
def IfData.new : IfData := ⟨0, 0, 0, 0, 0, 0, 0, 0, 0, 0, none⟩

/-- babeld.c:310-316: the intervals of options `-h` and `-H`, if they are given. -/
def defaultHello (opt : Option Nat) : Nat := max (opt.getD 4000) 5

/-- interface.c:285-311: the size of the send buffer (`sizeof(packet_header)` is 4).  Memory exhaustion is not
modelled. -/
def sendBufferSize (mtu : Int) : Nat :=
  let mtu := if mtu < 0 then 1280 else mtu
  let mtu := if mtu < 512 then 512 else mtu
  (mtu - 4 - 48).toNat

/-- interface.c:326-340: the type of the interface. -/
def ifType (c : IfConf) (e : IfEnv) : Nat :=
  if c.type = IF_TYPE_DEFAULT then
    if e.allWireless then IF_TYPE_WIRELESS
    else if e.wireless < 0 then c.type
    else if e.wireless ≠ 0 then IF_TYPE_WIRELESS
    else c.type
  else c.type

/-- The choice made for several options: yes, no, or what depends on the type. -/
def setFlag (f : BitVec 16) (b conf : Nat) (dflt : Bool) : BitVec 16 :=
  if conf = CONFIG_YES then flagSet f b
  else if conf = CONFIG_NO then flagClear f b
  else if dflt then flagSet f b
  else flagClear f b

/-- interface.c:345-451: flags. -/
def ifFlags (c : IfConf) (e : IfEnv) (f : BitVec 16) : BitVec 16 :=
  let type := ifType c e
  let f := if type = IF_TYPE_WIRELESS then flagSet f IFB_WIRELESS else flagClear f IFB_WIRELESS
  let f := setFlag f IFB_SPLIT_HORIZON c.splitHorizon (type == IF_TYPE_WIRED)
  let f := setFlag f IFB_LQ c.lq (type == IF_TYPE_WIRELESS)
  let f := if c.faraway = CONFIG_YES then flagSet f IFB_FARAWAY else f
  let f := if c.unicast = CONFIG_YES then flagSet f IFB_UNICAST else f
  let f := if c.acceptBad = CONFIG_YES then flagSet f IFB_ACCEPT_BAD_SIGNATURES
    else flagClear f IFB_ACCEPT_BAD_SIGNATURES
  let f := setFlag f IFB_TIMESTAMPS c.timestamps (type == IF_TYPE_TUNNEL)
  let f := if c.rfc6126 = CONFIG_YES then flagSet f IFB_RFC6126 else flagClear f IFB_RFC6126
  let v4viav6 := if c.v4viav6 = CONFIG_NO then false
    else if c.v4viav6 = CONFIG_YES then true
    else e.safeV4viaV6
  let f := if v4viav6 then flagSet f IFB_V4VIAV6 else flagClear f IFB_V4VIAV6
  if c.probeMtu = CONFIG_YES then flagSet f IFB_PROBE_MTU else f

/-- interface.c:326-451: the parameters. -/
def ifParams (c : IfConf) (e : IfEnv) (i : IfData) : IfData :=
  let type := ifType c e
  let hello := if c.helloInterval > 0 then c.helloInterval
    else if type = IF_TYPE_WIRELESS then e.wirelessHello
    else e.wiredHello
  let rttMin := if c.rttMin > 0 then c.rttMin else 10000
  let rttMax := if c.rttMax > 0 then c.rttMax else 120000
  { i with
    flags := ifFlags c e i.flags
    cost := if c.cost ≤ 0 then (if type = IF_TYPE_WIRELESS then 256 else 96) else c.cost
    helloInterval := hello
    updateInterval := if c.updateInterval > 0 then c.updateInterval else hello * 4
    flushInterval := hello / 2
    rttDecay := if c.rttDecay > 0 then c.rttDecay else 42
    rttMin := rttMin
    rttMax := if rttMax ≤ rttMin then rttMin + 10000 else rttMax
    maxRttPenalty := if c.maxRttPenalty = 0 ∧ type = IF_TYPE_TUNNEL then 96 else c.maxRttPenalty }

/-- interface.c:491-505, and 521-526: the interface is brought down. -/
def ifBringDown (i : IfData) : IfData := { i with flags := flagClear i.flags IFB_UP, bufSize := 0 }

/-- interface.c:262-480: an interface that is down is brought up; what is done when this fails.  `none` for the
configuration: a null pointer (interface.h:156 `IF_CONF`). -/
def ifBringUp (conf : Option IfConf) (e : IfEnv) (i : IfData) : IfData :=
  let c := conf.getD {}
  let i := { i with flags := flagSet i.flags IFB_UP }
  if e.ifindex = 0 then ifBringDown i
  else if e.setup < 0 then ifBringDown i
  else
    let i := { i with bufSize := sendBufferSize e.mtu }
    let i := ifParams c e i
    if e.linkLocal < 0 then ifBringDown i
    else if e.join < 0 then ifBringDown i
    else { i with key := c.key }

/-- interface.c:255 `interface_updown`. -/
def ifUpdown (i : IfData) : Option (Option IfConf × IfEnv) → IfData
  | some (conf, e) => if flagTest i.flags IFB_UP then i else ifBringUp conf e i
  | none => if flagTest i.flags IFB_UP then ifBringDown i else i

/-- The parameters after a number of calls of `interface_updown`. -/
def ifHistory (ops : List (Option (Option IfConf × IfEnv))) : IfData := ops.foldl ifUpdown .new

/-- interface.c:546-572 `check_interfaces` for one interface: its index and state afterwards.  `index`:
`if_nametoindex`; `operational`: `kernel_interface_operational`. -/
def ifCheck (conf : Option IfConf) (e : IfEnv) (index : Nat) (operational : Int) (st : Nat × IfData) : Nat × IfData :=
  let i := if index ≠ st.1 then ifUpdown st.2 none else st.2
  let e := { e with ifindex := index }
  let rc := if index > 0 then operational else 0
  if decide (rc > 0) ≠ flagTest i.flags IFB_UP then
    (index, ifUpdown i (if rc > 0 then some (conf, e) else none))
  else (index, i)

/-- message.c:1530: the interval put in updates; a field of 16 bits of hundredths of a second. -/
def updateIntervalField (i : IfData) : Nat := (i.updateInterval + 5) / 10 % 65536

end Babel
