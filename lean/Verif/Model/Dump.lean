import Verif.Model.Node
/-
Model of the part of xroute.c that reads the addresses and routes of the host.
-/
namespace Babel

/-- kernel.h:39-42 `struct kernel_addr`. -/
structure KAddr where
  addr : Bytes
  ifindex : IfId
deriving DecidableEq, Repr, Inhabited

/-- babeld.h:29 `RTPROT_BABEL_LOCAL`. -/
def PROTO_BABEL_LOCAL : Int := -2

/-- <netinet/in.h> `IN6_IS_ADDR_LINKLOCAL`: fe80::/10. -/
def in6LinkLocal (a : Bytes) : Bool := a[0]?.getD 0 == 0xfe && (a[1]?.getD 0 &&& 0xc0) == 0x80

/-- util.c `v4prefix`: ::ffff:0:0. -/
def v4prefixBytes : Bytes := [0, 0, 0, 0, 0, 0, 0, 0, 0, 0, 0xff, 0xff, 0, 0, 0, 0]

/-- xroute.c:275-311 `filter_address`, called with `ifindex` 0 and `ll` 0 (the only use in
`check_xroutes`): the host route for an address. -/
def filterAddress (a : KAddr) : Option KRoute :=
  if in6LinkLocal a.addr then none
  else some ⟨⟨a.addr, 128, if v4mapped a.addr then v4prefixBytes else List.replicate 16 0,
    if v4mapped a.addr then 96 else 0⟩, 0, a.ifindex, PROTO_BABEL_LOCAL⟩

/-- xroute.c:243-259 `filter_route`: the routes that are considered. -/
def filterRoute (kr : KRoute) : Option KRoute :=
  if martianPrefix kr.key.prefix_ kr.key.plen || martianPrefix kr.key.srcPrefix kr.key.srcPlen then none
  else some kr

/-- xroute.c:443 `maxmaxroutes`. -/
def MAXMAXROUTES : Nat := 262144

/-- xroute.c:447-469, 546-551: the table is made twice as large until the `n` entries fit with one place to
spare; `m` is the current size.  `none` if the limit is reached (the function then fails).  The
kernel is supposed not to change in between. -/
def tableSize (n : Nat) : Nat → Nat → Option Nat
  | 0, _ => none
  | fuel + 1, m =>
    if n ≥ m then if m ≥ MAXMAXROUTES then none else tableSize n fuel (min MAXMAXROUTES (2 * m))
    else some m

/-- xroute.c:436-552 `check_xroutes` with the addresses and routes of the host; `m` is the static variable
`maxroutes`, whose new value is also returned. -/
def checkKernel (c : Cfg) (s : St) (m : Nat) (addrs : List KAddr) (rts : List KRoute) (sendUpdates : Bool) : St × Nat :=
  let krs := addrs.filterMap filterAddress ++ rts.filterMap filterRoute
  match tableSize krs.length 20 m with
  | none => (s, MAXMAXROUTES)
  | some _ => (checkXroutes c s krs sendUpdates, min (krs.length + 8) MAXMAXROUTES)

end Babel
