import Verif.Model.Dump
import Verif.Spec.Told
/-
What a router redistributes.
-/
namespace Babel.Spec

/-- The destination under which a kernel route is redistributed: the filter may replace the source prefix. -/
def exportKey (c : Cfg) (kr : KRoute) : PKey :=
  match (c.redistFilter kr.key kr.ifindex kr.proto).2 with
  | none => kr.key
  | some (p, l) => { kr.key with srcPrefix := p, srcPlen := l }

/-- The metric given by the redistribution filter. -/
def exportMetric (c : Cfg) (kr : KRoute) : Nat := (c.redistFilter kr.key kr.ifindex kr.proto).1

/-- A kernel route that is to be redistributed: accepted by the filter, and not martian. -/
def Wanted (c : Cfg) (kr : KRoute) : Prop :=
  exportMetric c kr < INFINITY ∧ martianPrefix (exportKey c kr).prefix_ (exportKey c kr).plen = false

instance (c : Cfg) (kr : KRoute) : Decidable (Wanted c kr) := by unfold Wanted; infer_instance

/-- The host route to an address of this host. -/
def hostRoute (a : KAddr) : KRoute :=
  ⟨⟨a.addr, 128, if v4mapped a.addr then [0, 0, 0, 0, 0, 0, 0, 0, 0, 0, 0xff, 0xff, 0, 0, 0, 0] else List.replicate 16 0,
    if v4mapped a.addr then 96 else 0⟩, 0, a.ifindex, -2⟩

/-- Link-local addresses: fe80::/10. -/
def linkLocalAddr (a : Bytes) : Prop := ∃ b, a[0]? = some 0xfe ∧ a[1]? = some b ∧ 128 ≤ b.toNat ∧ b.toNat < 192

/-- The routes of a host that may be redistributed: those with a destination and a source prefix that are not martian, and the
host routes to its addresses that are not link-local. -/
def HostHas (addrs : List KAddr) (rts : List KRoute) (kr : KRoute) : Prop :=
  (kr ∈ rts ∧ martianPrefix kr.key.prefix_ kr.key.plen = false ∧ martianPrefix kr.key.srcPrefix kr.key.srcPlen = false) ∨
  ∃ a ∈ addrs, ¬ linkLocalAddr a.addr ∧ kr = hostRoute a

/-- Neither the install filter nor the checks on the address family stand in the way of this route. -/
def Installable (c : Cfg) (r : Route) : Prop :=
  (c.installFilter r.id r.key (c.ifOf r.neigh)).1 < INFINITY ∧ familyOk r.key r.nexthop = true ∧
    srcUnsupported c r.key = false

end Babel.Spec
