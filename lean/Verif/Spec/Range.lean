import Verif.Spec.Config
/-
The values a configuration can have.
-/
namespace Babel.Spec

/-- A prefix: 16 bytes, nothing after its length. -/
def NetOk (x : Bytes × Nat) : Prop :=
  x.1.length = 16 ∧ x.2 ≤ 128 ∧ ∀ i, x.2 ≤ i → i < 128 → bitAt x.1 i = false

structure RuleRange (f : Filter) : Prop where
  metric : f.action.addMetric ≤ 65535
  table : f.action.table ≤ 65535
  dst : ∀ x, f.dst = some x → NetOk x
  src : ∀ x, f.src = some x → NetOk x
  newSrc : ∀ x, f.action.src = some x → NetOk x
  neigh : ∀ a, f.neigh = some a → a.length = 16
  prefSrc : ∀ a, f.action.prefSrc = some a → a.length = 16
  id : ∀ a, f.id = some a → a.length = 8

structure IfRange (keys : List KeyDef) (i : IfConf) : Prop where
  hello : i.helloInterval ≤ 655350
  update : i.updateInterval ≤ 655350
  cost : i.cost ≤ 65535
  type : i.type ≤ 3
  splitHorizon : i.splitHorizon ≤ 2
  lq : i.lq ≤ 2
  faraway : i.faraway ≤ 2
  unicast : i.unicast ≤ 2
  timestamps : i.timestamps ≤ 2
  rfc6126 : i.rfc6126 ≤ 2
  acceptBad : i.acceptBad ≤ 2
  v4viav6 : i.v4viav6 ≤ 2
  probeMtu : i.probeMtu ≤ 2
  rttDecay : i.rttDecay ≤ 256
  rttMin : i.rttMin < 2147483648
  rttMax : i.rttMax < 2147483648
  penalty : i.maxRttPenalty ≤ 65535
  key : ∀ id, i.key = some id → ∃ k ∈ keys, k.id = id

/-- SHA256 keys have 64 bytes, BLAKE2s keys at most 32. -/
def KeyRange (k : KeyDef) : Prop :=
  k.type = 1 ∧ k.value.length = 64 ∨ k.type = 2 ∧ 1 ≤ k.value.length ∧ k.value.length ≤ 32

/-- A number that was given, or -1. -/
def Port (n : Int) : Prop := n = -1 ∨ 1 ≤ n ∧ n ≤ 65534

structure OptRange (o : Opts) : Prop where
  port : 1 ≤ o.protocolPort ∧ o.protocolPort ≤ 65534
  kernelMetric : 0 ≤ o.kernelMetric ∧ o.kernelMetric ≤ 65534
  allowDuplicates : Port o.allowDuplicates
  localPort : Port o.localPort
  exportTable : Port o.exportTable
  shutdownDelay : Port o.shutdownDelay
  importTables : o.importTables.length ≤ 10 ∧ ∀ n ∈ o.importTables, 1 ≤ n ∧ n ≤ 65534
  checkInterval : 1 ≤ o.kernelCheckInterval ∧ o.kernelCheckInterval ≤ 65534
  debug : o.debug < 2147483648
  halfLife : o.halfLife < 2147483648
  routerId : ∀ a, o.routerId = some a → a.length = 8
  /-- There is at most one control socket. -/
  oneSocket : o.localPort = -1 ∨ o.localPath = none

structure ConfRange (s : Conf) : Prop where
  input : ∀ f ∈ s.input, RuleRange f
  output : ∀ f ∈ s.output, RuleRange f
  redist : ∀ f ∈ s.redist, RuleRange f
  install : ∀ f ∈ s.install, RuleRange f
  defaults : ∀ i, s.defaults = some i → IfRange s.keys i
  ifconfs : ∀ i ∈ s.ifconfs, IfRange s.keys i
  own : ∀ n i, (n, .own i) ∈ s.ifs → IfRange s.keys i
  keys : ∀ k ∈ s.keys, KeyRange k
  keysDistinct : (s.keys.map (·.id)).Nodup
  opts : OptRange s.opts

/-- The configurations a daemon can come to, whatever is in its files and whatever comes over its
control connections, in any order and including everything that is refused. -/
inductive Configured (L : Libc) : Conf → Prop
  | start : Configured L {}
  | files {s ts} : Configured L s → Configured L (parseFiles L s ts).1
  | line {s t} : Configured L s → Configured L (parseString L s t).1
  | finalise {s} : Configured L s → Configured L (finalise s)
  | names {s ns} : Configured L s → Configured L (addNamed s ns)
  | renumber {s} (L' : Libc) : Configured L s → Configured L (renumberFilters L' s)

end Babel.Spec
