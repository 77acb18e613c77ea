import Verif.Model.Config
import Verif.Spec.Util
/-
Specification of the configuration language: an abstract syntax, how it is written (with any
white space and comments), and what it means.
-/
namespace Babel.Spec

/-! ### Lexemes -/

def BlankC (c : UInt8) : Prop := c = 32 ∨ c = 9 ∨ c = 13

/-- White space between two words. -/
def Gap (g : Bytes) : Prop := g ≠ [] ∧ ∀ c ∈ g, BlankC c

/-- A word: no white space, no comment, and it does not start with a quote. -/
def Word (w : Bytes) : Prop :=
  w ≠ [] ∧ w.length ≤ 255 ∧ (∀ c ∈ w, ¬ BlankC c ∧ c ≠ 10 ∧ c ≠ 35 ∧ c ≠ 0) ∧ w.head? ≠ some 34

/-- The inside of a quoted string, and its value. -/
inductive Quoted : Bytes → Bytes → Prop
  | nil : Quoted [] []
  | plain {c q s} : c ≠ 10 → c ≠ 34 → c ≠ 92 → c ≠ 0 → Quoted q s → Quoted (c :: q) (c :: s)
  | escaped {c q s} : c ≠ 0 → Quoted q s → Quoted (92 :: c :: q) (c :: s)

/-- A string: a word, or between quotes. -/
inductive StrText : Bytes → Bytes → Prop
  | bare {w} : Word w → StrText w w
  | quoted {q s} : Quoted q s → s.length ≤ 254 → StrText (34 :: (q ++ [34])) s

/-- Digits in the given base, the value of the digits before being `v`. -/
inductive Digits (base : Nat) : Nat → Bytes → Nat → Prop
  | nil {v} : Digits base v [] v
  | cons {v c d w n} : IsHex c d → d < base → Digits base (v * base + d) w n → Digits base v (c :: w) n

/-- Numbers are decimal, octal or hexadecimal. -/
inductive NumText : Bytes → Nat → Prop
  | dec {w n} : Digits 10 0 w n → w ≠ [] → w.head? ≠ some 48 → w.length ≤ 255 → NumText w n
  | oct {w n} : Digits 8 0 w n → w.length ≤ 254 → NumText (48 :: w) n
  | hex {x w n} : (x = 120 ∨ x = 88) → Digits 16 0 w n → w ≠ [] → w.length ≤ 253 → NumText (48 :: x :: w) n

/-- A number with a fractional part, in thousandths. -/
inductive ThouText : Bytes → Nat → Prop
  | int {ds} : ds ≠ [] → (∀ c ∈ ds, Digit c) → ds.length ≤ 255 → ThouText ds (1000 * decValue ds)
  | frac {ds fs} : (∀ c ∈ ds, Digit c) → (∀ c ∈ fs, Digit c) → fs.length ≤ 9 → ds.length ≤ 245 →
      ThouText (ds ++ 46 :: fs) (1000 * decValue ds + 1000 * decValue fs / 10 ^ fs.length)

/-- 2 for yes, 1 for no, 0 for the default. -/
inductive BoolText : Bytes → Nat → Prop
  | yes : BoolText (ascii "yes") 2
  | true : BoolText (ascii "true") 2
  | no : BoolText (ascii "no") 1
  | false : BoolText (ascii "false") 1
  | default : BoolText (ascii "default") 0
  | auto : BoolText (ascii "auto") 0

inductive TypeText : Bytes → Nat → Prop
  | default : TypeText (ascii "default") 0
  | auto : TypeText (ascii "auto") 0
  | wired : TypeText (ascii "wired") 1
  | wireless : TypeText (ascii "wireless") 2
  | tunnel : TypeText (ascii "tunnel") 3

/-- What the C library guarantees about addresses. -/
def LibcOk (L : Libc) : Prop :=
  (∀ w a, L.pton4 w = some a → a.length = 4) ∧ (∀ w a, L.pton6 w = some a → a.length = 16) ∧
  (∀ w a, L.eui64 w = some a → a.length = 8)

/-- An IPv4 address as an IPv6 address. -/
def mapped (a : Bytes) : Bytes := [0, 0, 0, 0, 0, 0, 0, 0, 0, 0, 255, 255] ++ a

inductive AddrText (L : Libc) : Bytes → Bytes → Af → Prop
  | v4 {w a} : L.pton4 w = some a → AddrText L w (mapped a) .v4
  | v6 {w a} : L.pton4 w = none → L.pton6 w = some a → AddrText L w a .v6

/-- `p` is `a` with all bits from the n-th on cleared. -/
def Masked (a : Bytes) (n : Nat) (p : Bytes) : Prop :=
  p.length = 16 ∧ SameBits n p a ∧ ∀ i, n ≤ i → i < 128 → bitAt p i = false

/-- Prefixes; the length of an IPv4 prefix is increased by 96. -/
inductive NetText (L : Libc) : Bytes → Bytes → Nat → Af → Prop
  | any : NetText L (ascii "default") (List.replicate 16 0) 0 .v6
  | host {w a af} : w ≠ ascii "default" → 47 ∉ w → AddrText L w a af → NetText L w a 128 af
  | net4 {b a t n p} : 47 ∉ b → b.length ≤ 45 → AddrText L b a .v4 → NumText t n → n ≤ 32 →
      Masked a (n + 96) p → NetText L (b ++ 47 :: t) p (n + 96) .v4
  | net6 {b a t n p} : 47 ∉ b → b.length ≤ 45 → AddrText L b a .v6 → NumText t n → n ≤ 128 →
      Masked a n p → NetText L (b ++ 47 :: t) p n .v6

/-- The end of a line: white space, a comment, a newline; the newline may be missing at the end of
the text. -/
def Ends (e rest : Bytes) : Prop :=
  ∃ ws cm, (∀ c ∈ ws, BlankC c) ∧ (cm = [] ∨ ∃ x, cm = 35 :: x ∧ 10 ∉ x) ∧
    (e = ws ++ cm ++ [10] ∨ e = ws ++ cm ∧ rest = [])

/-! ### Filters -/

inductive FClause
  | ip (p : Bytes) (n : Nat) (af : Af)
  | srcIp (p : Bytes) (n : Nat) (af : Af)
  | eq (n : Nat) | le (n : Nat) | ge (n : Nat)
  | srcEq (n : Nat) | srcLe (n : Nat) | srcGe (n : Nat)
  | neigh (a : Bytes)
  | id (a : Bytes)
  | proto (n : Nat)
  | locl
  | ifname (s : Bytes)
  | allow | deny
  | metric (n : Nat)
  | srcPrefix (p : Bytes) (n : Nat) (af : Af)
  | table (n : Nat)
  | prefSrc (a : Bytes) (af : Af)
deriving DecidableEq, Repr

/-- `g` and `w` are the white space after the keyword and the argument; if there is no argument
both are empty. -/
inductive FText (L : Libc) : FClause → Bytes → Prop
  | ip {p n af g w} : Gap g → Word w → NetText L w p n af → FText L (.ip p n af) (ascii "ip" ++ (g ++ w))
  | srcIp {p n af g w} : Gap g → Word w → NetText L w p n af → FText L (.srcIp p n af) (ascii "src-ip" ++ (g ++ w))
  | eq {n g w} : Gap g → NumText w n → n < 2147483648 → FText L (.eq n) (ascii "eq" ++ (g ++ w))
  | le {n g w} : Gap g → NumText w n → n < 2147483648 → FText L (.le n) (ascii "le" ++ (g ++ w))
  | ge {n g w} : Gap g → NumText w n → n < 2147483648 → FText L (.ge n) (ascii "ge" ++ (g ++ w))
  | srcEq {n g w} : Gap g → NumText w n → n < 2147483648 → FText L (.srcEq n) (ascii "src-eq" ++ (g ++ w))
  | srcLe {n g w} : Gap g → NumText w n → n < 2147483648 → FText L (.srcLe n) (ascii "src-le" ++ (g ++ w))
  | srcGe {n g w} : Gap g → NumText w n → n < 2147483648 → FText L (.srcGe n) (ascii "src-ge" ++ (g ++ w))
  | neigh {a af g w} : Gap g → Word w → AddrText L w a af → FText L (.neigh a) (ascii "neigh" ++ (g ++ w))
  | id {a g w} : Gap g → Word w → L.eui64 w = some a → FText L (.id a) (ascii "id" ++ (g ++ w))
  | proto {n g w} : Gap g → NumText w n → n < 2147483648 → FText L (.proto n) (ascii "proto" ++ (g ++ w))
  | locl : FText L .locl (ascii "local" ++ [])
  | ifname {s g w} : Gap g → StrText w s → FText L (.ifname s) (ascii "if" ++ (g ++ w))
  | allow : FText L .allow (ascii "allow" ++ [])
  | deny : FText L .deny (ascii "deny" ++ [])
  | metric {n g w} : Gap g → NumText w n → 0 < n → n ≤ INFINITY → FText L (.metric n) (ascii "metric" ++ (g ++ w))
  | srcPrefix {p n af g w} : Gap g → Word w → NetText L w p n af →
      FText L (.srcPrefix p n af) (ascii "src-prefix" ++ (g ++ w))
  | table {n g w} : Gap g → NumText w n → 0 < n → n ≤ INFINITY → FText L (.table n) (ascii "table" ++ (g ++ w))
  | prefSrc {a af g w} : Gap g → Word w → AddrText L w a af → FText L (.prefSrc a af) (ascii "pref-src" ++ (g ++ w))

/-- A sequence of clauses, each preceded by white space. -/
inductive Clauses {α : Type} (T : α → Bytes → Prop) : List α → Bytes → Prop
  | nil : Clauses T [] []
  | cons {x xs g t u} : Gap g → T x t → Clauses T xs u → Clauses T (x :: xs) (g ++ (t ++ u))

/-- The last clause that gives a value. -/
def lastOf {α β : Type} (sel : α → Option β) (l : List α) : Option β := (l.filterMap sel).getLast?

/-! What a clause says about each attribute of a route, and about what is to be done. -/
def FClause.dst? : FClause → Option (Bytes × Nat)
  | .ip p n _ => some (p, n)
  | _ => none
def FClause.src? : FClause → Option (Bytes × Nat)
  | .srcIp p n _ => some (p, n)
  | _ => none
def FClause.neigh? : FClause → Option Bytes
  | .neigh a => some a
  | _ => none
def FClause.id? : FClause → Option Bytes
  | .id a => some a
  | _ => none
def FClause.ifname? : FClause → Option Bytes
  | .ifname s => some s
  | _ => none
def FClause.proto? : FClause → Option Int
  | .proto n => some (n : Int)
  | .locl => some (-2)
  | _ => none
def FClause.metric? : FClause → Option Nat
  | .allow => some 0
  | .deny => some INFINITY
  | .metric n => some n
  | _ => none
def FClause.newSrc? : FClause → Option (Bytes × Nat)
  | .srcPrefix p n _ => some (p, n)
  | _ => none
def FClause.table? : FClause → Option Nat
  | .table n => some n
  | _ => none
def FClause.prefSrc? : FClause → Option Bytes
  | .prefSrc a _ => some a
  | _ => none

/-- The address family of the addresses in a clause. -/
def FClause.af : FClause → Option Af
  | .ip _ _ af | .srcIp _ _ af | .srcPrefix _ _ af | .prefSrc _ af => some af
  | _ => none

/-- A condition on a prefix length. -/
def FClause.length : FClause → Option Nat
  | .eq n | .le n | .ge n | .srcEq n | .srcLe n | .srcGe n => some n
  | _ => none

/-- The clause excludes some prefix lengths. -/
def FClause.limits : FClause → Bool
  | .eq _ | .srcEq _ => true
  | .ge n | .srcGe n => decide (0 < n)
  | .le n | .srcLe n => decide (n < 128)
  | _ => false

/-- The family a rule is about: that of its addresses, else IPv6 if it restricts a length. -/
def ruleFamily (r : List FClause) : Option Af :=
  match r.findSome? FClause.af with
  | some a => some a
  | none => if r.any FClause.limits then some .v6 else none

/-- All addresses of a rule are of one family. -/
def Agree (r : List FClause) : Prop :=
  ∀ c ∈ r, ∀ d ∈ r, ∀ a b, c.af = some a → d.af = some b → a = b

/-- The lengths are in the range allowed for the family. -/
def InRange (r : List FClause) : Prop :=
  ∀ c ∈ r, ∀ n, c.length = some n → n ≤ (if ruleFamily r = some .v4 then 32 else 128)

/-- A route to an IPv4 prefix. -/
def IsV4 (dst : Bytes) (plen : Nat) : Prop := 96 ≤ plen ∧ SameBits 96 dst (mapped [0, 0, 0, 0])

/-- A prefix length as written in a rule. -/
def written (af : Option Af) (plen : Nat) : Nat := if af = some .v4 then plen - 96 else plen

/-- A route for which a filter is evaluated: what is known about it. -/
def ArgsOk (q : FArgs) : Prop := q.dst.length = 16 ∧ q.src.length = 16 ∧ q.plen ≤ 128 ∧ q.srcPlen ≤ 128

/-- When a rule matches. -/
structure Matches (L : Libc) (r : List FClause) (q : FArgs) : Prop where
  family : ∀ a, ruleFamily r = some a → (a = .v4 ↔ IsV4 q.dst q.plen)
  ip : ∀ p n, lastOf FClause.dst? r = some (p, n) →
    n ≤ q.plen ∧ SameBits n q.dst p
  srcIp : ∀ p n, lastOf FClause.src? r = some (p, n) →
    n ≤ q.srcPlen ∧ SameBits n q.src p
  eq : ∀ n, .eq n ∈ r → written (ruleFamily r) q.plen = n
  le : ∀ n, .le n ∈ r → written (ruleFamily r) q.plen ≤ n
  ge : ∀ n, .ge n ∈ r → n ≤ written (ruleFamily r) q.plen
  srcEq : ∀ n, .srcEq n ∈ r → written (ruleFamily r) q.srcPlen = n
  srcLe : ∀ n, .srcLe n ∈ r → written (ruleFamily r) q.srcPlen ≤ n
  srcGe : ∀ n, .srcGe n ∈ r → n ≤ written (ruleFamily r) q.srcPlen
  neigh : ∀ a, lastOf FClause.neigh? r = some a → q.neigh = some a
  id : ∀ a, lastOf FClause.id? r = some a → q.id = some a
  ifname : ∀ s, lastOf FClause.ifname? r = some s →
    L.ifindex s ≠ 0 ∧ q.ifindex = L.ifindex s
  /-- Without a protocol, the rule is about routes that are neither local addresses nor "boot". -/
  proto : match (lastOf FClause.proto? r).getD 0 with
    | 0 => q.proto ≠ -2 ∧ q.proto ≠ 3
    | p => q.proto = p

/-- What a rule does: the last clause of each kind counts. -/
def ruleAction (r : List FClause) : Action where
  addMetric := (lastOf FClause.metric? r).getD 0
  src := lastOf FClause.newSrc? r
  table := (lastOf FClause.table? r).getD 0
  prefSrc := lastOf FClause.prefSrc? r

/-- `a` is the outcome of the first matching rule. -/
def FirstMatch (L : Libc) (rules : List (List FClause)) (q : FArgs) (a : Action) : Prop :=
  ∃ before r after, rules = before ++ r :: after ∧ (∀ r' ∈ before, ¬ Matches L r' q) ∧ Matches L r q ∧
    a = ruleAction r

/-! ### Interfaces -/

inductive Field
  | helloInterval | updateInterval | cost | type | splitHorizon | lq | faraway | unicast | timestamps
  | rfc6126 | acceptBad | v4viav6 | probeMtu | rttDecay | rttMin | rttMax | maxRttPenalty
deriving DecidableEq, Repr

/-- The value of a field; 0 if it is not set. -/
def Field.get : Field → IfConf → Nat
  | .helloInterval, i => i.helloInterval
  | .updateInterval, i => i.updateInterval
  | .cost, i => i.cost
  | .type, i => i.type
  | .splitHorizon, i => i.splitHorizon
  | .lq, i => i.lq
  | .faraway, i => i.faraway
  | .unicast, i => i.unicast
  | .timestamps, i => i.timestamps
  | .rfc6126, i => i.rfc6126
  | .acceptBad, i => i.acceptBad
  | .v4viav6, i => i.v4viav6
  | .probeMtu, i => i.probeMtu
  | .rttDecay, i => i.rttDecay
  | .rttMin, i => i.rttMin
  | .rttMax, i => i.rttMax
  | .maxRttPenalty, i => i.maxRttPenalty

inductive IClause
  | set (f : Field) (v : Nat)
  | key (id : Bytes)
deriving DecidableEq, Repr

/-- The fields with a number, and the greatest number allowed. -/
def numFields : List (String × Field × Nat) :=
  [("rxcost", .cost, 65535), ("rtt-decay", .rttDecay, 256), ("max-rtt-penalty", .maxRttPenalty, 65535)]

/-- The fields with a time, and the greatest time allowed, in thousandths. -/
def thouFields : List (String × Field × Nat) :=
  [("hello-interval", .helloInterval, 655350), ("update-interval", .updateInterval, 655350),
   ("rtt-min", .rttMin, 2147482000), ("rtt-max", .rttMax, 2147482000)]

def boolFields : List (String × Field) :=
  [("split-horizon", .splitHorizon), ("link-quality", .lq), ("faraway", .faraway), ("unicast", .unicast),
   ("enable-timestamps", .timestamps), ("rfc6126-compatible", .rfc6126),
   ("accept-bad-signatures", .acceptBad), ("v4-via-v6", .v4viav6), ("probe-mtu", .probeMtu)]

inductive IText : IClause → Bytes → Prop
  | num {kw f hi v g w} : (kw, f, hi) ∈ numFields → Gap g → NumText w v → 0 < v → v ≤ hi →
      IText (.set f v) (ascii kw ++ (g ++ w))
  | thou {kw f hi v g w} : (kw, f, hi) ∈ thouFields → Gap g → ThouText w v → 0 < v → v ≤ hi →
      IText (.set f v) (ascii kw ++ (g ++ w))
  | bool {kw f v g w} : (kw, f) ∈ boolFields → Gap g → BoolText w v → IText (.set f v) (ascii kw ++ (g ++ w))
  | type {v g w} : Gap g → TypeText w v → IText (.set .type v) (ascii "type" ++ (g ++ w))
  | wired {v g w} : Gap g → BoolText w v → IText (.set .type (if v = 2 then 1 else 2)) (ascii "wired" ++ (g ++ w))
  | key {id g} : Gap g → Word id → IText (.key id) (ascii "key" ++ (g ++ id))

def IClause.value? (f : Field) : IClause → Option Nat
  | .set g v => if g = f then some v else none
  | .key _ => none

def IClause.key? : IClause → Option Bytes
  | .key id => some id
  | .set _ _ => none

/-- The value that one line gives to a field, 0 if none. -/
def setIn (f : Field) (l : List IClause) : Nat := (lastOf (IClause.value? f) l).getD 0

def keyIn (l : List IClause) : Option Bytes := lastOf IClause.key? l

/-- The value given to a field by several lines: the last one that sets it to something other than
the default. -/
def setBy (f : Field) (ls : List (List IClause)) : Nat :=
  (lastOf (fun l => if setIn f l = 0 then none else some (setIn f l)) ls).getD 0

def keyBy (ls : List (List IClause)) : Option Bytes := lastOf keyIn ls

/-! ### Keys -/

inductive KClause
  | id (w : Bytes) | type (n : Nat) | value (v : Bytes)
deriving DecidableEq, Repr

inductive KText : KClause → Bytes → Prop
  | id {g w} : Gap g → Word w → KText (.id w) (ascii "id" ++ (g ++ w))
  | sha256 {g} : Gap g → KText (.type 1) (ascii "type" ++ (g ++ ascii "hmac-sha256"))
  | blake2s {g} : Gap g → KText (.type 2) (ascii "type" ++ (g ++ ascii "blake2s128"))
  | value {g w v} : Gap g → Word w → Spells w v → KText (.value v) (ascii "value" ++ (g ++ w))

def KClause.id? : KClause → Option Bytes
  | .id w => some w
  | _ => none

def KClause.type? : KClause → Option Nat
  | .type n => some n
  | _ => none

def KClause.value? : KClause → Option Bytes
  | .value v => some v
  | _ => none

/-- The key defined by a line, if it is accepted. -/
def keyDef (l : List KClause) : Option KeyDef :=
  match lastOf KClause.id? l, lastOf KClause.type? l, (lastOf KClause.value? l).getD [] with
  | some id, some 1, v => if v.length ≤ 64 then some ⟨id, 1, v ++ List.replicate (64 - v.length) 0⟩ else none
  | some id, some 2, v => if 1 ≤ v.length ∧ v.length ≤ 32 then some ⟨id, 2, v⟩ else none
  | _, _, _ => none

/-! ### Options -/

/-- Options whose value is a number between 1 and 65534. -/
def numOptions : List (String × (Nat → Opts → Opts)) :=
  [("protocol-port", fun n o => { o with protocolPort := n }),
   ("kernel-priority", fun n o => { o with kernelMetric := n }),
   ("allow-duplicates", fun n o => { o with allowDuplicates := n }),
   ("local-port", fun n o => { o with localPort := n, localPath := none, localWrite := false }),
   ("local-port-readwrite", fun n o => { o with localPort := n, localPath := none, localWrite := true }),
   ("export-table", fun n o => { o with exportTable := n }),
   ("import-table", fun n o => { o with importTables := (o.importTables ++ [n]).take (max 10 o.importTables.length) }),
   ("kernel-check-interval", fun n o => { o with kernelCheckInterval := n }),
   ("shutdown-delay-ms", fun n o => { o with shutdownDelay := n })]

/-- Options that are on or off. -/
def boolOptions : List (String × (Bool → Opts → Opts)) :=
  [("link-detect", fun b o => { o with linkDetect := b }),
   ("random-id", fun b o => { o with randomId := b }),
   ("daemonise", fun b o => { o with daemonise := b }),
   ("skip-kernel-setup", fun b o => { o with skipKernelSetup := b }),
   ("ipv6-subtrees", fun b o => { o with subtrees := b }),
   ("reflect-kernel-metric", fun b o => { o with reflect := b })]

/-- Options whose value is a string. -/
def strOptions : List (String × (Bytes → Opts → Opts)) :=
  [("state-file", fun s o => { o with stateFile := s }),
   ("log-file", fun s o => { o with logFile := some s }),
   ("pid-file", fun s o => { o with pidFile := s }),
   ("local-path", fun s o => { o with localPort := -1, localPath := some s, localWrite := false }),
   ("local-path-readwrite", fun s o => { o with localPort := -1, localPath := some s, localWrite := true })]

/-- How an option is written, and what it does. -/
inductive OptText (L : Libc) : (Opts → Opts) → Bytes → Prop
  | num {kw f n g w} : (kw, f) ∈ numOptions → Gap g → NumText w n → 0 < n → n < 65535 →
      OptText L (f n) (ascii kw ++ (g ++ w))
  | bool {kw f v g w} : (kw, f) ∈ boolOptions → Gap g → BoolText w v →
      OptText L (f (v == 2)) (ascii kw ++ (g ++ w))
  | str {kw f s g w} : (kw, f) ∈ strOptions → Gap g → StrText w s → OptText L (f s) (ascii kw ++ (g ++ w))
  | group {a af g w} : Gap g → Word w → AddrText L w a af →
      OptText L (fun o => { o with group := a }) (ascii "protocol-group" ++ (g ++ w))
  | debug {n g w} : Gap g → NumText w n → n < 2147483648 →
      OptText L (fun o => { o with debug := n }) (ascii "debug" ++ (g ++ w))
  | halfLife {n g w} : Gap g → NumText w n → n < 2147483648 →
      OptText L (fun o => { o with halfLife := n }) (ascii "smoothing-half-life" ++ (g ++ w))
  | routerId {a g w} : Gap g → Word w → L.eui64 w = some a →
      OptText L (fun o => { o with routerId := some a }) (ascii "router-id" ++ (g ++ w))

/-! ### Files -/

inductive Chain
  | inp | out | redistribute | install
deriving DecidableEq, Repr

def Chain.word : Chain → String
  | .inp => "in"
  | .out => "out"
  | .redistribute => "redistribute"
  | .install => "install"

/-- A line of a configuration file. -/
inductive CLine
  | blank
  | filter (c : Chain) (r : List FClause)
  | interface (name : Bytes) (l : List IClause)
  | default (l : List IClause)
  | key (l : List KClause)
  | option (f : Opts → Opts)

/-- How a line is written, without its end. -/
inductive LineText (L : Libc) : CLine → Bytes → Prop
  | blank : LineText L .blank []
  | filter {c r g t} : (∀ x ∈ g, BlankC x) → Clauses (FText L) r t → LineText L (.filter c r) (g ++ (ascii c.word ++ t))
  | interface {name l g h w t} : (∀ x ∈ g, BlankC x) → Gap h → StrText w name → Clauses IText l t →
      LineText L (.interface name l) (g ++ (ascii "interface" ++ (h ++ (w ++ t))))
  | default {l g t} : (∀ x ∈ g, BlankC x) → Clauses IText l t → LineText L (.default l) (g ++ (ascii "default" ++ t))
  | key {l g t} : (∀ x ∈ g, BlankC x) → Clauses KText l t → LineText L (.key l) (g ++ (ascii "key" ++ t))
  | option {f g t} : (∀ x ∈ g, BlankC x) → OptText L f t → LineText L (.option f) (g ++ t)

/-- A line is in order, given the keys defined so far: addresses of one family, lengths in range,
known keys. -/
def LineOk (known : Bytes → Prop) : CLine → Prop
  | .blank | .option _ => True
  | .filter _ r => Agree r ∧ InRange r
  | .interface _ l | .default l => ∀ id, .key id ∈ l → known id
  | .key l => (keyDef l).isSome

/-- The text of a file. -/
inductive FileText (L : Libc) : (Bytes → Prop) → List CLine → Bytes → Prop
  | nil {known} : FileText L known [] []
  | cons {known x xs t e u} : LineText L x t → Ends e u → LineOk known x → t ++ e ≠ [] →
      FileText L (fun id => known id ∨ ∃ l k, x = .key l ∧ keyDef l = some k ∧ k.id = id) xs u →
      FileText L known (x :: xs) (t ++ (e ++ u))

def CLine.rule? (c : Chain) : CLine → Option (List FClause)
  | .filter d r => if d = c then some r else none
  | _ => none

def CLine.interface? (name : Bytes) : CLine → Option (List IClause)
  | .interface n l => if n = name then some l else none
  | _ => none

def CLine.default? : CLine → Option (List IClause)
  | .default l => some l
  | _ => none

def CLine.option? : CLine → Option (Opts → Opts)
  | .option f => some f
  | _ => none

def CLine.key? : CLine → Option KeyDef
  | .key l => keyDef l
  | _ => none

/-- The key with the given identifier: the last one defined. -/
def keyNamed (id : Bytes) (ls : List CLine) : Option KeyDef :=
  lastOf (fun x => (CLine.key? x).filter (·.id = id)) ls

/-- The text of several files, read one after the other. -/
inductive FilesText (L : Libc) : (Bytes → Prop) → List CLine → List Bytes → Prop
  | nil {known} : FilesText L known [] []
  | cons {known xs ys t ts} : FileText L known xs t →
      FilesText L (fun id => known id ∨ ∃ x ∈ xs, ∃ k, x.key? = some k ∧ k.id = id) ys ts →
      FilesText L known (xs ++ ys) (t :: ts)

/-- The outcome of a list of rules: that of the first matching rule, or `none`. -/
def Outcome (L : Libc) (rules : List (List FClause)) (q : FArgs) (a : Option Action) : Prop :=
  match a with
  | some a => FirstMatch L rules q a
  | none => ∀ r ∈ rules, ¬ Matches L r q

def metricOf (a : Option Action) (dflt : Nat) : Nat :=
  match a with
  | some a => a.addMetric
  | none => dflt

/-- The filters do what the lines of the configuration say.  Without a matching rule, routes are
accepted, announced and installed without change; only local addresses are redistributed. -/
structure FiltersFollow (L : Libc) (ls : List CLine) (s : Conf) : Prop where
  input : ∀ id dst plen src srcPlen neigh ifindex, ArgsOk ⟨id, dst, plen, src, srcPlen, neigh, ifindex, 0⟩ →
    ∃ a, Outcome L (ls.filterMap (CLine.rule? .inp)) ⟨id, dst, plen, src, srcPlen, neigh, ifindex, 0⟩ a ∧
      inputFilter s.input id dst plen src srcPlen neigh ifindex = metricOf a 0
  output : ∀ id dst plen src srcPlen ifindex, ArgsOk ⟨id, dst, plen, src, srcPlen, none, ifindex, 0⟩ →
    ∃ a, Outcome L (ls.filterMap (CLine.rule? .out)) ⟨id, dst, plen, src, srcPlen, none, ifindex, 0⟩ a ∧
      outputFilter s.output id dst plen src srcPlen ifindex = metricOf a 0
  redistribute : ∀ dst plen src srcPlen ifindex proto, ArgsOk ⟨none, dst, plen, src, srcPlen, none, ifindex, proto⟩ →
    ∃ a, Outcome L (ls.filterMap (CLine.rule? .redistribute)) ⟨none, dst, plen, src, srcPlen, none, ifindex, proto⟩ a ∧
      redistributeFilter s.redist dst plen src srcPlen ifindex proto =
        (metricOf a (if proto = -2 then 0 else INFINITY), a.getD {})
  install : ∀ id dst plen src srcPlen ifindex, ArgsOk ⟨id, dst, plen, src, srcPlen, none, ifindex, 0⟩ →
    ∃ a, Outcome L (ls.filterMap (CLine.rule? .install)) ⟨id, dst, plen, src, srcPlen, none, ifindex, 0⟩ a ∧
      installFilter s.install id dst plen src srcPlen ifindex = (metricOf a 0, a.getD {})

/-- `i` has the values given by the interface's own lines, and elsewhere those of the `default`
lines. -/
def IfFollows (ls : List CLine) (name : Bytes) (i : IfConf) : Prop :=
  (∀ f : Field, f.get i =
    if setBy f (ls.filterMap (CLine.interface? name)) ≠ 0 then setBy f (ls.filterMap (CLine.interface? name))
    else setBy f (ls.filterMap CLine.default?)) ∧
  i.key = (keyBy (ls.filterMap (CLine.interface? name))).or (keyBy (ls.filterMap CLine.default?))

/-- While the daemon runs, filters and most options stay as they are. -/
structure Fixed (s s' : Conf) : Prop where
  input : s'.input = s.input
  output : s'.output = s.output
  redist : s'.redist = s.redist
  install : s'.install = s.install
  final : s'.final = s.final
  opts : { s'.opts with
    linkDetect := s.opts.linkDetect, logFile := s.opts.logFile, halfLife := s.opts.halfLife } = s.opts

/-- What happens to the configuration while the daemon runs: a line is received from a control
connection; interfaces are found to have other indices. -/
inductive ConfEv
  | line (text : Bytes)
  | renumber (ifindex : Bytes → Nat)

def confStep (x : Libc × Conf) : ConfEv → Libc × Conf
  | .line text => (x.1, (parseString x.1 x.2 text).1)
  | .renumber ix => ({ x.1 with ifindex := ix }, renumberFilters { x.1 with ifindex := ix } x.2)

end Babel.Spec
