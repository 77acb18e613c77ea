import Verif.Model.Util
/-
Model of configuration.c: the configuration language, filters, interface configuration,
and of the parts of util.c (`parse_address`, `parse_net`), interface.c (`add_interface`,
`flush_interface`) and hmac.c (`add_key`) that it calls.

The lookahead character `c` together with the characters that `gnc` will still deliver is the
list of characters not yet consumed; its end is end of file (-1).  The result -2 is `.bad`.
Strings returned by the parser end at the first NUL character.  Memory allocation does not fail;
reference counts of keys are not modelled.
-/
namespace Babel

/-- What can go wrong: a syntax error (-2); the behaviour is undefined because memory is freed
twice; the model's recursion bound was too small (this never happens, see C51). -/
inductive Fail
  | bad | doubleFree | stuck
deriving DecidableEq, Repr

/-- Characters of a keyword. -/
def ascii (s : String) : Bytes := s.toList.map fun c => UInt8.ofNat c.toNat

/-- Functions of the C library: `inet_pton`, `sscanf` as used by `parse_eui64` (util.c:446-469),
`if_nametoindex`. -/
structure Libc where
  pton4 : Bytes → Option Bytes
  pton6 : Bytes → Option Bytes
  eui64 : Bytes → Option Bytes
  ifindex : Bytes → Nat

/-! ### Lexical analysis -/

/-- configuration.c:70 -/
def isWs (c : UInt8) : Bool := c == 32 || c == 9 || c == 13

/-- configuration.c:67-73 `skip_whitespace`. -/
def skipWs (inp : Bytes) : Bytes := inp.dropWhile isWs

/-- configuration.c:75-83 `skip_to_eol`. -/
def skipToEol (inp : Bytes) : Bytes := (inp.dropWhile (· != 10)).drop 1

/-- The test `c < 0 || c == '\n' || c == '#'`. -/
def atEol : Bytes → Bool
  | [] => true
  | c :: _ => c == 10 || c == 35

/-- configuration.c:85-94 `skip_eol`. -/
def skipEol (inp : Bytes) : Except Fail Bytes :=
  let inp := skipWs inp
  if atEol inp then .ok (skipToEol inp) else .error .bad

/-- configuration.c:109 -/
def wordChar (c : UInt8) : Bool := !(c == 32 || c == 9 || c == 13 || c == 10 || c == 35)

/-- The C string in a buffer. -/
def cstr (w : Bytes) : Bytes := w.takeWhile (· != 0)

/-- configuration.c:96-115 `getword`. -/
def getword (inp : Bytes) : Except Fail (Bytes × Bytes) :=
  let inp := skipWs inp
  if atEol inp then .error .bad
  else match inp with
  | [] => .error .bad
  | c :: rest =>
    if c == 34 then .error .bad
    else
      let w := c :: rest.takeWhile wordChar
      if w.length > 255 then .error .bad
      else .ok (cstr w, rest.dropWhile wordChar)

/-- configuration.c:133-147: the loop of `getstring`; `i` characters have been stored. -/
def quoted (i : Nat) : Bytes → Except Fail (Bytes × Bytes)
  | [] => .error .bad
  | c :: rest =>
    if i ≥ 255 || c == 10 then .error .bad
    else if c == 34 then .ok ([], rest)
    else if c == 92 then
      match rest with
      | [] => .error .bad
      | d :: rest => do
        let (w, r) ← quoted (i + 1) rest
        return (d :: w, r)
    else do
      let (w, r) ← quoted (i + 1) rest
      return (c :: w, r)

/-- configuration.c:117-154 `getstring`. -/
def getstring (inp : Bytes) : Except Fail (Bytes × Bytes) :=
  let inp := skipWs inp
  if atEol inp then .error .bad
  else if inp.head? ≠ some 34 then getword inp
  else do
    let (w, r) ← quoted 0 (inp.drop 1)
    return (cstr w, r)

/-- The value of a digit, for `strtol`. -/
def digitOf (base : Nat) (c : UInt8) : Option Nat :=
  let n := c.toNat
  let v := if 48 ≤ n ∧ n ≤ 57 then some (n - 48)
    else if 97 ≤ n ∧ n ≤ 122 then some (n - 97 + 10)
    else if 65 ≤ n ∧ n ≤ 90 then some (n - 65 + 10)
    else none
  v.filter (· < base)

/-- The longest sequence of digits: its value, its length, and the rest. -/
def digitsOf (base : Nat) : Nat → Nat → Bytes → Nat × Nat × Bytes
  | v, n, [] => (v, n, [])
  | v, n, c :: rest =>
    match digitOf base c with
    | some d => digitsOf base (v * base + d) (n + 1) rest
    | none => (v, n, c :: rest)

/-- isspace(3). -/
def isSpaceC (c : UInt8) : Bool := c == 32 || (9 ≤ c && c ≤ 13)

/-- `strtol(s, &end, 0)` without the sign. -/
def strtolMag (s : Bytes) : Nat × Nat × Bytes :=
  match s with
  | 48 :: x :: d :: rest =>
    if (x == 120 || x == 88) && (digitOf 16 d).isSome then digitsOf 16 0 0 (d :: rest)
    else digitsOf 8 0 0 s
  | 48 :: _ => digitsOf 8 0 0 s
  | _ => digitsOf 10 0 0 s

/-- The optional sign of a number. -/
def signOf : Bytes → Bool × Bytes
  | 43 :: t => (false, t)
  | 45 :: t => (true, t)
  | t => (false, t)

/-- `strtol(s, &end, 0)` on a machine with 64-bit `long`; `none` if `*end != '\0'`. -/
def strtol (s : Bytes) : Option Int :=
  let (neg, t) := signOf (s.dropWhile isSpaceC)
  let (v, n, rest) := strtolMag t
  if n = 0 then (if s.isEmpty then some 0 else none)
  else if rest.isEmpty then
    some (if neg then max (-(v : Int)) (-9223372036854775808) else min (v : Int) 9223372036854775807)
  else none

/-- Conversion from `long` to `int`. -/
def longToInt (x : Int) : Int := toInt32 (x % 4294967296).toNat

/-- configuration.c:156-172 `getint`. -/
def getint (inp : Bytes) : Except Fail (Int × Bytes) := do
  let (t, r) ← getword inp
  match strtol t with
  | some i => return (longToInt i, r)
  | none => throw .bad

/-- configuration.c:174-190 `getthousands`. -/
def getthousands (inp : Bytes) : Except Fail (Nat × Bytes) := do
  let (t, r) ← getword inp
  let i := parseThousands t
  if i < 0 then throw .bad else return (i.toNat, r)

/-- The values of a list of keywords. -/
def keyword {α : Type} (l : List (String × α)) (w : Bytes) : Option α :=
  (l.find? fun p => ascii p.1 == w).map (·.2)

/-- interface.h:71-73: 0 default, 1 no, 2 yes. -/
def boolWords : List (String × Nat) :=
  [("true", 2), ("yes", 2), ("false", 1), ("no", 1), ("default", 0), ("auto", 0)]

/-- configuration.c:192-215 `getbool`. -/
def getbool (inp : Bytes) : Except Fail (Nat × Bytes) := do
  let (t, r) ← getword inp
  match keyword boolWords t with
  | some i => return (i, r)
  | none => throw .bad

inductive Af
  | v4 | v6
deriving DecidableEq, Repr

/-- util.c:366-389 `parse_address`. -/
def parseAddress (L : Libc) (w : Bytes) : Option (Bytes × Af) :=
  match L.pton4 w with
  | some a => some (v4tov6 a, .v4)
  | none =>
    match L.pton6 w with
    | some a => some (a, .v6)
    | none => none

/-- util.c:391-444 `parse_net`. -/
def parseNet (L : Libc) (w : Bytes) : Option (Bytes × Nat × Af) :=
  if w = ascii "default" then some (zeroes16, 0, .v6)
  else if ¬ w.contains 47 then
    match parseAddress L w with
    | some (a, af) => some (normalizePrefix a 128, 128, af)
    | none => none
  else
    let buf := w.takeWhile (· != 47)
    let num := (w.dropWhile (· != 47)).drop 1
    if buf.length ≥ 46 then none
    else match L.pton4 buf with
    | some a =>
      match strtol num with
      | some plen =>
        if plen < 0 ∨ plen > 32 then none
        else some (normalizePrefix (v4tov6 a) (plen.toNat + 96), plen.toNat + 96, .v4)
      | none => none
    | none =>
      match L.pton6 buf with
      | some a =>
        match strtol num with
        | some plen =>
          if plen < 0 ∨ plen > 128 then none
          else some (normalizePrefix a plen.toNat, plen.toNat, .v6)
        | none => none
      | none => none

/-- configuration.c:217-246 `getip`. -/
def getip (L : Libc) (inp : Bytes) : Except Fail ((Bytes × Af) × Bytes) := do
  let (t, r) ← getword inp
  match parseAddress L t with
  | some x => return (x, r)
  | none => throw .bad

/-- configuration.c:248-274 `getid`. -/
def getid (L : Libc) (inp : Bytes) : Except Fail (Bytes × Bytes) := do
  let (t, r) ← getword inp
  match L.eui64 t with
  | some x => return (x, r)
  | none => throw .bad

/-- configuration.c:276-304 `getnet`. -/
def getnet (L : Libc) (inp : Bytes) : Except Fail ((Bytes × Nat × Af) × Bytes) := do
  let (t, r) ← getword inp
  match parseNet L t with
  | some x => return (x, r)
  | none => throw .bad

/-- interface.h:39-42. -/
def typeWords : List (String × Nat) :=
  [("default", 0), ("auto", 0), ("wired", 1), ("wireless", 2), ("tunnel", 3)]

/-- configuration.c:306-330 `get_interface_type`. -/
def getIfType (inp : Bytes) : Except Fail (Nat × Bytes) := do
  let (t, r) ← getword inp
  match keyword typeWords t with
  | some i => return (i, r)
  | none => throw .bad

/-- configuration.c:332-363 `gethex`. -/
def gethex (inp : Bytes) : Except Fail (Bytes × Bytes) := do
  let (t, r) ← getword inp
  match fromhex t with
  | some v => return (v, r)
  | none => throw .bad

/-! ### Filters -/

/-- configuration.h:41-47 `struct filter_result`. -/
structure Action where
  addMetric : Nat := 0
  src : Option (Bytes × Nat) := none
  table : Nat := 0
  prefSrc : Option Bytes := none
deriving DecidableEq, Repr

/-- configuration.h:49-63 `struct filter`; the defaults are those of configuration.c:376-380. -/
structure Filter where
  af : Option Af := none
  ifname : Option Bytes := none
  ifindex : Nat := 0
  id : Option Bytes := none
  dst : Option (Bytes × Nat) := none
  plenGe : Nat := 0
  plenLe : Nat := 128
  src : Option (Bytes × Nat) := none
  srcGe : Nat := 0
  srcLe : Nat := 128
  neigh : Option Bytes := none
  proto : Int := 0
  action : Action := {}
deriving DecidableEq, Repr

inductive FKw
  | ip | srcIp | eq | le | ge | srcEq | srcLe | srcGe | neigh | id | proto | locl | ifname | allow
  | deny | metric | srcPrefix | table | prefSrc
deriving DecidableEq, Repr

def filterWords : List (String × FKw) :=
  [("ip", .ip), ("src-ip", .srcIp), ("eq", .eq), ("le", .le), ("ge", .ge), ("src-eq", .srcEq),
   ("src-le", .srcLe), ("src-ge", .srcGe), ("neigh", .neigh), ("id", .id), ("proto", .proto),
   ("local", .locl), ("if", .ifname), ("allow", .allow), ("deny", .deny), ("metric", .metric),
   ("src-prefix", .srcPrefix), ("table", .table), ("pref-src", .prefSrc)]

/-- babeld.h:29 -/
def RTPROT_BABEL_LOCAL : Int := -2

/-- Assignment to an `unsigned char`. -/
def uchar (x : Int) : Nat := (x % 256).toNat

/-- configuration.c:400-403 and others. -/
def Filter.setAf (f : Filter) (af : Af) : Except Fail Filter :=
  match f.af with
  | none => .ok { f with af := some af }
  | some a => if a = af then .ok f else .error .bad

/-- configuration.c:394-519: one keyword of a filter. -/
def filterClause (L : Libc) (f : Filter) (k : FKw) (inp : Bytes) : Except Fail (Filter × Bytes) :=
  match k with
  | .ip => do
    let ((p, plen, af), r) ← getnet L inp
    return (← { f with dst := some (p, plen) }.setAf af, r)
  | .srcIp => do
    let ((p, plen, af), r) ← getnet L inp
    return (← { f with src := some (p, plen) }.setAf af, r)
  | .eq => do
    let (p, r) ← getint inp
    return ({ f with plenGe := uchar (max f.plenGe p), plenLe := uchar (min f.plenLe p) }, r)
  | .le => do
    let (p, r) ← getint inp
    return ({ f with plenLe := uchar (min f.plenLe p) }, r)
  | .ge => do
    let (p, r) ← getint inp
    return ({ f with plenGe := uchar (max f.plenGe p) }, r)
  | .srcEq => do
    let (p, r) ← getint inp
    return ({ f with srcGe := uchar (max f.srcGe p), srcLe := uchar (min f.srcLe p) }, r)
  | .srcLe => do
    let (p, r) ← getint inp
    return ({ f with srcLe := uchar (min f.srcLe p) }, r)
  | .srcGe => do
    let (p, r) ← getint inp
    return ({ f with srcGe := uchar (max f.srcGe p) }, r)
  | .neigh => do
    let ((a, _), r) ← getip L inp
    return ({ f with neigh := some a }, r)
  | .id => do
    let (a, r) ← getid L inp
    return ({ f with id := some a }, r)
  | .proto => do
    let (p, r) ← getint inp
    return ({ f with proto := p }, r)
  | .locl => return ({ f with proto := RTPROT_BABEL_LOCAL }, inp)
  | .ifname => do
    let (n, r) ← getstring inp
    return ({ f with ifname := some n, ifindex := L.ifindex n }, r)
  | .allow => return ({ f with action := { f.action with addMetric := 0 } }, inp)
  | .deny => return ({ f with action := { f.action with addMetric := INFINITY } }, inp)
  | .metric => do
    let (m, r) ← getint inp
    if m ≤ 0 ∨ m > INFINITY then throw .bad
    else return ({ f with action := { f.action with addMetric := m.toNat } }, r)
  | .srcPrefix => do
    let ((p, plen, af), r) ← getnet L inp
    return (← { f with action := { f.action with src := some (p, plen) } }.setAf af, r)
  | .table => do
    let (t, r) ← getint inp
    if t ≤ 0 ∨ t > INFINITY then throw .bad
    else return ({ f with action := { f.action with table := t.toNat } }, r)
  | .prefSrc => do
    let ((a, af), r) ← getip L inp
    return (← { f with action := { f.action with prefSrc := some a } }.setAf af, r)

/-- configuration.c:521-534. -/
def finishFilter (f : Filter) : Filter :=
  match f.af with
  | none =>
    if f.plenLe < 128 ∨ f.plenGe > 0 ∨ f.srcLe < 128 ∨ f.srcGe > 0 then { f with af := some .v6 }
    else f
  | some .v4 =>
    { f with
      plenLe := if f.plenLe < 128 then uchar (f.plenLe + 96) else f.plenLe
      plenGe := if f.plenGe > 0 then uchar (f.plenGe + 96) else f.plenGe
      srcLe := if f.srcLe < 128 then uchar (f.srcLe + 96) else f.srcLe
      srcGe := if f.srcGe > 0 then uchar (f.srcGe + 96) else f.srcGe }
  | some .v6 => f

/-- configuration.c:382-520: the loop of `parse_filter`. -/
def filterLoop (L : Libc) : Nat → Filter → Bytes → Except Fail (Filter × Bytes)
  | 0, _, _ => .error .stuck
  | fuel + 1, f, inp =>
    let inp := skipWs inp
    if atEol inp then .ok (f, skipToEol inp)
    else do
      let (w, r) ← getword inp
      match keyword filterWords w with
      | none => throw .bad
      | some k =>
        let (f, r) ← filterClause L f k r
        filterLoop L fuel f r

/-- configuration.c:370-542 `parse_filter`. -/
def parseFilter (L : Libc) (inp : Bytes) : Except Fail (Filter × Bytes) := do
  let (f, r) ← filterLoop L (inp.length + 1) {} inp
  return (finishFilter f, r)

/-- The arguments of `filter_match`.  Prefixes are never null pointers. -/
structure FArgs where
  id : Option Bytes
  dst : Bytes
  plen : Nat
  src : Bytes
  srcPlen : Nat
  neigh : Option Bytes
  ifindex : Nat
  proto : Int
deriving DecidableEq, Repr

/-- configuration.c:1374-1437 `filter_match`, on Linux. -/
def filterMatch (f : Filter) (q : FArgs) : Bool :=
  if f.af ≠ none ∧ (if q.plen ≥ 96 ∧ v4mapped q.dst then f.af = some .v6 else f.af = some .v4) then false
  else if f.id ≠ none ∧ q.id ≠ f.id then false
  else if (match f.dst with
      | some (p, n) => q.plen < n || !inPrefix q.dst p n
      | none => false) then false
  else if (match f.src with
      | some (p, n) => q.srcPlen < n || !inPrefix q.src p n
      | none => false) then false
  else if (f.plenGe > 0 ∨ f.plenLe < 128) ∧ (q.plen > f.plenLe ∨ q.plen < f.plenGe) then false
  else if (f.srcGe > 0 ∨ f.srcLe < 128) ∧ (q.srcPlen > f.srcLe ∨ q.srcPlen < f.srcGe) then false
  else if f.neigh ≠ none ∧ q.neigh ≠ f.neigh then false
  else if f.ifname ≠ none ∧ (f.ifindex = 0 ∨ q.ifindex = 0 ∨ f.ifindex ≠ q.ifindex) then false
  else if f.proto ≠ 0 then !(q.proto == 0 || f.proto != q.proto)
  else if q.proto = RTPROT_BABEL_LOCAL then false
  else if q.proto = 3 then false
  else true

/-- configuration.c:1439-1461 `do_filter`; -1 is `none`. -/
def doFilter : List Filter → FArgs → Option Action
  | [], _ => none
  | f :: fs, q => if filterMatch f q then some f.action else doFilter fs q

/-- configuration.c:1463-1476 `input_filter`. -/
def inputFilter (fs : List Filter) (id : Option Bytes) (dst : Bytes) (plen : Nat) (src : Bytes)
    (srcPlen : Nat) (neigh : Option Bytes) (ifindex : Nat) : Nat :=
  match doFilter fs ⟨id, dst, plen, src, srcPlen, neigh, ifindex, 0⟩ with
  | some a => a.addMetric
  | none => 0

/-- configuration.c:1478-1490 `output_filter`. -/
def outputFilter (fs : List Filter) (id : Option Bytes) (dst : Bytes) (plen : Nat) (src : Bytes)
    (srcPlen : Nat) (ifindex : Nat) : Nat :=
  match doFilter fs ⟨id, dst, plen, src, srcPlen, none, ifindex, 0⟩ with
  | some a => a.addMetric
  | none => 0

/-- configuration.c:1492-1504 `redistribute_filter`. -/
def redistributeFilter (fs : List Filter) (dst : Bytes) (plen : Nat) (src : Bytes) (srcPlen : Nat)
    (ifindex : Nat) (proto : Int) : Nat × Action :=
  match doFilter fs ⟨none, dst, plen, src, srcPlen, none, ifindex, proto⟩ with
  | some a => (a.addMetric, a)
  | none => (INFINITY, {})

/-- configuration.c:1506-1519 `install_filter`. -/
def installFilter (fs : List Filter) (id : Option Bytes) (dst : Bytes) (plen : Nat) (src : Bytes)
    (srcPlen : Nat) (ifindex : Nat) : Nat × Action :=
  match doFilter fs ⟨id, dst, plen, src, srcPlen, none, ifindex, 0⟩ with
  | some a => (a.addMetric, a)
  | none => (INFINITY, {})

/-! ### Interfaces -/

/-- interface.h:45-65 `struct interface_conf`; `key` points to the key with this identifier. -/
structure IfConf where
  name : Bytes := []
  helloInterval : Nat := 0
  updateInterval : Nat := 0
  cost : Nat := 0
  type : Nat := 0
  splitHorizon : Nat := 0
  lq : Nat := 0
  faraway : Nat := 0
  unicast : Nat := 0
  timestamps : Nat := 0
  rfc6126 : Nat := 0
  acceptBad : Nat := 0
  v4viav6 : Nat := 0
  probeMtu : Nat := 0
  rttDecay : Nat := 0
  rttMin : Nat := 0
  rttMax : Nat := 0
  maxRttPenalty : Nat := 0
  key : Option Bytes := none
deriving DecidableEq, Repr

/-- hmac.c:44-53: a key; the type is 1 for SHA256 and 2 for BLAKE2s. -/
structure KeyDef where
  id : Bytes
  type : Nat
  value : Bytes
deriving DecidableEq, Repr

inductive IKw
  | rxcost | helloInterval | updateInterval | type | wired | faraway | unicast | lq | splitHorizon
  | timestamps | rfc6126 | rttDecay | rttMin | rttMax | maxRttPenalty | key | acceptBad | v4viav6
  | probeMtu
deriving DecidableEq, Repr

def ifWords : List (String × IKw) :=
  [("rxcost", .rxcost), ("hello-interval", .helloInterval), ("update-interval", .updateInterval),
   ("type", .type), ("wired", .wired), ("faraway", .faraway), ("unicast", .unicast),
   ("link-quality", .lq), ("split-horizon", .splitHorizon), ("enable-timestamps", .timestamps),
   ("rfc6126-compatible", .rfc6126), ("rtt-decay", .rttDecay), ("rtt-min", .rttMin),
   ("rtt-max", .rttMax), ("max-rtt-penalty", .maxRttPenalty), ("key", .key),
   ("accept-bad-signatures", .acceptBad), ("v4-via-v6", .v4viav6), ("probe-mtu", .probeMtu)]

/-- configuration.c:568-694: one keyword of an interface configuration. -/
def ifClause (keys : List KeyDef) (i : IfConf) (k : IKw) (inp : Bytes) : Except Fail (IfConf × Bytes) :=
  match k with
  | .rxcost => do
    let (v, r) ← getint inp
    if v ≤ 0 ∨ v > 0xFFFF then throw .bad else return ({ i with cost := v.toNat }, r)
  | .helloInterval => do
    let (v, r) ← getthousands inp
    if v ≤ 0 ∨ v > 10 * 0xFFFF then throw .bad else return ({ i with helloInterval := v }, r)
  | .updateInterval => do
    let (v, r) ← getthousands inp
    if v ≤ 0 ∨ v > 10 * 0xFFFF then throw .bad else return ({ i with updateInterval := v }, r)
  | .type => do
    let (v, r) ← getIfType inp
    return ({ i with type := v }, r)
  | .wired => do
    let (v, r) ← getbool inp
    return ({ i with type := if v = 2 then 1 else 2 }, r)
  | .faraway => do
    let (v, r) ← getbool inp
    return ({ i with faraway := v }, r)
  | .unicast => do
    let (v, r) ← getbool inp
    return ({ i with unicast := v }, r)
  | .lq => do
    let (v, r) ← getbool inp
    return ({ i with lq := v }, r)
  | .splitHorizon => do
    let (v, r) ← getbool inp
    return ({ i with splitHorizon := v }, r)
  | .timestamps => do
    let (v, r) ← getbool inp
    return ({ i with timestamps := v }, r)
  | .rfc6126 => do
    let (v, r) ← getbool inp
    return ({ i with rfc6126 := v }, r)
  | .rttDecay => do
    let (v, r) ← getint inp
    if v ≤ 0 ∨ v > 256 then throw .bad else return ({ i with rttDecay := v.toNat }, r)
  | .rttMin => do
    let (v, r) ← getthousands inp
    if v ≤ 0 then throw .bad else return ({ i with rttMin := v }, r)
  | .rttMax => do
    let (v, r) ← getthousands inp
    if v ≤ 0 then throw .bad else return ({ i with rttMax := v }, r)
  | .maxRttPenalty => do
    let (v, r) ← getint inp
    if v ≤ 0 ∨ v > 0xFFFF then throw .bad else return ({ i with maxRttPenalty := v.toNat }, r)
  | .key => do
    let (id, r) ← getword inp
    if keys.any (·.id == id) then return ({ i with key := some id }, r) else throw .bad
  | .acceptBad => do
    let (v, r) ← getbool inp
    return ({ i with acceptBad := v }, r)
  | .v4viav6 => do
    let (v, r) ← getbool inp
    return ({ i with v4viav6 := v }, r)
  | .probeMtu => do
    let (v, r) ← getbool inp
    return ({ i with probeMtu := v }, r)

/-- configuration.c:558-710 `parse_anonymous_ifconf`.  From the second iteration on, `token` still
points to the keyword freed at the end of the previous one; it is freed again if `getword`
fails. -/
def ifLoop (keys : List KeyDef) : Nat → Bool → IfConf → Bytes → Except Fail (IfConf × Bytes)
  | 0, _, _, _ => .error .stuck
  | fuel + 1, again, i, inp =>
    let inp := skipWs inp
    if atEol inp then .ok (i, skipToEol inp)
    else
      match getword inp with
      | .error _ => .error (if again then .doubleFree else .bad)
      | .ok (w, r) =>
        match keyword ifWords w with
        | none => .error .bad
        | some k => do
          let (i, r) ← ifClause keys i k r
          ifLoop keys fuel true i r

/-- configuration.c:712-743 `parse_ifconf`. -/
def parseIfconf (keys : List KeyDef) (inp : Bytes) : Except Fail (IfConf × Bytes) := do
  let inp := skipWs inp
  if inp.head? = some 10 ∨ inp.head? = some 35 then throw .bad
  else
    let (name, r) ← getstring inp
    ifLoop keys (r.length + 1) false { name := name } r

/-- configuration.c:881-914 `merge_ifconf`. -/
def mergeIfconf (d a b : IfConf) : IfConf :=
  { d with
    helloInterval := if a.helloInterval ≠ 0 then a.helloInterval else b.helloInterval
    updateInterval := if a.updateInterval ≠ 0 then a.updateInterval else b.updateInterval
    cost := if a.cost ≠ 0 then a.cost else b.cost
    type := if a.type ≠ 0 then a.type else b.type
    splitHorizon := if a.splitHorizon ≠ 0 then a.splitHorizon else b.splitHorizon
    lq := if a.lq ≠ 0 then a.lq else b.lq
    faraway := if a.faraway ≠ 0 then a.faraway else b.faraway
    unicast := if a.unicast ≠ 0 then a.unicast else b.unicast
    acceptBad := if a.acceptBad ≠ 0 then a.acceptBad else b.acceptBad
    timestamps := if a.timestamps ≠ 0 then a.timestamps else b.timestamps
    rfc6126 := if a.rfc6126 ≠ 0 then a.rfc6126 else b.rfc6126
    rttDecay := if a.rttDecay ≠ 0 then a.rttDecay else b.rttDecay
    rttMin := if a.rttMin ≠ 0 then a.rttMin else b.rttMin
    rttMax := if a.rttMax ≠ 0 then a.rttMax else b.rttMax
    maxRttPenalty := if a.maxRttPenalty ≠ 0 then a.maxRttPenalty else b.maxRttPenalty
    v4viav6 := if a.v4viav6 ≠ 0 then a.v4viav6 else b.v4viav6
    probeMtu := if a.probeMtu ≠ 0 then a.probeMtu else b.probeMtu
    key := if a.key ≠ none then a.key else b.key }

/-! ### Keys -/

inductive KKw
  | id | type | value
deriving DecidableEq, Repr

def keyWords : List (String × KKw) := [("id", .id), ("type", .type), ("value", .value)]

def authWords : List (String × Nat) := [("none", 0), ("hmac-sha256", 1), ("blake2s128", 2)]

/-- The key being parsed. -/
structure KeyAcc where
  id : Option Bytes := none
  type : Nat := 0
  value : Bytes := []
deriving DecidableEq, Repr

/-- configuration.c:756-799: the loop of `parse_key`. -/
def keyLoop : Nat → KeyAcc → Bytes → Except Fail (KeyAcc × Bytes)
  | 0, _, _ => .error .stuck
  | fuel + 1, k, inp =>
    let inp := skipWs inp
    if atEol inp then .ok (k, skipToEol inp)
    else do
      let (w, r) ← getword inp
      match keyword keyWords w with
      | none => throw .bad
      | some .id =>
        let (id, r) ← getword r
        keyLoop fuel { k with id := some id } r
      | some .type =>
        let (t, r) ← getword r
        match keyword authWords t with
        | none => throw .bad
        | some t => keyLoop fuel { k with type := t } r
      | some .value =>
        let (v, r) ← gethex r
        keyLoop fuel { k with value := v } r

/-- configuration.c:745-844 `parse_key`. -/
def parseKey (inp : Bytes) : Except Fail (KeyDef × Bytes) := do
  let (k, r) ← keyLoop (inp.length + 1) {} inp
  match k.id with
  | none => throw .bad
  | some id =>
    if k.type = 1 then
      if k.value.length > 64 then throw .bad
      else return (⟨id, 1, k.value ++ List.replicate (64 - k.value.length) 0⟩, r)
    else if k.type = 2 then
      if k.value.length < 1 ∨ k.value.length > 32 then throw .bad
      else return (⟨id, 2, k.value⟩, r)
    else throw .bad

/-- hmac.c:70-107 `add_key`. -/
def addKey (ks : List KeyDef) (k : KeyDef) : List KeyDef :=
  if ks.any (·.id == k.id) then ks.map fun x => if x.id == k.id then k else x
  else ks ++ [k]

/-! ### Options -/

/-- The global variables set by `parse_option`; the defaults are those of babeld.c:60-100 and
kernel_netlink.c:81 (-1 for "not set"). -/
structure Opts where
  protocolPort : Nat := 6696
  kernelMetric : Int := 0
  allowDuplicates : Int := -1
  localPort : Int := -1
  localPath : Option Bytes := none
  localWrite : Bool := false
  exportTable : Int := -1
  importTables : List Nat := []
  kernelCheckInterval : Nat := 300
  shutdownDelay : Int := -1
  linkDetect : Bool := false
  randomId : Bool := false
  daemonise : Bool := false
  skipKernelSetup : Bool := false
  subtrees : Bool := false
  reflect : Bool := false
  group : Bytes := []
  stateFile : Bytes := []
  logFile : Option Bytes := none
  pidFile : Bytes := []
  debug : Nat := 0
  halfLife : Nat := 4
  routerId : Option Bytes := none
deriving DecidableEq, Repr

inductive OKw
  | protocolPort | kernelPriority | allowDuplicates | localPort | localPortRw | exportTable
  | importTable | kernelCheckInterval | shutdownDelay | linkDetect | randomId | daemonise
  | skipKernelSetup | subtrees | reflect | group | stateFile | logFile | pidFile | localPath
  | localPathRw | debug | halfLife | routerId
deriving DecidableEq, Repr

def optionWords : List (String × OKw) :=
  [("protocol-port", .protocolPort), ("kernel-priority", .kernelPriority),
   ("allow-duplicates", .allowDuplicates), ("local-port", .localPort),
   ("local-port-readwrite", .localPortRw), ("export-table", .exportTable),
   ("import-table", .importTable), ("kernel-check-interval", .kernelCheckInterval),
   ("shutdown-delay-ms", .shutdownDelay), ("link-detect", .linkDetect), ("random-id", .randomId),
   ("daemonise", .daemonise), ("skip-kernel-setup", .skipKernelSetup), ("ipv6-subtrees", .subtrees),
   ("reflect-kernel-metric", .reflect), ("protocol-group", .group), ("state-file", .stateFile),
   ("log-file", .logFile), ("pid-file", .pidFile), ("local-path", .localPath),
   ("local-path-readwrite", .localPathRw), ("debug", .debug), ("smoothing-half-life", .halfLife),
   ("router-id", .routerId)]

/-- configuration.c:990-994: a number between 1 and 65534. -/
def getport (inp : Bytes) : Except Fail (Nat × Bytes) := do
  let (v, r) ← getint inp
  if v ≤ 0 ∨ v ≥ 0xFFFF then throw .bad else return (v.toNat, r)

/-- configuration.c:1027-1030. -/
def getyes (inp : Bytes) : Except Fail (Bool × Bytes) := do
  let (v, r) ← getbool inp
  return (v == 2, r)

/-- configuration.c:979-1099: the value of an option. -/
def optionValue (L : Libc) (o : Opts) (k : OKw) (inp : Bytes) : Except Fail (Opts × Bytes) :=
  match k with
  | .protocolPort => do let (v, r) ← getport inp; return ({ o with protocolPort := v }, r)
  | .kernelPriority => do let (v, r) ← getport inp; return ({ o with kernelMetric := v }, r)
  | .allowDuplicates => do let (v, r) ← getport inp; return ({ o with allowDuplicates := v }, r)
  | .localPort => do
    let (v, r) ← getport inp
    return ({ o with localPort := v, localPath := none, localWrite := false }, r)
  | .localPortRw => do
    let (v, r) ← getport inp
    return ({ o with localPort := v, localPath := none, localWrite := true }, r)
  | .exportTable => do let (v, r) ← getport inp; return ({ o with exportTable := v }, r)
  | .importTable => do
    let (v, r) ← getport inp
    return ({ o with importTables := if o.importTables.length > 9 then o.importTables else o.importTables ++ [v] }, r)
  | .kernelCheckInterval => do let (v, r) ← getport inp; return ({ o with kernelCheckInterval := v }, r)
  | .shutdownDelay => do let (v, r) ← getport inp; return ({ o with shutdownDelay := v }, r)
  | .linkDetect => do let (v, r) ← getyes inp; return ({ o with linkDetect := v }, r)
  | .randomId => do let (v, r) ← getyes inp; return ({ o with randomId := v }, r)
  | .daemonise => do let (v, r) ← getyes inp; return ({ o with daemonise := v }, r)
  | .skipKernelSetup => do let (v, r) ← getyes inp; return ({ o with skipKernelSetup := v }, r)
  | .subtrees => do let (v, r) ← getyes inp; return ({ o with subtrees := v }, r)
  | .reflect => do let (v, r) ← getyes inp; return ({ o with reflect := v }, r)
  | .group => do let ((a, _), r) ← getip L inp; return ({ o with group := a }, r)
  | .stateFile => do let (v, r) ← getstring inp; return ({ o with stateFile := v }, r)
  | .logFile => do let (v, r) ← getstring inp; return ({ o with logFile := some v }, r)
  | .pidFile => do let (v, r) ← getstring inp; return ({ o with pidFile := v }, r)
  | .localPath => do
    let (v, r) ← getstring inp
    return ({ o with localPort := -1, localPath := some v, localWrite := false }, r)
  | .localPathRw => do
    let (v, r) ← getstring inp
    return ({ o with localPort := -1, localPath := some v, localWrite := true }, r)
  | .debug => do
    let (v, r) ← getint inp
    if v < 0 then throw .bad else return ({ o with debug := v.toNat }, r)
  | .halfLife => do
    let (v, r) ← getint inp
    if v < 0 then throw .bad else return ({ o with halfLife := v.toNat }, r)
  | .routerId => do let (v, r) ← getid L inp; return ({ o with routerId := some v }, r)

/-- configuration.c:968-1107 `parse_option`.  The option is set even if the rest of the line is
wrong. -/
def parseOption (L : Libc) (final : Bool) (o : Opts) (token : Bytes) (inp : Bytes) :
    Opts × Except Fail Bytes :=
  match keyword optionWords token with
  | none => (o, .error .bad)
  | some k =>
    if final ∧ k ≠ .linkDetect ∧ k ≠ .logFile ∧ k ≠ .halfLife then (o, .error .bad)
    else
      match optionValue L o k inp with
      | .error e => (o, .error e)
      | .ok (o, r) => (o, skipEol r)

/-! ### The whole configuration -/

/-- What `ifp->conf` points to: a structure of its own, the entry of `interface_confs` with the
interface's name, `default_interface_conf`, or nothing. -/
inductive ConfRef
  | own (i : IfConf) | entry | default | none
deriving DecidableEq, Repr

/-- The state of configuration.c, and the list of interfaces with their configuration. -/
structure Conf where
  input : List Filter := []
  output : List Filter := []
  redist : List Filter := []
  install : List Filter := []
  defaults : Option IfConf := none
  ifconfs : List IfConf := []
  keys : List KeyDef := []
  opts : Opts := {}
  final : Bool := false
  ifs : List (Bytes × ConfRef) := []
deriving DecidableEq, Repr

/-- interface.c:66-99 `add_interface`, without the message to monitors and the sequence number.
The name is not truncated. -/
def addInterface (s : Conf) (name : Bytes) (ref : ConfRef) : Conf :=
  if s.ifs.any (·.1 == name) then s else { s with ifs := s.ifs ++ [(name, ref)] }

/-- configuration.c:916-944 `add_ifconf`. -/
def addIfconf (s : Conf) (i : IfConf) : Conf :=
  let confs :=
    if s.ifconfs.any (·.name == i.name) then
      s.ifconfs.map fun x => if x.name == i.name then mergeIfconf x i x else x
    else s.ifconfs ++ [i]
  let s := { s with ifconfs := confs }
  if s.final then addInterface s i.name .entry else s

/-- interface.c:101-131 `flush_interface` with configuration.c:946-966 `flush_ifconf`; the
consequences for routes and neighbours are in Model/Node. -/
def flushInterface (s : Conf) (name : Bytes) : Conf × Bool :=
  match s.ifs.find? (·.1 == name) with
  | none => (s, false)
  | some (_, ref) =>
    let s := { s with ifs := s.ifs.eraseP (·.1 == name) }
    (if ref = .entry then { s with ifconfs := s.ifconfs.eraseP (·.name == name) } else s, true)

/-- configuration.h:25-30: the result of a line; `no` with its message (there is no way to obtain
"Couldn't flush interface"). -/
inductive LineAct
  | done | quit | dump | monitor | unmonitor | noSuchInterface
deriving DecidableEq, Repr

inductive LKw
  | quit | dump | monitor | unmonitor | inp | out | redistribute | install | interface | default
  | flush | reopen | key
deriving DecidableEq, Repr

def lineWords : List (String × LKw) :=
  [("quit", .quit), ("dump", .dump), ("monitor", .monitor), ("unmonitor", .unmonitor), ("in", .inp),
   ("out", .out), ("redistribute", .redistribute), ("install", .install), ("interface", .interface),
   ("default", .default), ("flush", .flush), ("reopen-logfile", .reopen), ("key", .key)]

/-- configuration.c:1125-1144: a line that only has an action. -/
def actionLine (hasAction : Bool) (a : LineAct) (inp : Bytes) : Except Fail (LineAct × Bytes) :=
  match skipEol inp with
  | .error e => .error e
  | .ok r => if hasAction then .ok (a, r) else .error .bad

/-- configuration.c:1162-1196: a filter. -/
def filterLine (L : Libc) (s : Conf) (add : Conf → Filter → Conf) (inp : Bytes) :
    Conf × Except Fail (LineAct × Bytes) :=
  if s.final then (s, .error .bad)
  else
    match parseFilter L inp with
    | .error e => (s, .error e)
    | .ok (f, r) => (add s f, .ok (.done, r))

/-- configuration.c:1216-1251: `flush interface`. -/
def flushLine (s : Conf) (inp : Bytes) : Conf × Except Fail (LineAct × Bytes) :=
  match getword inp with
  | .error e => (s, .error e)
  | .ok (w, r) =>
    if w = ascii "interface" then
      match getword r with
      | .error e => (s, .error e)
      | .ok (name, r) =>
        match skipEol r with
        | .error e => (s, .error e)
        | .ok r =>
          let (s, found) := flushInterface s name
          (s, .ok (if found then .done else .noSuchInterface, r))
    else (s, .error .bad)

/-- configuration.c:1109-1277 `parse_config_line`; `hasAction` is `action_return != NULL`. -/
def parseLine (L : Libc) (hasAction : Bool) (s : Conf) (inp : Bytes) : Conf × Except Fail (LineAct × Bytes) :=
  let inp := skipWs inp
  if atEol inp then (s, .ok (.done, skipToEol inp))
  else
    match getword inp with
    | .error e => (s, .error e)
    | .ok (token, r) =>
      match keyword lineWords token with
      | some .quit => (s, actionLine hasAction .quit r)
      | some .dump => (s, actionLine hasAction .dump r)
      | some .monitor => (s, actionLine hasAction .monitor r)
      | some .unmonitor => (s, actionLine hasAction .unmonitor r)
      | k =>
        if s.final ∧ ¬ s.opts.localWrite then (s, .error .bad)
        else
          match k with
          | some .inp => filterLine L s (fun s f => { s with input := s.input ++ [f] }) r
          | some .out => filterLine L s (fun s f => { s with output := s.output ++ [f] }) r
          | some .redistribute => filterLine L s (fun s f => { s with redist := s.redist ++ [f] }) r
          | some .install => filterLine L s (fun s f => { s with install := s.install ++ [f] }) r
          | some .interface =>
            match parseIfconf s.keys r with
            | .error e => (s, .error e)
            | .ok (i, r) => (addIfconf s i, .ok (.done, r))
          | some .default =>
            match ifLoop s.keys (r.length + 1) false {} r with
            | .error e => (s, .error e)
            | .ok (i, r) =>
              let d := match s.defaults with
                | none => i
                | some d => mergeIfconf d i d
              ({ s with defaults := some d }, .ok (.done, r))
          | some .flush => flushLine s r
          | some .reopen => (s, actionLine hasAction .done r)
          | some .key =>
            match parseKey r with
            | .error e => (s, .error e)
            | .ok (k, r) => ({ s with keys := addKey s.keys k }, .ok (.done, r))
          | _ =>
            let (o, res) := parseOption L s.final s.opts token r
            ({ s with opts := o }, res.map fun r => (.done, r))

/-- configuration.c:1310-1322: the loop of `parse_config_from_file`. -/
def fileLoop (L : Libc) : Nat → Conf → Bytes → Conf × Except Fail Unit
  | 0, s, _ => (s, .error .stuck)
  | fuel + 1, s, inp =>
    match parseLine L false s inp with
    | (s, .error e) => (s, .error e)
    | (s, .ok (_, r)) => if r.isEmpty then (s, .ok ()) else fileLoop L fuel s r

/-- configuration.c:1294-1326 `parse_config_from_file`. -/
def parseFile (L : Libc) (s : Conf) (text : Bytes) : Conf × Except Fail Unit :=
  if text.isEmpty then (s, .ok ()) else fileLoop L (text.length + 1) s text

/-- babeld.c:298-308: the configuration files given with `-c`; the first error is fatal. -/
def parseFiles (L : Libc) (s : Conf) : List Bytes → Conf × Except Fail Unit
  | [] => (s, .ok ())
  | t :: ts =>
    match parseFile L s t with
    | (s, .error e) => (s, .error e)
    | (s, .ok ()) => parseFiles L s ts

/-- configuration.c:1338-1355 `parse_config_from_string`; -1 is `.bad`. -/
def parseString (L : Libc) (s : Conf) (text : Bytes) : Conf × Except Fail LineAct :=
  if text.isEmpty then (s, .error .bad)
  else
    match parseLine L true s text with
    | (s, .error e) => (s, .error e)
    | (s, .ok (a, r)) => (s, if r.isEmpty then .ok a else .error .bad)

/-- configuration.c:1357-1364 `renumber_filter`. -/
def Filter.renumber (L : Libc) (f : Filter) : Filter :=
  match f.ifname with
  | some n => { f with ifindex := L.ifindex n }
  | none => f

/-- configuration.c:1366-1372 `renumber_filters`. -/
def renumberFilters (L : Libc) (s : Conf) : Conf :=
  { s with
    input := s.input.map (Filter.renumber L)
    output := s.output.map (Filter.renumber L)
    redist := s.redist.map (Filter.renumber L)
    install := s.install.map (Filter.renumber L) }

/-- configuration.c:1544-1546: the interface takes the values of `default` it does not set. -/
def mergedConf (s : Conf) (i : IfConf) : IfConf :=
  match s.defaults with
  | some d => mergeIfconf i i d
  | none => i

/-- configuration.c:1521-1560 `finalise_config`. -/
def finalise (s : Conf) : Conf :=
  let s : Conf := { s with
    redist := s.redist ++ [{ proto := RTPROT_BABEL_LOCAL }]
    install := s.install ++ [{}] }
  let confs : List IfConf := s.ifconfs.map (mergedConf s)
  let s := confs.foldl (fun s i => addInterface s i.name (.own i)) s
  { s with ifconfs := [], final := true }

/-- babeld.c:433-442: interfaces given on the command line. -/
def addNamed (s : Conf) (names : List Bytes) : Conf :=
  names.foldl (fun s n => addInterface s n (if s.defaults.isSome then .default else .none)) s

/-- The configuration of an interface, `IF_CONF` (interface.h:156). -/
def Conf.ifConf (s : Conf) (name : Bytes) : Option IfConf :=
  match s.ifs.find? (·.1 == name) with
  | some (_, .own i) => some i
  | some (_, .entry) => s.ifconfs.find? (·.name == name)
  | some (_, .default) => s.defaults
  | _ => none

end Babel
