F="Model/Config.lean"
def d(defn,old,new,claim,**k): return dict(file=F,**{"def":defn},old=old,new=new,claim=claim,**k)
SEEDS=[
 d("isWs","c == 32 || c == 9 || c == 13","c == 32 || c == 9","C51 carriage returns are white space"),
 d("skipToEol","(inp.dropWhile (· != 10)).drop 1","inp.dropWhile (· != 10)","C51 the end of the line is consumed"),
 d("atEol","c == 10 || c == 35","c == 10","C51 comments"),
 d("skipEol","if atEol inp then .ok (skipToEol inp) else .error .bad","if atEol inp then .ok inp else .error .bad","C51 comments after an option"),
 d("wordChar","c == 10 || c == 35","c == 10","C51 a comment ends a word"),
 d("getword","w.length > 255","w.length > 15","C51 words of up to 255 characters"),
 d("getword",".ok (cstr w, rest.dropWhile wordChar)",".ok (cstr w, (rest.dropWhile wordChar).drop 1)","C51 the end of the line is not part of the word"),
 d("quoted","if i ≥ 255 || c == 10","if i ≥ 255","C51 quoted strings end with the line"),
 d("quoted","if i ≥ 255 ||","if i ≥ 10 ||","C51 quoted strings of up to 254 characters"),
 d("quoted","return (d :: w, r)","return (c :: d :: w, r)","C51 escapes in quoted strings"),
 d("getstring","quoted 0 (inp.drop 1)","quoted 0 inp","C51 the opening quote"),
 d("digitOf","some (n - 97 + 10)","some (n - 97 + 11)","C51 hexadecimal numbers"),
 d("digitOf","some (n - 65 + 10)","some (n - 65 + 11)","C51 hexadecimal numbers in upper case"),
 d("strtolMag","| 48 :: _ => digitsOf 8 0 0 s","| 48 :: _ => digitsOf 10 0 0 s","C51 octal numbers"),
 d("strtolMag","(x == 120 || x == 88)","(x == 120)","C51 0X"),
 d("signOf","| 45 :: t => (true, t)","| 45 :: t => (false, t)","C43 negative numbers"),
 d("strtol","else if rest.isEmpty then","else if true then","C51 text after a number"),
 d("getthousands","if i < 0 then throw","if i ≤ 0 then throw","C51 zero"),
 d("boolWords","(\"false\", 1)","(\"false\", 2)","C51 booleans"),
 d("boolWords","(\"auto\", 0)","(\"auto\", 1)","C44 auto leaves the value to the default lines"),
 d("parseAddress","some (v4tov6 a, .v4)","some (v4tov6 a, .v6)","C41 family of an address"),
 d("parseNet","normalizePrefix a 128, 128, af","normalizePrefix a 128, 96, af","C41 an address without length"),
 d("parseNet","plen < 0 ∨ plen > 32","plen < 0 ∨ plen > 128","C41 length of IPv4 prefixes"),
 d("parseNet","plen < 0 ∨ plen > 128","plen < 0 ∨ plen ≥ 128","C41 /128 is a prefix"),
 d("parseNet","normalizePrefix (v4tov6 a) (plen.toNat + 96), plen.toNat + 96","normalizePrefix (v4tov6 a) (plen.toNat + 96), plen.toNat","C41 length of IPv4 prefixes"),
 d("parseNet","some (normalizePrefix a plen.toNat, plen.toNat, .v6)","some (a, plen.toNat, .v6)","C41 prefixes with bits set after their length", equiv="only the first bits of a prefix are ever looked at when matching; but src-prefix of the action sees them"),
 d("typeWords","(\"wireless\", 2)","(\"wireless\", 3)","C51 interface types"),
 d("Filter.setAf","if a = af then .ok f else .error .bad",".ok { f with af := some af }","C41 rules mixing families are rejected"),
 d("filterClause","plenGe := uchar (max f.plenGe p), plenLe := uchar (min f.plenLe p) }","plenGe := uchar (max f.plenGe p) }","C43 eq is an upper bound as well"),
 d("filterClause","{ f with plenLe := uchar (min f.plenLe p) }","{ f with plenLe := uchar p }","C43 two le: both must hold"),
 d("filterClause","{ f with plenGe := uchar (max f.plenGe p) }","{ f with plenGe := uchar (min f.plenGe p) }","C43 ge"),
 d("filterClause","{ f with srcLe := uchar (min f.srcLe p) }","{ f with plenLe := uchar (min f.plenLe p) }","C41 src-le"),
 d("filterClause","{ f with src := some (p, plen) }.setAf af","{ f with dst := some (p, plen) }.setAf af","C41 src-ip"),
 d("filterClause","{ f with id := some a }","f","C41 id"),
 d("filterClause","ifname := some n, ifindex := L.ifindex n","ifname := some n","C41 interface index"),
 d("filterClause","addMetric := INFINITY } }, inp)","addMetric := 0 } }, inp)","C41 deny"),
 d("filterClause","m ≤ 0 ∨ m > INFINITY","m ≤ 0 ∨ m ≥ INFINITY","C41 metric 65535 is accepted"),
 d("filterClause","if m ≤ 0 ∨ m > INFINITY then throw .bad\n    else","","C51 metrics out of range are rejected"),
 d("filterClause","action := { f.action with table := t.toNat }","action := { f.action with addMetric := t.toNat }","C41 table"),
 d("filterClause","{ f with action := { f.action with src := some (p, plen) } }.setAf af","({ f with action := { f.action with src := some (p, plen) } } : Filter).setAf .v6","C41 family of src-prefix"),
 d("finishFilter","if f.plenLe < 128 ∨ f.plenGe > 0 ∨ f.srcLe < 128 ∨ f.srcGe > 0 then","if f.plenLe < 128 ∨ f.plenGe > 0 then","C41 family of rules with src-le only"),
 d("finishFilter","plenLe := if f.plenLe < 128 then uchar (f.plenLe + 96) else f.plenLe","plenLe := f.plenLe","C43 IPv4 lengths"),
 d("finishFilter","srcGe := if f.srcGe > 0 then uchar (f.srcGe + 96) else f.srcGe","srcGe := f.srcGe","C43 IPv4 source lengths"),
 d("filterLoop","if atEol inp then .ok (f, skipToEol inp)","if atEol inp then .ok (f, inp)","C51 the end of a rule"),
 d("filterLoop","| none => throw .bad","| none => filterLoop L fuel f r","C51 unknown words are rejected"),
 d("filterMatch","f.af = some .v6 else f.af = some .v4","f.af = some .v4 else f.af = some .v6","C41 family"),
 d("filterMatch","q.plen < n || !inPrefix q.dst p n","!inPrefix q.dst p n","C41 shorter prefixes do not match"),
 d("filterMatch","q.srcPlen < n || !inPrefix q.src p n","q.srcPlen < n || !inPrefix q.dst p n","C41 source prefix"),
 d("filterMatch","q.plen > f.plenLe ∨ q.plen < f.plenGe","q.plen ≥ f.plenLe ∨ q.plen < f.plenGe","C43 le is inclusive"),
 d("filterMatch","q.srcPlen > f.srcLe ∨ q.srcPlen < f.srcGe","q.srcPlen > f.srcLe ∨ q.srcPlen ≤ f.srcGe","C41 src-ge is inclusive"),
 d("filterMatch","f.ifindex = 0 ∨ q.ifindex = 0 ∨ f.ifindex ≠ q.ifindex","f.ifindex ≠ q.ifindex","C41 interfaces that do not exist do not match"),
 d("filterMatch","f.neigh ≠ none ∧ q.neigh ≠ f.neigh","f.neigh ≠ none ∧ q.neigh ≠ none ∧ q.neigh ≠ f.neigh","C41 neigh"),
 d("filterMatch","else if q.proto = 3 then false","","C41 boot routes are not redistributed by default"),
 d("filterMatch","else if q.proto = RTPROT_BABEL_LOCAL then false","","C41 local routes are only matched by local"),
 d("doFilter","if filterMatch f q then some f.action else doFilter fs q","(doFilter fs q).orElse fun _ => if filterMatch f q then some f.action else none","C41 the first rule wins"),
 d("inputFilter","| none => 0","| none => INFINITY","C41 default of in"),
 d("outputFilter","| none => 0","| none => INFINITY","C41 default of out"),
 d("outputFilter","srcPlen, none, ifindex, 0","srcPlen, none, 0, 0","C41 out rules with an interface"),
 d("redistributeFilter","| none => (INFINITY, {})","| none => (0, {})","C41 default of redistribute"),
 d("installFilter","⟨id, dst","⟨none, dst","C41 install rules with an id"),
 d("ifClause","if v ≤ 0 ∨ v > 0xFFFF then throw .bad else return ({ i with cost := v.toNat }, r)","if v ≤ 0 ∨ v ≥ 0xFFFF then throw .bad else return ({ i with cost := v.toNat }, r)","C51 rxcost 65535 is accepted"),
 d("ifClause","if v ≤ 0 ∨ v > 0xFFFF then throw .bad else return ({ i with cost := v.toNat }, r)","return ({ i with cost := v.toNat }, r)","C51 costs out of range are rejected"),
 d("ifClause","{ i with updateInterval := v }","{ i with helloInterval := v }","C44 update-interval"),
 d("ifClause","if v = 2 then 1 else 2","if v = 2 then 2 else 1","C44 wired"),
 d("ifClause","{ i with timestamps := v }","{ i with rfc6126 := v }","C44 enable-timestamps"),
 d("ifClause","if keys.any (·.id == id) then return ({ i with key := some id }, r) else throw .bad","return ({ i with key := some id }, r)","C51 keys must be defined"),
 d("ifWords","(\"rtt-min\", .rttMin)","(\"rtt-min\", .rttMax)","C44 rtt-min"),
 d("ifLoop","| .error _ => .error (if again then .doubleFree else .bad)","| .error _ => .error .bad","C51 counterexample: double free"),
 d("parseIfconf","{ name := name }","{}","C44 name of the interface"),
 d("mergeIfconf","rfc6126 := if a.rfc6126 ≠ 0 then a.rfc6126 else b.rfc6126\n","","C44 merging"),
 d("mergeIfconf","faraway := if a.faraway ≠ 0 then a.faraway else b.faraway","faraway := if b.faraway ≠ 0 then b.faraway else a.faraway","C44 merging"),
 d("keyLoop","{ k with value := v }","{ k with value := k.value ++ v }","C51 the last value of a key counts"),
 d("parseKey","k.value ++ List.replicate (64 - k.value.length) 0","k.value","C51 padding of SHA256 keys"),
 d("parseKey","k.value.length < 1 ∨ k.value.length > 32","k.value.length > 32","C51 empty BLAKE2s keys are rejected"),
 d("parseKey","k.value.length > 64","k.value.length > 32","C51 SHA256 keys of up to 64 bytes"),
 d("addKey","if x.id == k.id then k else x","x","C51 the last definition of a key counts"),
 d("getport","v ≤ 0 ∨ v ≥ 0xFFFF","v ≤ 0 ∨ v > 0x7FFF","C51 ports"),
 d("getport","v ≤ 0 ∨ v ≥ 0xFFFF","v < 0 ∨ v ≥ 0xFFFF","C51 port 0 is rejected"),
 d("optionValue","localPath := none, localWrite := true","localPath := none, localWrite := false","C51 local-port-readwrite"),
 d("optionValue","localPath := some v, localWrite := false","localPath := some v, localWrite := true","C51 local-path"),
 d("optionValue","o.importTables.length > 9","o.importTables.length > 8","C51 ten import tables"),
 d("optionValue","{ o with kernelMetric := v }","{ o with exportTable := v }","C51 kernel-priority"),
 d("parseOption","if final ∧ k ≠ .linkDetect ∧ k ≠ .logFile ∧ k ≠ .halfLife then","if final ∧ k ≠ .linkDetect ∧ k ≠ .logFile ∧ k ≠ .halfLife ∧ k ≠ .localPortRw then","C52 options that can be set at run time"),
 d("parseOption","if final ∧ k ≠ .linkDetect ∧ k ≠ .logFile ∧ k ≠ .halfLife then (o, .error .bad)\n    else","","C52 options that can be set at run time"),
 d("addInterface","if s.ifs.any (·.1 == name) then s else","","C44 an interface named twice"),
 d("addIfconf","mergeIfconf x i x","mergeIfconf x x i","C44 the last line about an interface counts"),
 d("addIfconf","if s.final then addInterface s i.name .entry else s","s","C44 interfaces created at run time"),
 d("flushInterface","if ref = .entry then { s with ifconfs := s.ifconfs.eraseP (·.name == name) } else s","s","C44 values of a flushed interface do not survive"),
 d("flushInterface","s.ifs.eraseP (·.1 == name)","s.ifs.filter (·.1 == name)","C52 only that interface is flushed"),
 d("actionLine","if hasAction then .ok (a, r) else .error .bad",".ok (a, r)","C51 commands in configuration files are rejected"),
 d("filterLine","if s.final then (s, .error .bad)\n  else","","C52 filters do not change at run time"),
 d("flushLine","if found then .done else .noSuchInterface",".done","C52 flushing an unknown interface"),
 d("parseLine","if s.final ∧ ¬ s.opts.localWrite then (s, .error .bad)\n        else","","C52 read-only connections"),
 d("parseLine","if s.final ∧ ¬ s.opts.localWrite then (s, .error .bad)","if s.final ∧ s.opts.localWrite then (s, .error .bad)","C52 read-only connections"),
 d("parseLine","output := s.output ++ [f]","output := f :: s.output","C41 order of rules"),
 d("parseLine","redist := s.redist ++ [f]","install := s.install ++ [f]","C41 redistribute rules"),
 d("parseLine","| some d => mergeIfconf d i d","| some d => i","C44 several default lines"),
 d("parseLine","addKey s.keys k","s.keys ++ [k]","C51 the last definition of a key counts"),
 d("parseFiles","| (s, .ok ()) => parseFiles L s ts","| (s, .ok ()) => (s, .ok ())","C51 several files"),
 d("parseString","if r.isEmpty then .ok a else .error .bad",".ok a","C51 one line per command"),
 d("Filter.renumber","{ f with ifindex := L.ifindex n }","f","C41 interface indices that change"),
 d("renumberFilters","install := s.install.map (Filter.renumber L)","install := s.install","C41 interface indices that change"),
 d("mergedConf","mergeIfconf i i d","mergeIfconf i d i","C44 own values come first"),
 d("finalise","s.redist ++ [{ proto := RTPROT_BABEL_LOCAL }]","s.redist","C41 default of redistribute"),
 d("finalise","s.install ++ [{}]","s.install","C41 default of install"),
 d("finalise","ifconfs := [], final := true","ifconfs := []","C52 the configuration is closed after start-up"),
 d("addNamed","if s.defaults.isSome then .default else .none",".none","C44 default lines apply to interfaces of the command line"),
]
