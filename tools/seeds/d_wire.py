F="Model/Wire.lean"
def d(defn,old,new,claim): return dict(file=F,**{"def":defn},old=old,new=new,claim=claim)
SEEDS=[
 d("knownAe","ae ≤ 3 || ae == 4","ae ≤ 3","C50 v4-via-v6 updates are understood"),
 d("rd16","return 256 * a + b","return a + 256 * b","C50 network byte order"),
 d("rd32","return 65536 * a + b","return 256 * a + b","C50 timestamps"),
 d("prefixBytes","some l => (l + 7) / 8","some l => l / 8","C08 partial byte of a prefix"),
 d("normLen","if aeIsV4 ae then l + 96 else l","l","C08 IPv4 prefixes are mapped"),
 d("v4Base","if v4mapped d then some (d.take (12 + omitted)) else none","some (d.take (12 + omitted))","C08 default prefix of the wrong family"),
 d("v4Base","(d.take (12 + omitted))","(d.take omitted)","C08 omitted bytes of IPv4"),
 d("v6Base","if v4mapped d then none else some (d.take omitted)","some (d.take omitted)","C08 default prefix of the wrong family"),
 d("networkPrefix","if pb > 16 then some none","if pb > 17 then some none","C08 prefix longer than 128"),
 d("networkPrefix","if omitted > 4 ∨ pb > 4 ∨","if omitted > 4 ∨","C08 IPv4 prefix longer than 32"),
 d("networkPrefix","(pb > omitted ∧ len < pb - omitted) then some none\n    else\n      match v4Base","(pb > omitted ∧ len + 1 < pb - omitted) then some none\n    else\n      match v4Base","C07 one byte beyond the TLV"),
 d("networkPrefix","if omitted > 16 ∨ (pb > omitted ∧ len < pb - omitted) then some none","if omitted > 16 then some none","C07 read beyond the packet"),
 d("networkPrefix","if pb < omitted then return none\n        else return some (pb - omitted, normalizePrefix (padPrefix (base ++ tail)) (normLen ae plen))\n  else if ae = 2","return some (pb - omitted, normalizePrefix (padPrefix (base ++ tail)) (normLen ae plen))\n  else if ae = 2","C08 more bytes omitted than there are"),
 d("networkPrefix","if pb > 8 ∧ len < pb - 8 then some none","if pb > 8 ∧ len < pb then some none","C08 link-local prefixes"),
 d("networkPrefix","some (pb - 8, normalizePrefix","some (pb, normalizePrefix","C08 bytes used by a link-local prefix"),
 d("networkAddress","networkPrefix ae none 0 a none len","networkPrefix ae (some 128) 0 a none len","C08 IPv4 addresses"),
 d("subTlvs","else if 2 > alen then return none\n      else\n        let len ← rd a 1\n        if (len : Int) + 2 > alen then return none","else\n        let len ← rd a 1\n        if (len : Int) + 2 > alen then return none","C07 length of a truncated sub-TLV"),
 d("subTlvs","if (len : Int) + 2 > alen then return none","if (len : Int) > alen then return none","C07 truncated sub-TLV body"),
 d("subTlvs","if (len : Int) + 2 > alen then return none","if (len : Int) + 2 > alen then return some s","C09 truncated sub-TLV makes the TLV bad"),
 d("subTlvs","subTlvs f fuel (a.drop (len + 2)) (alen - (len + 2)) s","subTlvs f fuel (a.drop (len + 1)) (alen - (len + 1)) s","C50 position of the next sub-TLV"),
 d("unknownSub","if ty &&& 0x80 ≠ 0 then some none else some (some s)","some (some s)","C09 unknown mandatory sub-TLV"),
 d("unknownSub","if ty &&& 0x80 ≠ 0 then some none else some (some s)","some none","C09 unknown optional sub-TLV"),
 d("defaultSrc","(v4tov6 zeroes16, 96)","(v4tov6 zeroes16, 0)","C50 source prefix of IPv4"),
 d("realLen","(l + if aeIsV4 ae then 96 else 0) % 256","l % 256","C50 length of IPv4 prefixes"),
 d("PState.defaultPrefix","else if ae = 4 then s.v4v6Prefix","else if ae = 4 then s.v4Prefix","C50 default prefix per address encoding"),
 d("PState.setDefault","else if ae = 4 then { s with v4v6Prefix := some p }","else if ae = 4 then { s with v4Prefix := some p }","C50 default prefix per address encoding"),
 d("PState.noDefaults","v4Prefix := none, v6Prefix := none, v4v6Prefix := none","v4Prefix := none, v6Prefix := none","C50 unusable default prefix is forgotten"),
 d("idOfPrefix","if aeIsV4 ae then [0, 0, 0, 0] ++ (p.drop 12).take 4 else (p.drop 8).take 8","(p.drop 8).take 8","C50 router-id of an IPv4 prefix"),
 d("nextHop","| none => if metric < INFINITY then none else some none","| none => none","C50 retraction without next hop"),
 d("nextHop","| none => if metric < INFINITY then none else some none","| none => some none","C50 IPv4 update without next hop"),
 d("nextHop","| none => some (some e.sender)","| none => none","C50 default next hop"),
 d("nextHop","if ae = 1 then\n    match s.v4Nh","if aeIsV4 ae then\n    match s.v4Nh","C50 next hop of v4-via-v6"),
 d("tlvAckReq","if len < 6 then some (s, [])","if len < 4 then some (s, [])","C07 short acknowledgment request"),
 d("tlvAckReq","let interval ← rd16 m 6","let interval ← rd16 m 4","C50 interval of acknowledgment request"),
 d("tlvHello",".hello (f &&& 0x80 != 0) seqno interval ts",".hello (f &&& 0x40 != 0) seqno interval ts","C50 unicast flag"),
 d("tlvHello","haveHelloRtt := s.haveHelloRtt || ts.isSome","haveHelloRtt := ts.isSome","C50 timestamp seen in the packet"),
 d("tlvIhu","if ae = 0 || e.isOurs addr then","if e.isOurs addr then","C50 IHU without address"),
 d("tlvIhu","if ae = 0 || e.isOurs addr then","if true then","C50 IHU for someone else"),
 d("tlvIhu","(m.drop (8 + rc)) ((len : Int) - 6 - rc)","(m.drop 8) ((len : Int) - 6)","C50 sub-TLVs of IHU"),
 d("tlvRouterId","if len < 10 then some ({ s with routerId := none }, [])","if len < 10 then some (s, [])","C50 malformed router-id forgets the previous one"),
 d("tlvRouterId","let id ← rdN (m.drop 4) 8","let id ← rdN (m.drop 2) 8","C50 router-id"),
 d("tlvNh","if ae = 1 then\n          let _ ←","if aeIsV4 ae then\n          let _ ←","C50 next hop family (equivalent: AE 4 is not an address)"),
 d("tlvNh","return ({ s with v6Nh := some nh }, [])","return ({ s with v4Nh := some nh }, [])","C50 next hop family"),
 d("tlvNh","else if ae = 2 || ae = 3 then","else if ae = 2 then","C50 link-local next hop"),
 d("updatePrefix","if omitted = 0 ∨ (s.defaultPrefix ae).isSome then","if omitted = 0 then","C50 compressed prefixes"),
 d("PState.applyFlags","if flags &&& 0x80 ≠ 0 then s.setDefault ae pfx else s","if flags &&& 0x40 ≠ 0 then s.setDefault ae pfx else s","C50 default prefix flag"),
 d("PState.applyFlags","if flags &&& 0x40 ≠ 0 then { s","if flags &&& 0x20 ≠ 0 then { s","C50 router-id flag"),
 d("updateItems","if metric < INFINITY ∧ s.routerId = none ∧ ae ≠ 0 then some []","if s.routerId = none ∧ ae ≠ 0 then some []","C50 retraction without router-id"),
 d("updateItems","if metric < 0xFFFF then return []\n          else if","if","C50 finite wildcard update"),
 d("updateItems","else if sl > 0 then return []","","C50 wildcard retraction with source prefix"),
 d("updateItems","⟨pfx, realLen ae l, sp, sl⟩ seqno metric interval nh","⟨pfx, realLen ae l, sp, sl⟩ metric seqno interval nh","C50 fields of update"),
 d("tlvUpdate","if len < 2 then some (s.noDefaults, [])","if len < 2 then some (s, [])","C50 short update"),
 d("tlvUpdate","else if ae = 4 && !e.v4viav6 then return (s, [])","","C50 unsupported address encoding"),
 d("tlvUpdate","let metric ← rd16 m 10","let metric ← rd16 m 8","C50 metric of update"),
 d("tlvUpdate","| none => return (if flags &&& 0x80 ≠ 0 then s.noDefaults else s, [])","| none => return (s, [])","C50 malformed update forgets default prefix"),
 d("tlvUpdate","(m.drop (12 + rc))\n          ((len : Int) - 10 - rc)","(m.drop (12 + rc))\n          ((len : Int) - 10)","C07 sub-TLVs of update end with it"),
 d("tlvRequest","if !isDefault sp sl then return (s, []) else","","C50 wildcard request with source prefix"),
 d("tlvRequest","networkPrefix ae (some l) 0 (m.drop 4) none (len - 2)","networkPrefix ae (some l) 0 (m.drop 4) none len","C07 prefix of request"),
 d("tlvSeqno","if len < 14 then some (s, [])","if len < 12 then some (s, [])","C07 short seqno request"),
 d("tlvSeqno","let hop ← rd m 6","let hop ← rd m 7","C50 hop count"),
 d("tlvSeqno","let id ← rdN (m.drop 8) 8","let id ← rdN (m.drop 6) 8","C50 router-id of seqno request"),
 d("parseTlv","if ty = 2 then tlvAckReq s m len\n  else","","C50 acknowledgment requests"),
 d("parseTlv","else if ty = 9 then tlvRequest s m len\n  else if ty = 10 then tlvSeqno s m len","else if ty = 10 then tlvRequest s m len\n  else if ty = 9 then tlvSeqno s m len","C50 request types"),
 d("parseBody","else if 2 > left then return (s, [])\n      else\n        let len ← rd m 1","else\n        let len ← rd m 1","C07 truncated TLV"),
 d("parseBody","if (len : Int) + 2 > left then return (s, [])","if (len : Int) > left then return (s, [])","C07 truncated TLV"),
 d("parseBody","(m.drop (len + 2)) (left - (len + 2)) s","(m.drop (len + 1)) (left - (len + 1)) s","C50 next TLV"),
 d("parseBody","return (s, out ++ out')","return (s, out' ++ out)","C50 order"),
 d("packetHeader","if !linklocal e.sender then some none\n  else","","C09 sender not link-local"),
 d("packetHeader","if b1 ≠ 2 then return none\n      else","","C09 version"),
 d("packetHeader","if bodylen + 4 > packetlen then return some ((packetlen : Int) - 4)\n        else","","C07 length field beyond the packet"),
 d("packetHeader","else return some (bodylen : Int)","else return some ((packetlen : Int) - 4)","C09 trailer is not part of the body"),
]
