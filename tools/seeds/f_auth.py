F="Model/Auth.lean"
def d(defn,old,new,claim,**k): return dict(file=F,**{"def":defn},old=old,new=new,claim=claim,**k)
SEEDS=[
 d("hmacData","src ++ htons port ++ dst ++ htons port ++ header ++ body","src ++ htons port ++ htons port ++ header ++ body","C14 the MAC covers the destination"),
 d("hmacData","src ++ htons port ++ dst ++ htons port ++ header ++ body","src ++ htons port ++ dst ++ htons port ++ body","C14 the MAC covers the header"),
 d("hmacData","src ++ htons port ++ dst ++ htons port","dst ++ htons port ++ src ++ htons port","C14 order of the addresses in the pseudo-header"),
 d("computeHmac","v.length ≠ 64","v.length > 64","C14 SHA256 keys of the wrong length are refused"),
 d("computeHmac","v.map (· ^^^ 0x36) ++","v.map (· ^^^ 0x5c) ++","C14 HMAC construction"),
 d("computeHmac","v.map (· ^^^ 0x5c) ++ ihash","ihash","C14 HMAC outer hash is keyed"),
 d("computeHmac","v.length > 32 then none","v.length > 64 then none","C14 BLAKE2s keys of the wrong length are refused"),
 d("computeHmac","| .none => none","| .none => some []","C14 keys of type none accept nothing"),
 d("KeyCfg.key","none := k == .none","none := false","C14 keys of type none do not sign",tightened=["C14_key"]),
 d("compareHmac","| none => return false","| none => return true","C14 a MAC that cannot be computed is wrong"),
 d("compareHmac","if m.length = hmaclen then","if m.length ≥ hmaclen then","C14 truncated MAC",equiv="the bytes are compared too, and lists of different length differ"),
 d("compareHmac","return m == h","return m.take 1 == h.take 1","C14 whole MAC is compared"),
 d("compareHmac","rdN (packet.drop 4) bodylen.toNat","rdN (packet.drop 8) bodylen.toNat","C14 whole body is covered"),
 d("checkHmacLoop","else if 2 > left then some rc","else if 3 > left then some rc","C14 empty TLV at the end of the trailer",equiv="a TLV with an empty body that ends the trailer is never a valid MAC of a key whose MACs are not empty"),
 d("checkHmacLoop","else if 2 > left then some rc\n    else do","else do","C07 truncated trailer"),
 d("checkHmacLoop","if (len : Int) + 2 > left then return -1\n        else","if false then return -1\n        else","C07 truncated MAC"),
 d("checkHmacLoop","if ty = 16 then","if ty = 17 then","C14 type of the MAC TLV"),
 d("checkHmacLoop","(m.drop (len + 2)) (left - (len + 2)) 0","(m.drop len) (left - len) 0","C14 second MAC in the trailer"),
 d("checkHmacLoop","(m.drop (len + 2)) (left - (len + 2)) rc","(m.drop len) (left - len) rc","C14 MAC after another TLV"),
 d("checkHmacLoop","if ok then return 1","if !ok then return 1","C14 wrong MAC"),
 d("checkHmacLoop","else checkHmacLoop k src dst packet bodylen fuel (m.drop (len + 2)) (left - (len + 2)) 0","else return 0","C14 any of the MACs may match"),
 d("checkHmac","let i := (bodylen + 4).toNat","let i := bodylen.toNat","C14 the trailer starts after the body"),
 d("checkHmac","(packetlen - (bodylen + 4)) (-1)","(packetlen - bodylen) (-1)","C07 the trailer ends with the packet"),
 d("checkHmac","(-1)","1","C14 packet without MAC"),
 d("scanPc","if s.pc.isSome then some (s, true)\n  else","","C15 the first counter counts"),
 d("scanPc","else if len < 4 then some (s, false)\n","","C15 short counter",equiv=None),
 d("scanPc","else if len > 36 then","else if len > 32 then","C15 index of up to 32 bytes"),
 d("scanPc","else if len > 36 then","else if len > 255 then","C15 index longer than 32 bytes"),
 d("scanPc","(len - 4)","len","C15 length of the index"),
 d("scanPc","rdN (m.drop 6)","rdN (m.drop 2)","C15 position of the index"),
 d("scanRequest","if mc then some (s, true)\n  else if len > 192","if len > 192","C16 multicast challenge requests are ignored"),
 d("scanRequest","len > 192","len > 255","C16 nonces are at most 192 bytes"),
 d("scanRequest","rdN (m.drop 2) len","rdN (m.drop 2) 8","C16 the whole nonce is returned"),
 d("scanReply","if timevalCompare now a.deadline > 0 then some (s, true)\n    else","","C16 deadline of a challenge"),
 d("scanReply","timevalCompare now a.deadline > 0","timevalCompare now a.deadline < 0","C16 deadline of a challenge"),
 d("scanReply","else if len = 8 then","else if len ≤ 8 then","C16 truncated nonce",equiv="the stored nonce has 8 bytes, so that a shorter one never equals it"),
 d("scanReply","if a.nonce = b then","if a.nonce.take 4 = b.take 4 then","C16 the whole nonce is compared"),
 d("scanReply","ent := some { a with deadline := ⟨0, 0⟩ }","ent := some a","C16 a reply works once"),
 d("scanTlv","if ty = 19 then","if ty = 20 then","C16 type of the reply"),
 d("scanTlv","if ty = 18 then","if ty = 20 then","C16 type of the request"),
 d("scanTlv","if ty = 17 then","if ty = 16 then","C15 type of the counter"),
 d("scanBody","if ty = 0 then scanBody mc now fuel (m.drop 1) (left - 1) s\n      else","","C15 Pad1 in the body"),
 d("scanBody","if (len : Int) + 2 > left then return s\n        else","if false then return s\n        else","C07 truncated TLV"),
 d("scanBody","else if 2 > left then return s\n","else if false then return s\n","C07 truncated TLV"),
 d("scanBody","else return s","else scanBody mc now fuel (m.drop (len + 2)) (left - (len + 2)) s","C15 a malformed counter ends the scan"),
 d("scanBody","(m.drop (len + 2)) (left - (len + 2)) s","(m.drop (len + 2)) (left - (len + 1)) s","C07 end of the body"),
 d("challengeRequest","if timevalCompare now a.requestLimit ≤ 0 then (a, draws, [])\n  else\n","","C16 rate of challenges"),
 d("challengeRequest","timevalCompare now a.requestLimit ≤ 0","timevalCompare now a.requestLimit < 0","C16 rate of challenges"),
 d("challengeRequest","timevalAddMsec now 30000","timevalAddMsec now 300000","C16 challenges expire after 30 s"),
 d("challengeRequest","requestLimit := timevalAddMsec now 300 }","requestLimit := timevalAddMsec now 30 }","C16 rate of challenges"),
 d("challengeRequest","draws + 1, [.request a.nonce]","draws, [.request a.nonce]","C16 a new nonce for each challenge"),
 d("challengeRequest","else (a, draws + 1, [])","else ({ a with deadline := timevalAddMsec now 30000 }, draws + 1, [])","C16 no challenge without random bytes"),
 d("challengeReply","if timevalCompare now a.replyLimit ≤ 0 then (a, [])\n  else","","C16 rate of replies"),
 d("challengeReply","timevalAddMsec now 300 }","timevalAddMsec now 3000 }","C16 rate of replies"),
 d("challengeReply","[.reply nonce]","[.request nonce]","C16 replies answer requests"),
 d("challengeReply","a.replyLimit","a.requestLimit","C16 separate limits"),
 d("memcmpLe","x < y","x > y","C15 comparison of counters"),
 d("memcmpLe","| _, _ => true","| _, _ => false","C15 equal counters are refused"),
 d("memcmpLe","if x = y then memcmpLe xs ys else x < y","x < y","C15 comparison of counters"),
 d("judge","index := some index, pcM := pc, pcU := pc","index := some index, pcM := pc","C15 both counters are reset by a challenge"),
 d("judge","index := some index, pcM := pc, pcU := pc","pcM := pc, pcU := pc","C15 the index is recorded"),
 d("judge","if mc then a.pcM else a.pcU","if mc then a.pcU else a.pcM","C15 separate counters"),
 d("judge","if mc then a.pcM else a.pcU","a.pcM","C15 separate counters"),
 d("judge","if mc then { a with pcM := pc } else { a with pcU := pc }","{ a with pcM := pc }","C15 separate counters"),
 d("judge","if mc then { a with pcM := pc } else { a with pcU := pc }","a","C15 counters are recorded"),
 d("judge","(a, draws, .dropped, out, false)","(a, draws, .newer, out, false)","C15 unknown index"),
 d("judge","(a, draws, .dropped, [], true)","(a, draws, .dropped, [], false)","C16 replays are not answered"),
 d("judge","(a, draws, .dropped, out, false)","(a, draws, .dropped, out, true)","C16 requests of unknown neighbours are answered"),
 d("judge","if a.index ≠ some index then","if a.index = none then","C15 change of index"),
 d("judge","if success then","if success ∧ a.index ≠ some index then","C15 answered packets with known index"),
 d("finish","judge r mc now draws s.success","judge r (!mc) now draws s.success","C15 separate counters"),
 d("finish","| none => let (ent, out) := answer now s.nonce s.ent; (ent, draws, .dropped, out)","| none => let (ent, out) := answer now s.nonce s.ent; (ent, draws, .newer, out)","C15 packets without counter are dropped"),
 d("finish","(if forget then none else s.nonce)","s.nonce","C16 replays are not answered"),
 d("preparse","{ ent := ent }","{}","C15 state of the neighbour is used"),
 d("receive","if rc ≤ 0 then","if rc < 0 then","C14 wrong MAC"),
 d("receive","if c.acceptBad then deliver","if !c.acceptBad then deliver","C14 accept-bad-signatures"),
 d("receive","p.env.sender p.dst p.buf","p.dst p.env.sender p.buf","C14 source and destination"),
 d("receive","== some 255","== some 254","C15 multicast destinations"),
 d("receive","let s := { s.set p.env.sender ent with draws := draws }","let s := { s with draws := draws }","C15 state of the neighbour is recorded"),
 d("receive","if v = .dropped then return","if v = .unchecked then return","C15 dropped packets have no effect"),
 d("deliver","s.set p.env.sender (some ((s.tab p.env.sender).getD {}))","s.set p.env.sender (some {})","C15 state of the neighbour is kept"),
 d("astep","s.set a none","s","C16 flushing a neighbour forgets its challenge"),
 d("AState.set","if x = a then ent else s.tab x","ent","C15 neighbours are separate"),
]
SEEDS=[s for s in SEEDS]
for s in SEEDS:
    if s.get("equiv","x") is None: del s["equiv"]
