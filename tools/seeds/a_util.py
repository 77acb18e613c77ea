F="Model/Util.lean"
SEEDS=[
 dict(file=F,**{"def":"seqnoCompare"},old="(s2 - s1) &&& 0x8000 ≠ 0 then 1 else -1",new="(s1 - s2) &&& 0x8000 ≠ 0 then 1 else -1",claim="C01 newer/older order"),
 dict(file=F,**{"def":"seqnoCompare"},old="&&& 0x8000",new="&&& 0x4000",claim="C01 half window"),
 dict(file=F,**{"def":"toShort"},old="x.toNat < 32768",new="x.toNat ≤ 32768",claim="C01 seqno_minus is signed difference"),
 dict(file=F,**{"def":"seqnoPlus"},old="+ plus) % 65536",new="+ plus) % 65535",claim="C01 wraparound"),
 dict(file=F,**{"def":"roughly"},old="else (value * 3) / 4 + (r : Int) % (value / 2)",new="else (value * 3) / 4 + (r : Int) % value",claim="C02 jitter upper bound"),
 dict(file=F,**{"def":"roughly"},old="else (value * 3) / 4 + (r : Int) % (value / 2)",new="else value / 2 + (r : Int) % (value / 2)",claim="C02 jitter lower bound"),
 dict(file=F,**{"def":"roughly"},old="if v ≤ 1 then -v else -((v * 3)",new="if v ≤ 1 then v else -((v * 3)",claim="C02 sign for negative values"),
 dict(file=F,**{"def":"roughlyC"},old="    let t ← ckInt (value * 3)",new="    let t ← ckInt (value * 4)",claim="C02 overflow condition"),
 dict(file=F,**{"def":"timevalMinus"},old="s1.usec + 1000000 - s2.usec",new="s1.usec + 100000 - s2.usec",claim="C03 borrow"),
 dict(file=F,**{"def":"timevalMinus"},old="s1.sec - s2.sec - 1",new="s1.sec - s2.sec",claim="C03 borrow"),
 dict(file=F,**{"def":"timevalMinusMsec"},old="if s1.sec < s2.sec then 0",new="if s1.sec ≤ s2.sec then 0",claim="C03 difference within a second"),
 dict(file=F,**{"def":"timevalMinusMsec"},old="else if s1.usec ≤ s2.usec then 0\n  else ((s1.usec - s2.usec) / 1000).toNat",new="else if s1.usec ≤ s2.usec then 0\n  else (s1.usec - s2.usec).toNat",claim="C03 milliseconds"),
 dict(file=F,**{"def":"timevalAddMsec"},old="if usecs < 1000000 then",new="if usecs ≤ 1000000 then",claim="C03 well-formed sum"),
 dict(file=F,**{"def":"timevalAddMsec"},old="⟨sec + 1, usecs - 1000000⟩",new="⟨sec, usecs - 1000000⟩",claim="C03 carry"),
 dict(file=F,**{"def":"timevalCompare"},old="else if s1.usec > s2.usec then 1",new="else if s1.usec > s2.usec then -1",claim="C03 order"),
 dict(file=F,**{"def":"timevalMin"},old="timevalCompare d s > 0 then s else d",new="timevalCompare d s < 0 then s else d",claim="C03 minimum"),
 dict(file=F,**{"def":"timevalMin"},old="if s.sec = 0 then d\n",new="if s.sec = 1 then d\n",claim="C03 zero means unset"),
 dict(file=F,**{"def":"timevalMinSec"},old="if d.sec = 0 ∨ d.sec > secs",new="if d.sec > secs",claim="C03 unset deadline replaced"),
 dict(file=F,**{"def":"inPrefix"},old="let plen := if plen > 128 then 128 else plen\n  if address.take (plen / 8) != pfx.take (plen / 8) then false\n  else if plen % 8 = 0 then true",new="let plen := if plen > 128 then 128 else plen\n  if address.take (plen / 8) != pfx.take (plen / 8) then false\n  else if plen % 8 = 1 then true",claim="C04 partial byte"),
 dict(file=F,**{"def":"inPrefix"},old="if address.take (plen / 8) != pfx.take (plen / 8) then false",new="if address.take (plen / 8 - 1) != pfx.take (plen / 8 - 1) then false",claim="C04 all bytes compared"),
 dict(file=F,**{"def":"plenMask"},old="<<< (8 - plen % 8))",new="<<< (7 - plen % 8))",claim="C04 mask width"),
 dict(file=F,**{"def":"normalizePrefix"},old="List.replicate (16 - plen / 8) 0",new="List.replicate (16 - plen / 8) 255",claim="C04 zero host bits"),
 dict(file=F,**{"def":"normalizePrefix"},old="pfx.getD (plen / 8) 0 &&& plenMask plen)\n    else ret",new="pfx.getD (plen / 8) 0)\n    else ret",claim="C04 partial byte masked"),
 dict(file=F,**{"def":"martianPrefix"},old="(decide (plen ≥ 8) && b 0 == 0xFF)",new="(decide (plen ≥ 16) && b 0 == 0xFF)",claim="C05 multicast"),
 dict(file=F,**{"def":"martianPrefix"},old="(b 1 &&& 0xC0) == 0x80",new="(b 1 &&& 0xC0) == 0xC0",claim="C05 link-local"),
 dict(file=F,**{"def":"martianPrefix"},old="(b 12 == 127 || b 12 == 0)",new="(b 12 == 127)",claim="C05 0/8"),
 dict(file=F,**{"def":"martianPrefix"},old="(b 15 == 0 || b 15 == 1)",new="b 15 == 1",claim="C05 unspecified address"),
 dict(file=F,**{"def":"martianPrefix"},old="(b 12 &&& 0xF0) == 0xE0",new="(b 12 &&& 0xE0) == 0xE0",claim="C05 class E is not martian"),
 dict(file=F,**{"def":"scaleDown"},old="scaleDown (fl / 10) k",new="scaleDown (fl / 100) k",claim="C06 fraction digits"),
 dict(file=F,**{"def":"fracPart"},old="(scaleUp (scaleDown fl (j - 3)) (3 - j), s'')",new="(scaleUp (scaleDown fl (j - 3)) (2 - j), s'')",claim="C06 fraction digits"),
 dict(file=F,**{"def":"parseThousands"},old="if s = [] then",new="if True then",claim="C06 trailing garbage rejected"),
 dict(file=F,**{"def":"parseThousands"},old="inn * 1000",new="inn * 100",claim="C06 thousands"),
 dict(file=F,**{"def":"h2i"},old="else if 65 ≤ c ∧ c ≤ 70",new="else if 65 ≤ c ∧ c ≤ 71",claim="C06 only hex digits"),
 dict(file=F,**{"def":"fromhex"},old="UInt8.ofNat (x * 16 + y)",new="UInt8.ofNat (y * 16 + x)",claim="C06 nibble order"),
]
