SEEDS = []
def d(f, de, old, new, claim, **k):
    SEEDS.append(dict(file=f, old=old, new=new, claim=claim, **{"def": de}, **k))
M = "Model/Identity.lean"
d(M, "HwAddr.saData", "(h.addr ++ List.replicate 14 0).take 14", "(List.replicate 14 0 ++ h.addr).take 14", "C74")
d(M, "isMac48", "family == 1 || family == 774", "family == 774", "C74")
d(M, "isMac48", " || family == 6", "", "C74")
d(M, "isEui64", "family == 27 || family == 24", "family == 27", "C74")
d(M, "isEui64", " || family == 32", "", "C74")
d(M, "flipGlobal", "(a ^^^ 2) :: r", "(a ^^^ 1) :: r", "C74")
d(M, "flipGlobal", "(a ^^^ 2) :: r", "(a &&& ~~~2) :: r", "C74")
d(M, "badMac", "mac.all (· == 0) || ", "", "C74")
d(M, "badMac", " || mac.headD 0 &&& 2 != 0", "", "C74")
d(M, "badMac", "mac.headD 0 &&& 1 != 0 || ", "", "C74")
d(M, "badMac", "mac.headD 0 &&& 2 != 0", "mac.headD 0 &&& 2 == 0", "C74")
d(M, "ifEui64", "[0xFF, 0xFE]", "[0xFE, 0xFF]", "C74")
d(M, "ifEui64", "(mac.drop 3).take 3", "(mac.drop 2).take 3", "C74")
d(M, "ifEui64", "if badMac mac then none else some (flipGlobal mac)", "if badMac mac then none else some mac", "C74")
d(M, "ifEui64", "if badMac mac then none else some (flipGlobal mac)", "some (flipGlobal mac)", "C74")
d(M, "ifEui64", "let mac := h.saData.take 8", "let mac := h.saData.take 6", "C74")
d(M, "scanIds", "match b.hw i with\n    | none => scanIds b (i + 1) n", "match b.hw i with\n    | none => none", "C74")
d(M, "scanIds", "match ifEui64 h with\n      | none => scanIds b (i + 1) n", "match ifEui64 h with\n      | none => none", "C74")
d(M, "clearBits", "(a &&& ~~~3) :: r", "(a &&& ~~~2) :: r", "C74")
d(M, "clearBits", "(a &&& ~~~3) :: r", "(a &&& 3) :: r", "C74")
d(M, "chooseId", "scanIds b 1 255", "scanIds b 1 256", "C74")
d(M, "chooseId", "scanIds b 1 255", "scanIds b 2 254", "C74")
d(M, "chooseId", "if o.randomId then none else", "if !o.randomId then none else", "C74")
d(M, "chooseId", "b.random.map clearBits", "b.random", "C74")
