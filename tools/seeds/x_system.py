SEEDS = []


def d(f, df, old, new, claim, **k):
    SEEDS.append(dict(file=f, **{"def": df}, old=old, new=new, claim=claim + ": " + WHAT[df], **k))


CLOCK = "the time is that elapsed on the clock, and its seconds do not go back"
KERNEL = "the features of the kernel are used exactly from the releases on that have them"
UP = "an interface is operational exactly if it is up and, if links are detected, running"
KIND = "an interface is taken to be wireless or wired only if known to be no bridge and no mesh"
WHAT = {"gettime": CLOCK, "scanD": KERNEL, "scanVersion": KERNEL, "kernelOlderThan": KERNEL, "hasIpv6Subtrees": KERNEL,
        "hasV4viav6": KERNEL, "safeV4viav6": KERNEL, "IFF_RUNNING_BIT": UP, "interfaceOperational": UP,
        "bridgeFallback": KIND, "isbridge": KIND, "isbatman": KIND, "interfaceWireless": KIND}


F = "Model/System.lean"
C = "C81"
d(F, "gettime", "some (sec, nsec / 1000)", "some (sec, nsec / 1000000)", C)
d(F, "gettime", "let c := { c with posix := some posix }", "let c := { c with posix := c.posix }", C)
d(F, "gettime", "let t := sec + c.offset", "let t := sec", C)
d(F, "gettime", "let t := sec + c.offset", "let t := sec - c.offset", C)
d(F, "gettime", "if c.previous > t then", "if c.previous < t then", C)
d(F, "gettime", "offset := c.offset + (c.previous - t)", "offset := c.previous - t", C)
d(F, "gettime", "offset := c.offset + (c.previous - t)", "offset := c.offset + (t - c.previous)", C)
d(F, "gettime", "{ c with offset := c.offset + (c.previous - t) }, some (c.previous, usec)", "{ c with offset := c.offset + (c.previous - t) }, some (t, usec)", C)
d(F, "gettime", "({ c with previous := t }, some (t, usec))", "(c, some (t, usec))", C)
d(F, "gettime", "({ c with previous := t }, some (t, usec))", "({ c with previous := sec }, some (t, usec))", C)
d(F, "scanD", "digitsOf 10 0 0 t", "digitsOf 8 0 0 t", C)
d(F, "scanVersion", "if c = 46 then", "if c = 45 then", C)
d(F, "scanVersion", "(v, r.1)", "(r.1, v)", C)
d(F, "kernelOlderThan", "if sysname ≠ cstr name then -1", "if False then -1", C)
d(F, "kernelOlderThan", "| none => -1\n  | some (name", "| none => 0\n  | some (name", C)
d(F, "kernelOlderThan", "      | none => -1", "      | none => 1", C, equiv=True)
d(F, "kernelOlderThan", "v < version ∨ (v = version ∧ s < sub)", "v < version ∨ s < sub", C)
d(F, "kernelOlderThan", "v < version ∨ (v = version ∧ s < sub)", "v ≤ version ∧ s < sub", C)
d(F, "kernelOlderThan", "s < sub)", "s ≤ sub)", C)
d(F, "hasIpv6Subtrees", "3 11", "3 10", C)
d(F, "hasV4viav6", "5 2", "5 13", C)
d(F, "safeV4viav6", "5 13", "5 3", C)
d(F, "IFF_RUNNING_BIT", "0x40", "0x2", C)
d(F, "interfaceOperational", "if linkDetect then", "if !linkDetect then", C)
d(F, "interfaceOperational", "f &&& wanted = wanted", "f &&& wanted ≠ 0", C)
d(F, "bridgeFallback", "if l.contains ifindex then 1 else 0", "if l.contains ifindex then 0 else 1", C)
d(F, "bridgeFallback", "| .nopkg => 0", "| .nopkg => -1", C)
d(F, "bridgeFallback", "| .other => -1", "| .other => 0", C)
d(F, "isbridge", "| .other => bridgeFallback p ifindex", "| .other => 0", C)
d(F, "isbridge", "else bridgeFallback p ifindex", "else 0", C)
d(F, "isbatman", "| .other => -1", "| .other => 0", C)
d(F, "interfaceWireless", "≠ 0 ∨ isbatman p ≠ 0", "≠ 0 ∧ isbatman p ≠ 0", C)
d(F, "interfaceWireless", "isbridge p ifindex ≠ 0", "isbridge p ifindex = 1", C)
d(F, "interfaceWireless", "| .notsup => 0", "| .notsup => -1", C)
d(F, "interfaceWireless", "| .other => -1", "| .other => 0", C)
