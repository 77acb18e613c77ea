SEEDS = []
def d(f, de, old, new, claim, **k):
    SEEDS.append(dict(file=f, old=old, new=new, claim=claim, **{"def": de}, **k))
M = "Model/Host.lean"
d(M, "writeProc", "if (p.val c).isNone ∨ p.ro c then", "if p.ro c then", "C72")
d(M, "writeProc", "(true, { p with val := fun x => if x = c then some v else p.val x })", "(true, { p with val := fun _ => some v })", "C72")
d(M, "writeProc", "some v else p.val x", "some 0 else p.val x", "C72")
d(M, "sysctlSettings", "⟨.redirects6, 0, -1⟩", "⟨.redirects6, 1, -1⟩", "C72")
d(M, "sysctlSettings", "⟨.forward4, 1, -1⟩, ", "", "C72")
d(M, "setupLoop", "if was ≠ s.want then writeProc p s.ctl s.want", "if was = s.want then writeProc p s.ctl s.want", "C72")
d(M, "setupLoop", "(ok, { s with was := was } :: ss, p)", "(ok, s :: ss, p)", "C72")
d(M, "setupLoop", "if was < 0 then", "if was ≤ 0 then", "C72")
d(M, "restoreLoop", "s.was ≥ 0 ∧ s.was ≠ s.want", "s.was > 0 ∧ s.was ≠ s.want", "C72")
d(M, "restoreLoop", "writeProc p s.ctl s.was.toNat", "writeProc p s.ctl s.want", "C72")
d(M, "restoreLoop", "if !ok then p else", "if ok then p else", "C72")
d(M, "kernelRestore", "if skip then h else", "if !skip then h else", "C72")
d(M, "kernelSetup", "if skip then (true", "if !skip then (true", "C72")
d(M, "getOldIf", "olds.length ≥ MAX_INTERFACES", "olds.length ≥ 16", "C72")
d(M, "getOldIf", "olds.length ≥ MAX_INTERFACES", "olds.length > MAX_INTERFACES", "C72")
d(M, "freeOldIf", "(olds.set i l).dropLast", "olds.dropLast", "C72")
d(M, "freeOldIf", "(olds.set i l).dropLast", "olds.set i l", "C72")
d(M, "freeOldIf", "(olds.set i l).dropLast", "[]", "C72")
d(M, "setupIf", "if skip then some (true, h)", "if false then some (true, h)", "C72")
d(M, "setupIf", "(name, v) }", "(name, 1) }", "C72")
d(M, "setupIf", "if v ≠ 0 then", "if v > 1 then", "C72")
d(M, "setupIf", "writeProc h.proc (.rp name) 0", "writeProc h.proc (.rp name) 1", "C72")
d(M, "setupIf", "writeProc h.proc (.rp name) 0", "writeProc h.proc .rpAll 0", "C72")
d(M, "setupIf", "some (ok, { h with proc := p })", "some (true, { h with proc := p })", "C72")
d(M, "restoreIf", "if skip then h", "if false then h", "C72")
d(M, "restoreIf", "if v > 0 then", "if v > 1 then", "C72")
d(M, "restoreIf", "writeProc h.proc (.rp name) v.toNat", "writeProc h.proc .rpAll v.toNat", "C72")
d(M, "restoreIf", "olds := freeOldIf olds i", "olds := olds", "C72")
d(M, "hostDown", "let h := setUp h f.name false\n", "", "C72")
d(M, "hostDown", "if f.ifindex > 0 then restoreIf skip h f.name else h", "h", "C72")
d(M, "hostUp", "if r.1 && ok then r.2 else hostDown skip r.2 f", "if r.1 || ok then r.2 else hostDown skip r.2 f", "C72")
d(M, "hostUp", "if r.1 && ok then r.2 else hostDown skip r.2 f", "if r.1 && ok then r.2 else setUp r.2 f.name false", "C72")
d(M, "hostUp", "let h := setUp h f.name true\n", "", "C72")
d(M, "hostCheck", "if changed ∧ f.up then hostDown skip h f else h", "h", "C72")
d(M, "hostCheck", "if changed then false else f.up", "f.up", "C72")
d(M, "hostCheck", "decide (0 < index) && operational", "operational", "C72")
d(M, "hostCheck", "let h := setIndex h name index\n", "", "C72")
d(M, "hostCheck", "else some (hostDown skip h f)", "else some h", "C72")
d(M, "hostStep", "let h := if f.up then hostDown skip h f else h\n", "", "C72")
d(M, "hostStep", "h.ifs.any (fun f => f.name = name) then h else", "false then h else", "C72")
d(M, "hostStep", "f.name ≠ name }", "f.name = name }", "C72")
d(M, "hostStop", "if f.up then hostDown skip h f else h", "h", "C72")
d(M, "hostStop", "if f.up then hostDown skip h f else h", "if f.up then h else hostDown skip h f", "C72")
d(M, "hostMain", "if !ok then some h else", "if !ok then some (hostStop skip h) else", "C72_half: the code does not restore")
