SEEDS = []
def d(f, de, old, new, claim, **k):
    SEEDS.append(dict(file=f, old=old, new=new, claim=claim, **{"def": de}, **k))
F = "Model/Main.lean"
d(F, "parseNat", "if (fin.dropWhile isBlank).isEmpty then", "if fin.isEmpty then", "C77: a number may be followed by blanks")
d(F, "parseNat", "if l < 0 ∨ l > 2147483647 then -1 else l", "if l > 2147483647 then -1 else l", "C77: negative numbers are refused")
d(F, "parseNat", "if l < 0 ∨ l > 2147483647 then -1 else l", "if l < 0 then -1 else l", "C77: numbers that do not fit are refused")
d(F, "parseNat", "if l < 0 ∨ l > 2147483647 then -1 else l", "if l ≤ 0 ∨ l > 2147483647 then -1 else l", "C77: zero is a number")
d(F, "parseNat", "let fin := if n = 0 then s else rest", "let fin := rest", "C77: text without digits is refused")
d(F, "parseNat", "if neg then max (-(v : Int)) (-9223372036854775808) else min (v : Int) 9223372036854775807", "min (v : Int) 9223372036854775807", "C77: the sign counts")
d(F, "parseNat", "signOf (s.dropWhile isSpaceC)", "signOf s", "C77: blanks before the number")
d(F, "optString", "m:p:h:H:i:k:A:srS:d:g:G:lwM:t:T:c:C:DL:I:V", "m:p:h:H:i:k:A:srS:d:g:G:lwM:t:T:c:C:D:L:I:V", "C77: -D has no argument")
d(F, "optString", "m:p:h:H:i:k:A:srS:d:g:G:lwM:t:T:c:C:DL:I:V", "m:p:h:H:k:A:srS:d:g:G:lwM:t:T:c:C:DL:I:V", "C77: words of the command line")
d(F, "optString", "m:p:h:H:i:k:A:srS:d:g:G:lwM:t:T:c:C:DL:I:V", "m:p:h:H:i:k:A:srS:d:g:G:lM:t:T:c:C:DL:I:V", "C77: -w is an option")
d(F, "takesArg", "if c = 58 then none\n  else ", "", "C77: -: is not an option")
d(F, "takesArg", "| _ :: 58 :: _ => some true\n    | _ => some false", "| _ => some false", "C77: options with arguments")
d(F, "lexWord", "| none => ([.bad], none)", "| none => lexWord cs", "C77: an unknown option is refused")
d(F, "lexWord", "if cs.isEmpty then ([], some c) else ([.opt c cs], none)", "([], some c)", "C77: an argument joined to its option")
d(F, "lexWord", "if cs.isEmpty then ([], some c) else ([.opt c cs], none)", "([.opt c cs], none)", "C77: an argument in the next word")
d(F, "lexWord", "let r := lexWord cs; (.opt c [] :: r.1, r.2)", "([.opt c []], none)", "C77: joined options")
d(F, "lexArgs", "| some _, [] => ([.bad], [])", "| some _, [] => ([], [])", "C77: an option without its argument is refused")
d(F, "lexArgs", "if w = [45, 45] then ([], rest)\n    else ", "", "C77: after -- there are no options")
d(F, "lexArgs", "if w = [45, 45] then ([], rest)", "if w = [45, 45] then ([], w :: rest)", "C77: -- itself is not an operand")
d(F, "lexArgs", "| _ => let r := lexArgs none rest; (r.1, w :: r.2)", "| _ => ([], w :: rest)", "C77: options after operands")
d(F, "lexArgs", "let r := lexArgs x.2 rest", "let r := lexArgs none rest", "C77: an argument in the next word")
d(F, "Cmd", "0, 0, 0, 0, 0, 1, 0, 6], stateFile", "0, 0, 0, 0, 0, 0, 0, 6], stateFile", "C77: the default group is ff02::1:6")
d(F, "Cmd", 'stateFile := ascii "/var/lib/babel-state"', 'stateFile := ascii "/var/run/babel-state"', "C77: the default state file")
d(F, "Cmd", "split : Bool := true", "split : Bool := false", "C77: split horizon is on by default")
d(F, "Cmd", "wireless : Int := -1", "wireless : Int := 2000", "C77: the default interval is 4 s")
d(F, "hellotime", "v ≤ 0 ∨ v > 655350", "v ≤ 0 ∨ v > 655360", "C77: intervals fit into 16 bits of centiseconds")
d(F, "hellotime", "v ≤ 0 ∨ v > 655350", "v < 0 ∨ v > 655350", "C77: an interval of 0 is refused")
d(F, "natIn", "v < lo ∨ v > hi", "v ≤ lo ∨ v > hi", "C77: ranges")
d(F, "natIn", "v < lo ∨ v > hi", "v > hi", "C77: ranges")
d(F, "natIn", "v < lo ∨ v > hi", "v < lo ∨ v ≥ hi", "C77: ranges")
d(F, "applyOpt", "if a.head? = some 0xff then .ok (m.opts ({ · with group := a })) else .error .usage", ".ok (m.opts ({ · with group := a }))", "C77: -m takes a multicast address")
d(F, "applyOpt", "(natIn 1 65535 arg).map fun v => m.opts ({ · with protocolPort := v.toNat })", "(natIn 0 65535 arg).map fun v => m.opts ({ · with protocolPort := v.toNat })", "C77: port 0 is refused")
d(F, "applyOpt", "'H' => (hellotime arg).map fun v => { m with wired := v }", "'H' => (hellotime arg).map fun v => { m with wireless := v }", "C77: -H is for wired interfaces")
d(F, "applyOpt", "'k' => (natIn 0 65535 arg).map fun v => m.opts ({ · with kernelMetric := v })", "'k' => (natIn 0 65535 arg).map fun v => m.opts ({ · with allowDuplicates := v })", "C77: -k sets the kernel metric")
d(F, "applyOpt", "'s' => .ok { m with split := false }", "'s' => .ok { m with split := true }", "C77: -s turns split horizon off")
d(F, "applyOpt", "'S' => .ok (m.opts ({ · with stateFile := arg }))", "'S' => .ok (m.opts ({ · with pidFile := arg }))", "C77: -S is the state file")
d(F, "applyOpt", "localPort := -1, localPath := some arg, localWrite := false", "localPath := some arg, localWrite := false", "C77: the last of -g and -G counts")
d(F, "applyOpt", "localPort := -1, localPath := some arg, localWrite := true", "localPort := -1, localPath := some arg", "C77: -G allows writing")
d(F, "applyOpt", "localPort := v, localPath := none, localWrite := false", "localPort := v, localPath := none", "C77: -g does not allow writing, even after -G")
d(F, "applyOpt", "localPort := v, localPath := none, localWrite := true", "localPort := v, localWrite := true", "C77: the last of -g and -G counts")
d(F, "applyOpt", "(natIn 0 3600 arg)", "(natIn 0 65535 arg)", "C77: the half-life is at most an hour")
d(F, "applyOpt", "importTables.length > 9", "importTables.length > 10", "C77: at most ten tables")
d(F, "applyOpt", "importTables := o.importTables ++ [v.toNat]", "importTables := [v.toNat]", "C77: imported tables add up")
d(F, "applyOpt", "files := m.files ++ [arg]", "files := arg :: m.files", "C77: files are read in order")
d(F, "applyOpt", "files := m.files ++ [arg]", "files := [arg]", "C77: files add up")
d(F, "applyOpt", "| (s, .ok .done) => .ok { m with conf := s }", "| (s, .ok _) => .ok { m with conf := s }", "C77: commands of the control socket are no statements")
d(F, "applyOpt", "| (s, .ok .done) => .ok { m with conf := s }\n    | _ => .error .statement", "| (s, _) => .ok { m with conf := s }", "C77: a wrong statement prevents the start")
d(F, "applyOpt", "| 'V' => .error .version", "| 'V' => .ok m", "C77: -V only prints the version")
d(F, "applyOpt", "| 'V' => .error .version\n  | _ => .error .usage", "| 'V' => .error .version\n  | _ => .ok m", "C77: -i is refused")
d(F, "runOpts", "| _, .bad :: _ => .error .usage", "| m, .bad :: r => runOpts L m r", "C77: an unknown option is refused")
d(F, "runOpts", "(applyOpt L m c a).bind fun m => runOpts L m r", "(runOpts L m r).bind fun m => applyOpt L m c a", "C77: the last option counts")
d(F, "readFiles", "| none => .error (.file f)", "| none => readFiles e s fs", "C77: an unreadable file prevents the start")
d(F, "readFiles", "| (_, .error _) => .error (.file f)", "| (_, .error _) => readFiles e s fs", "C77: a wrong file prevents the start")
d(F, "readFiles", "| (s, .ok ()) => readFiles e s fs", "| (s, .ok ()) => .ok s", "C77: all files are read")
d(F, "helloDefault", "max (if v ≤ 0 then 4000 else v) 5", "max (if v ≤ 0 then 4000 else v) 10", "C77: intervals of 5 ms are possible")
d(F, "helloDefault", "max (if v ≤ 0 then 4000 else v) 5", "if v ≤ 0 then 4000 else v", "C77: intervals are at least 5 ms")
d(F, "helloDefault", "4000", "20000", "C77: the default interval is 4 s")
d(F, "resendDelayOf", "max (min (min 2000 (wireless / 2)) (wired / 2)) 20", "max (min 2000 (wireless / 2)) 20", "C77: the delay depends on both intervals")
d(F, "resendDelayOf", "max (min (min 2000 (wireless / 2)) (wired / 2)) 20", "min (min 2000 (wireless / 2)) (wired / 2)", "C77: the delay is at least 20 ms")
d(F, "resendDelayOf", "(wireless / 2)", "wireless", "C77: half the interval")
d(F, "startUp", "if m.files.isEmpty then (if e.access", "if true then (if e.access", "C77: the files of the command line")
d(F, "startUp", '(if e.access (ascii "/etc/babeld.conf") then [ascii "/etc/babeld.conf"] else [])', '[ascii "/etc/babeld.conf"]', "C77: without the default file the daemon starts")
d(F, "startUp", "helloDefault m.wireless, helloDefault m.wired, resend", "helloDefault m.wired, helloDefault m.wireless, resend", "C77: which interval is which")
d(F, "startUp", "if s.opts.daemonise ∧ s.opts.logFile = none then", "if s.opts.daemonise then", "C77: the log file of the user")
d(F, "startUp", "if s.opts.daemonise ∧ s.opts.logFile = none then", "if s.opts.logFile = none then", "C77: without -D there is no log file")
d(F, "writePid", "if files.any (·.1 == pidfile) ∨ !opens then", "if !opens then", "C77: an existing pid file is not overwritten")
d(F, "writePid", "else if written < text.length then (.error .pid, files)", "else if written < text.length then (.error .pid, (pidfile, text.take written) :: files)", "C77: no file is left behind")
d(F, "writePid", "if written < text.length", "if written = 0", "C77: a short write is an error")
d(F, "writePid", "if pidfile.isEmpty then (.ok (), files)\n  else", "", "C77: an empty name means no file")
