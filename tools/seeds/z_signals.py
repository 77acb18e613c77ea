SEEDS = []


def d(file, defn, old, new, claim, **k):
    SEEDS.append(dict(file=file, old=old, new=new, claim=claim, **{"def": defn}, **k))


F = "Model/Signals.lean"
d(F, "Watch.signal", "| .hup => { w with exiting := true }", "| .hup => { w with reopening := true }", "C83: SIGHUP ends the loop")
d(F, "Watch.signal", "| .pipe => w", "| .pipe => { w with exiting := true }", "C83: SIGPIPE has no effect")
d(F, "Watch.signal", "| .usr1 => { w with dumping := true }", "| .usr1 => { w with reopening := true }", "C83: SIGUSR1 dumps the tables")
d(F, "Watch.signal", "| .usr2 => { w with reopening := true }", "| .usr2 => { w with reopening := !w.reopening }", "C83: SIGUSR2 opens the log file again")
d(F, "Watch.go", "place := if w.exiting then .left else .testReopen", "place := if w.exiting && !w.reopening then .left else .testReopen", "C83: SIGTERM ends the loop")
d(F, "Watch.go", "place := if w.exiting then .left else .testReopen", "place := .testReopen", "C83: SIGTERM ends the loop")
d(F, "Watch.go", "place := if w.reopening then .reopen else .testDump", "place := .testDump", "C83: SIGUSR2 opens the log file again")
d(F, "Watch.go", "else { w with place := .left }", "else { w with place := .clearReopen }", "C83: the log file is opened, or the loop ends")
d(F, "Watch.go", "{ w with place := .testDump, reopening := false }", "{ w with place := .testDump }", "C83_reopen_false: the flag is reset")
d(F, "Watch.go", "{ w with place := .testDump, reopening := false }", "{ w with place := .testDump, reopening := false, exiting := false }", "C83: SIGTERM ends the loop")
d(F, "Watch.go", "if debug || w.dumping then .dump else .wait", "if debug && w.dumping then .dump else .wait", "C83: SIGUSR1 dumps the tables")
d(F, "Watch.go", "if debug || w.dumping then .dump else .wait", "if debug || !w.dumping then .dump else .wait", "C83: SIGUSR1 dumps the tables")
d(F, "Watch.go", "{ w with place := .wait, dumping := false }", "{ w with place := .wait, dumping := false, reopening := false }", "C83: SIGUSR2 opens the log file again")
d(F, "Watch.go", "{ w with place := .testExit, turns := w.turns + 1 }", "{ w with place := .testExit, turns := w.turns + 1, dumping := false }", "C83: SIGUSR1 dumps the tables")
d(F, "Watch.go", "{ w with place := .wait, dumping := false }", "{ w with place := .testExit, dumping := false }", "C83: the loop waits in each turn", tightened=["C83_once"])
d(F, "reopenLogfile", "if !logfile then (0, l)", "if !logfile then (-1, l)", "C83: no log file is no error")
d(F, "reopenLogfile", "| none => (-1, l)", "| none => (0, l)", "C83: a log file that cannot be opened is an error")
d(F, "reopenLogfile", "let l := { l with err := some lfd }", "let l := l", "C83: both outputs go to the new file")
d(F, "reopenLogfile", "if !r.err then (-1, l)", "if false then (-1, l)", "C83: an error of dup2 is reported")
d(F, "reopenLogfile", "if lfd > 2 then { l with extra := l.extra.erase lfd } else l", "l", "C83: no descriptor is left over")
