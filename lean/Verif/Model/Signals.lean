/-
Signals and the main loop (babeld.c:588-787, 959-1020): the handlers set flags, which the loop tests.  A signal may arrive between
any two steps of the loop.
-/
namespace Babel

/-- The signals for which there is a handler, babeld.c:977-1020; SIGINFO is treated as SIGUSR1. -/
inductive Signo
  | term | hup | int | pipe | usr1 | usr2
deriving DecidableEq, Repr

/-- Where the loop is, as far as it concerns the flags. -/
inductive Place
  /-- babeld.c:588-636: before `select` returns. -/
  | wait
  /-- babeld.c:640 `if(exiting)`. -/
  | testExit
  /-- babeld.c:643-696 `if(reopening)`: what is read from the sockets, and the test. -/
  | testReopen
  /-- babeld.c:700 `reopen_logfile()`. -/
  | reopen
  /-- babeld.c:705 `reopening = 0`. -/
  | clearReopen
  /-- babeld.c:708-783: the timers, and `if(debug || dumping)`. -/
  | testDump
  /-- babeld.c:784 `dump_tables(stdout)`. -/
  | dump
  /-- babeld.c:785 `dumping = 0`. -/
  | clearDump
  /-- babeld.c:788: the loop has been left. -/
  | left
deriving DecidableEq, Repr

/-- The flags, the place, how many times the log file has been opened again, how many times the tables have been dumped, and how
many times `select` has returned. -/
structure Watch where
  exiting : Bool := false
  reopening : Bool := false
  dumping : Bool := false
  place : Place := .wait
  opens : Nat := 0
  dumps : Nat := 0
  turns : Nat := 0
deriving DecidableEq, Repr

/-- A signal, or one step of the loop, with `debug != 0` and whether `reopen_logfile` succeeds. -/
inductive WatchAct
  | sig (s : Signo)
  | go (debug ok : Bool)
deriving DecidableEq, Repr

/-- babeld.c:959-975 `sigexit`, `sigdump`, `sigreopening`, installed by `init_signals` (977-1020). -/
def Watch.signal (w : Watch) : Signo → Watch
  | .term => { w with exiting := true }
  | .hup => { w with exiting := true }
  | .int => { w with exiting := true }
  | .pipe => w
  | .usr1 => { w with dumping := true }
  | .usr2 => { w with reopening := true }

/-- One step of the loop. -/
def Watch.go (w : Watch) (debug ok : Bool) : Watch :=
  match w.place with
  | .wait => { w with place := .testExit, turns := w.turns + 1 }
  | .testExit => { w with place := if w.exiting then .left else .testReopen }
  | .testReopen => { w with place := if w.reopening then .reopen else .testDump }
  | .reopen => if ok then { w with place := .clearReopen, opens := w.opens + 1 } else { w with place := .left }
  | .clearReopen => { w with place := .testDump, reopening := false }
  | .testDump => { w with place := if debug || w.dumping then .dump else .wait }
  | .dump => { w with place := .clearDump, dumps := w.dumps + 1 }
  | .clearDump => { w with place := .wait, dumping := false }
  | .left => w

/-- What happens. -/
def Watch.act (w : Watch) : WatchAct → Watch
  | .sig s => w.signal s
  | .go d ok => w.go d ok

/-- A history. -/
def Watch.run (w : Watch) (l : List WatchAct) : Watch := l.foldl Watch.act w

/-- What `open` and the two calls of `dup2` in `reopen_logfile` return. -/
structure Reopen where
  file : Option Nat
  out : Bool
  err : Bool

/-- What the descriptors refer to: 1 (stdout), 2 (stderr) to a file, named by the descriptor with which it was opened, or to what they did
before; and the descriptors that remain open. -/
structure LogFds where
  out : Option Nat := none
  err : Option Nat := none
  extra : List Nat := []
deriving DecidableEq, Repr

/-- babeld.c:1107-1132 `reopen_logfile`, given whether there is a log file; the result and the descriptors. -/
def reopenLogfile (logfile : Bool) (r : Reopen) (l : LogFds) : Int × LogFds :=
  if !logfile then (0, l)
  else
    match r.file with
    | none => (-1, l)
    | some lfd =>
      let l := { l with extra := lfd :: l.extra }
      if !r.out then (-1, l)
      else
        let l := { l with out := some lfd }
        if !r.err then (-1, l)
        else
          let l := { l with err := some lfd }
          (1, if lfd > 2 then { l with extra := l.extra.erase lfd } else l)

end Babel
