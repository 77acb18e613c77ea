import Verif.Model.Config
import Verif.Model.Restart
/-
Starting the daemon: the command line, the configuration files, the intervals and the pid file.
-/
namespace Babel

/-- util.c:136-154 `parse_nat`, on a machine with 64-bit `long`.  If there are no digits `strtol` returns 0 and does not move. -/
def parseNat (s : Bytes) : Int :=
  let (neg, t) := signOf (s.dropWhile isSpaceC)
  let (v, n, rest) := strtolMag t
  let fin := if n = 0 then s else rest
  if (fin.dropWhile isBlank).isEmpty then
    let l : Int := if n = 0 then 0 else if neg then max (-(v : Int)) (-9223372036854775808) else min (v : Int) 9223372036854775807
    if l < 0 ∨ l > 2147483647 then -1 else l
  else -1

/-! ### getopt -/

/-- babeld.c:148-149. -/
def optString : Bytes := ascii "m:p:h:H:i:k:A:srS:d:g:G:lwM:t:T:c:C:DL:I:V"

/-- getopt(3): whether an option has an argument; `none` if there is no such option. -/
def takesArg (c : UInt8) : Option Bool :=
  if c = 58 then none
  else match optString.dropWhile (· != c) with
    | [] => none
    | _ :: 58 :: _ => some true
    | _ => some false

/-- What `getopt` returns: an option with its argument, or `'?'`. -/
inductive OptTok
  | opt (c : UInt8) (arg : Bytes)
  | bad
deriving DecidableEq, Repr

/-- getopt(3): the options in a word that starts with a dash, and the option that waits for its argument. -/
def lexWord : Bytes → List OptTok × Option UInt8
  | [] => ([], none)
  | c :: cs =>
    match takesArg c with
    | none => ([.bad], none)
    | some false => let r := lexWord cs; (.opt c [] :: r.1, r.2)
    | some true => if cs.isEmpty then ([], some c) else ([.opt c cs], none)

/-- getopt(3) of the GNU C library, which accepts operands between options (POSIXLY_CORRECT is not set): the options and the operands.  The first argument is
an option that waits for its argument.  What comes after `'?'` does not matter, since the daemon exits (babeld.c:280-281). -/
def lexArgs : Option UInt8 → List Bytes → List OptTok × List Bytes
  | none, [] => ([], [])
  | some _, [] => ([.bad], [])
  | some c, a :: rest => let r := lexArgs none rest; (.opt c a :: r.1, r.2)
  | none, w :: rest =>
    if w = [45, 45] then ([], rest)
    else match w with
      | 45 :: c :: cs =>
        let x := lexWord (c :: cs)
        let r := lexArgs x.2 rest
        (x.1 ++ r.1, r.2)
      | _ => let r := lexArgs none rest; (r.1, w :: r.2)

/-! ### Options -/

/-- The settings while the command line is read: those of Model/Config, `default_wireless_hello_interval`, `default_wired_hello_interval`, `split_horizon`,
`all_wireless`, `config_files`.  The default group and port are those of babeld.c:140-141. -/
structure Cmd where
  conf : Conf := { opts := { group := [0xff, 2, 0, 0, 0, 0, 0, 0, 0, 0, 0, 0, 0, 1, 0, 6], stateFile := ascii "/var/lib/babel-state", pidFile := ascii "/var/run/babeld.pid" } }
  wireless : Int := -1
  wired : Int := -1
  split : Bool := true
  allWireless : Bool := false
  files : List Bytes := []
deriving DecidableEq, Repr

/-- Why the daemon ends before it begins. -/
inductive Exit
  | usage | version | statement | file (name : Bytes) | pid
deriving DecidableEq, Repr

/-- A change of the options of Model/Config. -/
def Cmd.opts (m : Cmd) (f : Opts → Opts) : Cmd := { m with conf := { m.conf with opts := f m.conf.opts } }

/-- babeld.c:174-185: a hello interval. -/
def hellotime (arg : Bytes) : Except Exit Int :=
  let v := parseThousands arg
  if v ≤ 0 ∨ v > 655350 then .error .usage else .ok v

/-- A number between `lo` and `hi`. -/
def natIn (lo hi : Int) (arg : Bytes) : Except Exit Int :=
  let v := parseNat arg
  if v < lo ∨ v > hi then .error .usage else .ok v

/-- babeld.c:153-282: one option.  `add_import_table` is kernel.c:107-114 (MAX_IMPORT_TABLES is 10).  -/
def applyOpt (L : Libc) (m : Cmd) (c : UInt8) (arg : Bytes) : Except Exit Cmd :=
  match Char.ofNat c.toNat with
  | 'm' =>
    match parseAddress L arg with
    | none => .error .usage
    | some (a, _) => if a.head? = some 0xff then .ok (m.opts ({ · with group := a })) else .error .usage
  | 'p' => (natIn 1 65535 arg).map fun v => m.opts ({ · with protocolPort := v.toNat })
  | 'h' => (hellotime arg).map fun v => { m with wireless := v }
  | 'H' => (hellotime arg).map fun v => { m with wired := v }
  | 'k' => (natIn 0 65535 arg).map fun v => m.opts ({ · with kernelMetric := v })
  | 'A' => (natIn 0 65535 arg).map fun v => m.opts ({ · with allowDuplicates := v })
  | 's' => .ok { m with split := false }
  | 'r' => .ok (m.opts ({ · with randomId := true }))
  | 'S' => .ok (m.opts ({ · with stateFile := arg }))
  | 'd' => (natIn 0 2147483647 arg).map fun v => m.opts ({ · with debug := v.toNat })
  | 'g' => if arg.head? = some 47 then .ok (m.opts ({ · with localPort := -1, localPath := some arg, localWrite := false }))
    else (natIn 1 65535 arg).map fun v => m.opts ({ · with localPort := v, localPath := none, localWrite := false })
  | 'G' => if arg.head? = some 47 then .ok (m.opts ({ · with localPort := -1, localPath := some arg, localWrite := true }))
    else (natIn 1 65535 arg).map fun v => m.opts ({ · with localPort := v, localPath := none, localWrite := true })
  | 'l' => .ok (m.opts ({ · with linkDetect := true }))
  | 'w' => .ok { m with allWireless := true }
  | 'M' => (natIn 0 3600 arg).map fun v => m.opts ({ · with halfLife := v.toNat })
  | 't' => (natIn 0 65535 arg).map fun v => m.opts ({ · with exportTable := v })
  | 'T' => if m.conf.opts.importTables.length > 9 then .error .usage
    else (natIn 0 65535 arg).map fun v => m.opts fun o => { o with importTables := o.importTables ++ [v.toNat] }
  | 'c' => .ok { m with files := m.files ++ [arg] }
  | 'C' =>
    match parseString L m.conf arg with
    | (s, .ok .done) => .ok { m with conf := s }
    | _ => .error .statement
  | 'D' => .ok (m.opts ({ · with daemonise := true }))
  | 'L' => .ok (m.opts ({ · with logFile := some arg }))
  | 'I' => .ok (m.opts ({ · with pidFile := arg }))
  | 'V' => .error .version
  | _ => .error .usage

/-- babeld.c:147-283: the loop over the options. -/
def runOpts (L : Libc) : Cmd → List OptTok → Except Exit Cmd
  | m, [] => .ok m
  | _, .bad :: _ => .error .usage
  | m, .opt c a :: r => (applyOpt L m c a).bind fun m => runOpts L m r

/-! ### The rest -/

/-- The files of the host: `fopen` followed by reading everything (`none` if it fails), and `access`. -/
structure FileEnv where
  libc : Libc
  read : Bytes → Option Bytes
  access : Bytes → Bool

/-- babeld.c:296-306. -/
def readFiles (e : FileEnv) : Conf → List Bytes → Except Exit Conf
  | s, [] => .ok s
  | s, f :: fs =>
    match e.read f with
    | none => .error (.file f)
    | some t =>
      match parseFile e.libc s t with
      | (_, .error _) => .error (.file f)
      | (s, .ok ()) => readFiles e s fs

/-- What the daemon starts with. -/
structure Start where
  conf : Conf
  names : List Bytes
  wireless : Int
  wired : Int
  resendDelay : Int
  split : Bool
  allWireless : Bool
deriving DecidableEq, Repr

/-- babeld.c:310-316. -/
def helloDefault (v : Int) : Int := max (if v ≤ 0 then 4000 else v) 5

/-- babeld.c:318-321; the integers are positive. -/
def resendDelayOf (wireless wired : Int) : Int := max (min (min 2000 (wireless / 2)) (wired / 2)) 20

/-- babeld.c:147-326: from the command line to the settings.  -/
def startUp (e : FileEnv) (args : List Bytes) : Except Exit Start :=
  let x := lexArgs none args
  (runOpts e.libc {} x.1).bind fun m =>
  let files := if m.files.isEmpty then (if e.access (ascii "/etc/babeld.conf") then [ascii "/etc/babeld.conf"] else []) else m.files
  (readFiles e m.conf files).bind fun s =>
  let s := if s.opts.daemonise ∧ s.opts.logFile = none then { s with opts := { s.opts with logFile := some (ascii "/var/log/babeld.log") } } else s
  .ok ⟨s, x.2, helloDefault m.wireless, helloDefault m.wired, resendDelayOf (helloDefault m.wireless) (helloDefault m.wired), m.split, m.allWireless⟩

/-- babeld.c:356-384: the pid file.  `files` are the files that exist, with their contents; `opens` says whether a file can be created where there is none, and
`written` how many bytes the system writes. -/
def writePid (pidfile : Bytes) (pid : Nat) (files : List (Bytes × Bytes)) (opens : Bool) (written : Nat) : Except Exit Unit × List (Bytes × Bytes) :=
  if pidfile.isEmpty then (.ok (), files)
  else
    let text := decDigits 20 pid
    if files.any (·.1 == pidfile) ∨ !opens then (.error .pid, files)
    else if written < text.length then (.error .pid, files)
    else (.ok (), (pidfile, text) :: files)

end Babel
