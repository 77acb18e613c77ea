import Verif.Model.Main
import Verif.Spec.Config
/-
The command line as the manual describes it.
-/
namespace Babel.Spec

/-- Options without argument. -/
def flags : List Char := ['s', 'r', 'l', 'w', 'D', 'V']

/-- Options with an argument (`i` is accepted by the parser, but has no meaning). -/
def withArg : List Char := ['m', 'p', 'h', 'H', 'i', 'k', 'A', 'S', 'd', 'g', 'G', 'M', 't', 'T', 'c', 'C', 'L', 'I']

/-- The letter of an option. -/
def letter (c : UInt8) : Char := Char.ofNat c.toNat

/-- `args` consists of the options `opts`, with their arguments, and the operands `ops`.  Options without arguments can be joined; an argument can be joined to
its option; options can come after operands; everything after `--` is an operand. -/
inductive CommandLine : List Bytes → List (UInt8 × Bytes) → List Bytes → Prop
  | done : CommandLine [] [] []
  | dashes {ops} : CommandLine ([45, 45] :: ops) [] ops
  | operand {w args opts ops} : (w.head? ≠ some 45 ∨ w = [45]) → CommandLine args opts ops → CommandLine (w :: args) opts (w :: ops)
  | flag {c args opts ops} : letter c ∈ flags → CommandLine args opts ops → CommandLine ([45, c] :: args) ((c, []) :: opts) ops
  | joined {c d cs args opts ops} : letter c ∈ flags → d ≠ 45 → CommandLine ((45 :: d :: cs) :: args) opts ops →
      CommandLine ((45 :: c :: d :: cs) :: args) ((c, []) :: opts) ops
  | separate {c a args opts ops} : letter c ∈ withArg → CommandLine args opts ops → CommandLine ([45, c] :: a :: args) ((c, a) :: opts) ops
  | attached {c a args opts ops} : letter c ∈ withArg → a ≠ [] → CommandLine args opts ops → CommandLine ((45 :: c :: a) :: args) ((c, a) :: opts) ops

/-- The arguments of an option, in order. -/
def argsOf (opts : List (UInt8 × Bytes)) (ch : Char) : List Bytes := (opts.filter fun o => letter o.1 == ch).map (·.2)

/-- The last argument of an option. -/
def lastArg (opts : List (UInt8 × Bytes)) (ch : Char) : Option Bytes := (argsOf opts ch).getLast?

/-- The option is given. -/
def has (opts : List (UInt8 × Bytes)) (ch : Char) : Bool := opts.any fun o => letter o.1 == ch

/-- The last of the options `-g` and `-G`. -/
def server (opts : List (UInt8 × Bytes)) : Option (Bool × Bytes) :=
  ((opts.filter fun o => letter o.1 == 'g' || letter o.1 == 'G').getLast?).map fun o => (letter o.1 == 'G', o.2)

/-- A number in decimal, octal or hexadecimal. -/
inductive Numeral : Bytes → Nat → Prop
  | dec {w n} : Digits 10 0 w n → w ≠ [] → w.head? ≠ some 48 → Numeral w n
  | oct {w n} : Digits 8 0 w n → Numeral (48 :: w) n
  | hex {x w n} : (x = 120 ∨ x = 88) → Digits 16 0 w n → w ≠ [] → Numeral (48 :: x :: w) n

/-- An argument that spells a number: white space, a sign, a number, blanks.  Only zero can have a minus sign.  An argument without anything counts as zero. -/
inductive NatText : Bytes → Nat → Prop
  | blank {a} : (∀ c ∈ a, c = 32 ∨ c = 9) → NatText a 0
  | num {sp sg w t n} : (∀ c ∈ sp, c = 32 ∨ 9 ≤ c ∧ c ≤ 13) → (sg = [] ∨ sg = [43] ∨ sg = [45] ∧ n = 0) → Numeral w n → (∀ c ∈ t, c = 32 ∨ c = 9) →
      NatText (sp ++ (sg ++ (w ++ t))) n

/-- A number in a range. -/
def InRangeNat (lo hi : Int) (a : Bytes) : Prop := lo ≤ parseNat a ∧ parseNat a ≤ hi

/-- The option is acceptable. -/
def GoodOpt (L : Libc) (c : UInt8) (a : Bytes) : Prop :=
  match letter c with
  | 'm' => ∃ x f, parseAddress L a = some (x, f) ∧ x.head? = some 0xff
  | 'p' => InRangeNat 1 65535 a
  | 'h' => 0 < parseThousands a ∧ parseThousands a ≤ 655350
  | 'H' => 0 < parseThousands a ∧ parseThousands a ≤ 655350
  | 'k' => InRangeNat 0 65535 a
  | 'A' => InRangeNat 0 65535 a
  | 'd' => InRangeNat 0 2147483647 a
  | 'g' => a.head? = some 47 ∨ InRangeNat 1 65535 a
  | 'G' => a.head? = some 47 ∨ InRangeNat 1 65535 a
  | 'M' => InRangeNat 0 3600 a
  | 't' => InRangeNat 0 65535 a
  | 'T' => InRangeNat 0 65535 a
  | 'V' => False
  | 'i' => False
  | ch => ch ∈ flags ∨ ch ∈ withArg

/-- The number given last, or a default. -/
def num (opts : List (UInt8 × Bytes)) (ch : Char) (default : Int) : Int := ((lastArg opts ch).map parseNat).getD default

/-- What a command line without statements (`-C`) means: the last of several options counts, except that configuration files and imported tables add up. -/
def meaning (L : Libc) (opts : List (UInt8 × Bytes)) : Cmd where
  conf := { opts := {
    protocolPort := (num opts 'p' 6696).toNat
    kernelMetric := num opts 'k' 0
    allowDuplicates := num opts 'A' (-1)
    localPort := match server opts with
      | none => -1
      | some (_, a) => if a.head? = some 47 then -1 else parseNat a
    localPath := match server opts with
      | none => none
      | some (_, a) => if a.head? = some 47 then some a else none
    localWrite := match server opts with
      | none => false
      | some (w, _) => w
    exportTable := num opts 't' (-1)
    importTables := (argsOf opts 'T').map fun a => (parseNat a).toNat
    linkDetect := has opts 'l'
    randomId := has opts 'r'
    daemonise := has opts 'D'
    group := (((lastArg opts 'm').bind (parseAddress L)).map (·.1)).getD [0xff, 2, 0, 0, 0, 0, 0, 0, 0, 0, 0, 0, 0, 1, 0, 6]
    stateFile := (lastArg opts 'S').getD (ascii "/var/lib/babel-state")
    logFile := lastArg opts 'L'
    pidFile := (lastArg opts 'I').getD (ascii "/var/run/babeld.pid")
    debug := (num opts 'd' 0).toNat
    halfLife := (num opts 'M' 4).toNat } }
  wireless := ((lastArg opts 'h').map parseThousands).getD (-1)
  wired := ((lastArg opts 'H').map parseThousands).getD (-1)
  split := !has opts 's'
  allWireless := has opts 'w'
  files := argsOf opts 'c'

/-- The files that are read: those of the command line, otherwise the default file if it exists. -/
def toRead (e : FileEnv) (opts : List (UInt8 × Bytes)) : List Bytes :=
  match argsOf opts 'c' with
  | [] => if e.access (ascii "/etc/babeld.conf") then [ascii "/etc/babeld.conf"] else []
  | fs => fs

/-- A hello interval, in milliseconds: 4 seconds unless given. -/
def HelloInterval (opts : List (UInt8 × Bytes)) (ch : Char) (v : Int) : Prop :=
  match lastArg opts ch with
  | none => v = 4000
  | some a => 5 ≤ v ∧ (v = parseThousands a ∨ v = 5 ∧ parseThousands a < 5)

/-- The delay before something is sent again: two seconds, half of a hello interval if that is less, but at least 20 milliseconds. -/
def ResendDelay (wireless wired v : Int) : Prop :=
  20 ≤ v ∧ v ≤ 2000 ∧ (20 < v → 2 * v ≤ wireless ∧ 2 * v ≤ wired) ∧ (v < 2000 → wireless < 2 * (v + 1) ∨ wired < 2 * (v + 1))

end Babel.Spec
