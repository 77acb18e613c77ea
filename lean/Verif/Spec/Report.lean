import Verif.Model.Report
import Verif.Spec.Config
import Verif.Spec.Range
/-
Specification for C79: how a client reads the lines it is sent, what is assumed of the C library
and of the system.
-/
namespace Babel.Spec

/-- `inet_ntop` writes what `inet_pton` reads; IPv4 addresses are written with digits and dots, at
most 15 characters; IPv6 addresses with hexadecimal digits, colons and dots, at most 45 characters,
and are not IPv4 addresses. -/
structure NtopOk (L : Libc) (T : Ntop) : Prop where
  read4 : ∀ a, a.length = 4 → L.pton4 (T.v4 a) = some a
  len4 : ∀ a, a.length = 4 → T.v4 a ≠ [] ∧ (T.v4 a).length ≤ 15
  chars4 : ∀ a, a.length = 4 → ∀ c ∈ T.v4 a, Digit c ∨ c = 46
  read6 : ∀ a, a.length = 16 → L.pton4 (T.v6 a) = none ∧ L.pton6 (T.v6 a) = some a
  len6 : ∀ a, a.length = 16 → (T.v6 a).length ≤ 45
  chars6 : ∀ a, a.length = 16 → ∀ c ∈ T.v6 a, (∃ d, IsHex c d) ∨ c = 58 ∨ c = 46

/-- Names of network interfaces of Linux: at most 15 characters, no white space. -/
def IfName (n : Bytes) : Prop := n.length ≤ 15 ∧ ∀ c ∈ n, c ≠ 32 ∧ c ≠ 10

/-- A string cut at a character. -/
def splitOn (x : UInt8) : Bytes → List Bytes
  | [] => [[]]
  | c :: t =>
    if c = x then [] :: splitOn x t
    else match splitOn x t with
      | w :: ws => (c :: w) :: ws
      | [] => [[c]]

/-- Keys and their values. -/
def pairs : List Bytes → Option (List (Bytes × Bytes))
  | [] => some []
  | [_] => none
  | k :: v :: t => (pairs t).map ((k, v) :: ·)

/-- What a line says: what happened, to what sort of object, to which one, and its properties. -/
structure Report where
  kind : Bytes
  obj : Bytes
  id : Bytes
  fields : List (Bytes × Bytes)
deriving DecidableEq, Repr

/-- A client reads a line: it ends with the only newline, and is cut at spaces. -/
def readReport (line : Bytes) : Option Report :=
  if line.getLast? = some 10 ∧ 10 ∉ line.dropLast then
    match splitOn 32 line.dropLast with
    | kind :: obj :: id :: rest => (pairs rest).map fun fs => ⟨kind, obj, id, fs⟩
    | _ => none
  else none

/-- The word for a kind of event. -/
def kindWord : NKind → Bytes
  | .add => ascii "add"
  | .change => ascii "change"
  | .flush => ascii "flush"

/-- `w` is a text for the router-id `id`: eight pairs of hexadecimal digits, between them colons. -/
def IdText (w id : Bytes) : Prop :=
  (splitOn 58 w).length = id.length ∧ ∀ i (h : i < id.length), Spells ((splitOn 58 w).getD i []) [id[i]]

/-- The client takes some bytes in this turn, perhaps after having been waited for. -/
def Progress (a : WTry) : Prop :=
  (∃ n, a.first = .sent (n + 1)) ∨ (a.first = .again ∧ a.ready = true ∧ ∃ n, a.second = .sent (n + 1))

/-- The texts that should be sent. -/
def textsOf : List ConnOp → List Bytes
  | [] => []
  | .text _ t _ :: ops => t :: textsOf ops
  | .quit :: ops => textsOf ops

end Babel.Spec
