import Verif.Spec.Unicast
import Verif.Model.Hello
/-
What is said in hellos and IHUs.
-/
namespace Babel.Spec

/-- A hello: whether it is unicast, its number and its interval. -/
def asHello : Item → Option (Bool × Nat × Nat)
  | .hello u s i _ => some (u, s, i)
  | _ => none

/-- An IHU addressed to the reader: its cost and its interval. -/
def asIhu : Item → Option (Nat × Nat)
  | .ihu r i => some (r, i)
  | _ => none

/-- What the receiver of buffer `j` reads in the packets sent from it, and what it would read in a packet with what is still in
it. -/
def wholly (E : PEnv) (l : Link) (j : Nat) : List Item := (sentOn l j).flatMap (heard E) ++ unsent E l j

/-- The hellos among that, oldest first. -/
def hellosOn (E : PEnv) (l : Link) (j : Nat) : List (Bool × Nat × Nat) := (wholly E l j).filterMap asHello

/-- The IHUs addressed to the reader. -/
def ihusOn (E : PEnv) (l : Link) (j : Nat) : List (Nat × Nat) := (wholly E l j).filterMap asIhu

/-- Hellos with intervals `vs` and consecutive numbers, the first of which follows `q`; they are 16 bits wide. -/
def numbered (u : Bool) (q : UInt16) : List Nat → List (Bool × Nat × Nat)
  | [] => []
  | v :: vs => (u, (q + 1).toNat, v) :: numbered u (q + 1) vs

/-- Interface `i` neither goes down nor comes up. -/
def Staying (i : IfId) : TEv → Prop
  | .ev (.down x) => x ≠ i
  | .ev (.up x _ _ _) => x ≠ i
  | _ => True

/-- What is assumed of the events other than hellos and IHUs. -/
def TEvOk (e : DCfg) (X : PKey → Prop) : TEv → Prop
  | .ev x => DEvOk e Proper X SndOk x
  | _ => True

/-- The interval of scheduled hellos, in centiseconds, as it is written in the packet. -/
def helloCs (t : Talk) (i : IfId) : Nat := min ((helloMs t.d i + 9) / 10) 65535

/-- What an IHU to neighbour `n` should say: the cost of receiving from it, and three times the interval of hellos in centiseconds; both
are 16 bits wide. -/
def ihuFor (e : DCfg) (d : Daemon) (n : NeighId) (x : DNbr) : Nat × Nat :=
  (rxcost d.st.now (linkCfgOf e d.st (e.node.ifOf n)) x.link % 65536, (helloMs d (e.node.ifOf n) * 3 + 9) / 10 % 65536)

/-- Exactly the neighbours in `js` are told about the link, each in an IHU written to the buffer beside it. -/
def Tells (e : DCfg) (S : IfId → Prop) (d d' : Daemon) (js : List (NeighId × DNbr × Nat)) : Prop :=
  ∀ E : PEnv, linklocal E.sender = true → ∀ i j, j ≠ 0 ∨ S i →
    ihusOn E (d'.link i) j = ihusOn E (d.link i) j ++
      (js.filter fun p => e.node.ifOf p.1 == i && p.2.2 == j && E.isOurs (e.addr p.1)).map fun p => ihuFor e d p.1 p.2.1

/-- Neighbour `n` gets an IHU: whoever has its address reads one more, in packets sent to everyone on its interface or to it alone. -/
def Informed (e : DCfg) (d d' : Daemon) (n : NeighId) (x : DNbr) : Prop :=
  ∃ j, (j = 0 ∨ j = x.buf) ∧ ∀ E : PEnv, linklocal E.sender = true → E.isOurs (e.addr n) = true →
    (ihusOn E (d.link (e.node.ifOf n)) j).length < (ihusOn E (d'.link (e.node.ifOf n)) j).length

end Babel.Spec
