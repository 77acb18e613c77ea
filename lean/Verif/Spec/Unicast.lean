import Verif.Spec.Daemon
/-
What a single neighbour is told.
-/
namespace Babel.Spec

/-- A hello or IHU. -/
def isChat : Item → Bool
  | .hello _ _ _ _ => true
  | .ihu _ _ => true
  | _ => false

/-- What the receiver of buffer `j` reads in the packets sent from it, and what it would read in a packet with what is still in
it, apart from hellos and IHUs. -/
def privately (E : PEnv) (l : Link) (j : Nat) : List Item :=
  ((sentOn l j).flatMap (heard E) ++ unsent E l j).filter fun it => !isChat it

/-- What an output of the routing part says to neighbour `n` alone: it is either meant for this neighbour, or for everyone on its
interface, to whom the daemon is configured to speak one by one.  `c` are the circumstances on that interface. -/
def saidTo (e : DCfg) (E : PEnv) (c : SIf) (n : NeighId) : Out → List Item
  | .update i id k q m =>
    if i = e.node.ifOf n ∧ (e.ifs i).unicast = true then told E c false (.update id k q.toNat m) else []
  | .request i to k =>
    if to = some n ∨ (to = none ∧ i = e.node.ifOf n ∧ (e.ifs i).unicast = true ∧ c.up = true) then told E c false (.request k) else []
  | .mhRequest i to k q id h =>
    if to = some n ∨ (to = none ∧ i = e.node.ifOf n ∧ (e.ifs i).unicast = true ∧ c.up = true) then
      told E c false (.seqnoRequest k q.toNat id h)
    else []
  | _ => []

/-- The TLV with which a challenge or the reply to one is sent (RFC 8967). -/
def challengeTlv : Challenge → Tlv
  | .request b => .tlv 18 b
  | .reply b => .tlv 19 b

end Babel.Spec
