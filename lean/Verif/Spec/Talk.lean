import Verif.Spec.NetlinkRead
import Verif.Model.Talk
/-
Specification for C82: answers of the kernel.
-/
namespace Babel.Spec

/-- The number of `n` bytes (least significant first) at the given place. -/
def fieldAt (b : Bytes) (i n : Nat) : Nat := leVal ((b.drop i).take n)

/-- The datagram contains a message to socket `pid` that answers the command `seq`, and says that it has been
carried out: an acknowledgment (type 2, with error 0) or the end of the answer (type 3). -/
def Confirms (d : Bytes) (pid seq : Nat) : Prop :=
  ∃ pre msg, d = pre ++ msg ∧ 16 ≤ msg.length ∧ fieldAt msg 8 4 = seq ∧ fieldAt msg 12 4 = pid ∧
    (fieldAt msg 4 2 = 3 ∨ (fieldAt msg 4 2 = 2 ∧ 20 ≤ msg.length ∧ fieldAt msg 16 4 = 0))

/-- What `sendmsg` did with the message: it was sent completely, if necessary at the second attempt. -/
def SentWhole (len : Nat) (first : SendRes) (wait : Int) (second : SendRes) : Prop :=
  first = .sent len ∨ (first = .again ∧ 0 < wait ∧ second = .sent len)

end Babel.Spec
