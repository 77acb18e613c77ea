import Verif.Spec.Queue
/-
What the neighbours on an interface have been told.
-/
namespace Babel.Spec

/-- An update about `k` on interface `i`. -/
def aboutKey (i : IfId) (k : PKey) : Out → Bool
  | .update j _ k' _ _ => j == i && k' == k
  | _ => false

/-- The last update about `k` that was sent on interface `i`, given everything that was sent, last first. -/
def lastUpdate (i : IfId) (k : PKey) (out : List Out) : Option Out := out.find? (aboutKey i k)

/-- The neighbours on interface `i` have been told the truth about `k`, or will be when the queue of the
interface is flushed: `k` is queued, or the last update sent about it is the one that should be sent now, or
there is none to be sent. -/
def UpToDate (c : Cfg) (s : St) (i : IfId) (k : PKey) : Prop :=
  ∀ ifp, getIf s i = some ifp → ifp.up = true →
    k ∈ ifp.queue ∨ ∀ o, announcement c s ifp k = some o → lastUpdate i k s.out = some o

end Babel.Spec
