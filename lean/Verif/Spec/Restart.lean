import Verif.Model.Restart
namespace Babel.Spec

/-- How many of the events change the router's own sequence number. -/
def bumps (c : Cfg) : St → List Ev → Nat
  | _, [] => 0
  | s, e :: es => (if (step c s e).myseqno = s.myseqno then 0 else 1) + bumps c (step c s e) es

/-- The same for several lives; each start counts too. -/
def livesBumps (c : Cfg) : UInt16 → List Life → Nat
  | _, [] => 0
  | q, l :: ls =>
    bumps c (St.init l.now q l.ifaces l.ncost l.rand l.kres) l.evs + 1 +
      livesBumps c (startSeqno l.random (saveState true true (l.endState c q).myseqno) true true) ls

end Babel.Spec
