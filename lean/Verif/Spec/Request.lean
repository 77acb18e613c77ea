import Verif.Spec.Queue
/-
Requests and their retransmission.
-/
namespace Babel.Spec

/-- The pending entry for a destination: there is at most one request and at most one update. -/
def pending (s : St) (kd : RKind) (k : PKey) : Option Resend :=
  s.resends.find? (fun r => r.kind == kd && r.key == k)

/-- A filter denies requests, respectively announcements, of `k`, whatever the originator and neighbour, on the given
interface (0 if there is none). -/
def FilteredOut (c : Cfg) (kd : RKind) (k : PKey) (i : Option IfId) : Prop :=
  match kd with
  | .request => 65535 ≤ c.inputFilter none k none (i.getD 0)
  | .update => 65535 ≤ c.outputFilter none k (i.getD 0)

/-- An entry that has just been recorded: it may be sent three more times. -/
def Recorded (now : Timeval) (r : Resend) : Prop := r.max = 3 ∧ r.time = now

/-- A cancelled request: it looks as if it had been recorded when the machine was booted. -/
def Cancelled (r : Resend) : Prop := r.kind = .request ∧ r.time.sec = 0

/-- The time since the entry was recorded exceeds 65 s, or the update was sent three times. -/
def Lapsed (now : Timeval) (r : Resend) : Prop :=
  match r.kind with
  | .request => 65000 ≤ timevalMinusMsec now r.time
  | .update => r.max = 0

/-- The entry must be sent now. -/
def Due (now : Timeval) (r : Resend) : Prop :=
  ¬ Lapsed now r ∧ 0 < r.delay ∧ 0 < r.max ∧ timevalCompare now (timevalAddMsec r.time (r.delay : Int)) ≥ 0

/-- The entry after a retransmission: one less to go, and twice the delay (at most 65535 ms). -/
def Resent (r r' : Resend) : Prop := r' = { r with max := r.max - 1, delay := min 65535 (2 * r.delay) }

/-- The seqno request for `k` can be answered by this router: it redistributes `k`, or its selected route has
another origin than the one asked for, or a sequence number that is recent enough. -/
def Answerable (c : Cfg) (s : St) (k : PKey) (q : UInt16) (id : Bytes) : Prop :=
  (∃ x, ownRoute c s k = some x) ∨ ∃ r, selectedRoute s k = some r ∧ (r.id ≠ id ∨ ¬ NewerEq q r.seqno)

/-- The request asks for a sequence number implausibly far ahead of the selected route (by exactly half
the number space is ambiguous, and not considered far). -/
def FarAhead (s : St) (k : PKey) (q : UInt16) (id : Bytes) : Prop :=
  ∃ r, selectedRoute s k = some r ∧ r.id = id ∧ 100 < (q - r.seqno).toNat ∧ (q - r.seqno).toNat < 32768

/-- A request for `k` that arrived through interface `i` is considered redundant: a request for `k` is pending,
arrived or was sent through the same interface or through several, did not ask for a newer sequence number of the
same origin, and it is still to be sent again or was made within the last second (or hello interval). -/
def Redundant (s : St) (i : IfId) (k : PKey) (q : UInt16) (id : Bytes) : Prop :=
  ∃ r, pending s .request k = some r ∧ timevalMinusMsec s.now r.time < 65000 ∧
    ¬ (r.id = id ∧ NewerEq r.seqno q) ∧ (r.ifp = none ∨ r.ifp = some i) ∧
    (0 < r.max ∨ timevalMinusMsec s.now r.time <
      (match s.ifaces.find? (fun x => x.ifindex == i) with | some x => min x.helloInterval 1000 | none => 1000))

end Babel.Spec
