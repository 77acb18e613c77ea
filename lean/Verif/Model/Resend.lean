import Verif.Model.State
/-
Model of resend.c: the list of requests and updates to be sent again.
-/
namespace Babel

/-- resend.h:24 (milliseconds). -/
def REQUEST_TIMEOUT : Nat := 65000
/-- resend.h:25. -/
def RESEND_MAX : Nat := 3

/-- resend.c:41-50 `resend_match`. -/
def resendMatch (kind : RKind) (k : PKey) (r : Resend) : Bool := r.kind == kind && r.key == k

/-- resend.c:60-80 `find_resend`. -/
def findResend (s : St) (kind : RKind) (k : PKey) : Option Resend :=
  s.resends.find? (resendMatch kind k)

/-- Assignment through the pointer returned by `find_resend` (the first match). -/
def modFirst (p : Resend → Bool) (f : Resend → Resend) : List Resend → List Resend
  | [] => []
  | r :: l => if p r then f r :: l else r :: modFirst p f l

/-- resend.c:159-168 `resend_expired`. -/
def resendExpired (now : Timeval) (r : Resend) : Bool :=
  match r.kind with
  | .request => decide (timevalMinusMsec now r.time ≥ REQUEST_TIMEOUT)
  | .update => decide (r.max ≤ 0)

/-- The time at which an entry is due, resend.c:287, 305. -/
def resendDue (r : Resend) : Timeval := timevalAddMsec r.time (r.delay : Int)

/-- resend.c:285, 303: the entry still has to be sent. -/
def resendLive (now : Timeval) (r : Resend) : Bool :=
  !resendExpired now r && decide (r.delay > 0) && decide (r.max > 0)

/-- resend.c:277-294 `recompute_resend_time`. -/
def recomputeResendTime (s : St) : St :=
  let t := s.resends.foldl
    (fun t r => if resendLive s.now r then timevalMin t (resendDue r) else t) (⟨0, 0⟩ : Timeval)
  { s with resendTime := t }

/-- resend.c:113-130: update of an existing entry by `record_resend`; `true` in the second
component when the function returns early (line 122). -/
def refreshResend (now : Timeval) (seqno : UInt16) (id : Option Bytes) (ifp : Option IfId)
    (delay : Nat) (r : Resend) : Resend × Bool :=
  let r1 := { r with
    delay := if r.delay ≠ 0 ∧ delay ≠ 0 then min r.delay delay
             else if delay ≠ 0 then delay else r.delay
    time := now, max := RESEND_MAX }
  if id = some r1.id ∧ seqnoCompare r1.seqno seqno > 0 then (r1, true)
  else ({ r1 with id := id.getD [0,0,0,0,0,0,0,0], seqno := seqno,
                  ifp := if r1.ifp ≠ ifp then none else r1.ifp }, false)

/-- resend.c:131-149: a new entry. -/
def newResend (now : Timeval) (kind : RKind) (k : PKey) (seqno : UInt16) (id : Option Bytes)
    (ifp : Option IfId) (delay : Nat) : Resend :=
  ⟨kind, RESEND_MAX, delay, now, k, seqno, id.getD [0,0,0,0,0,0,0,0], ifp⟩

/-- resend.c:100-107: recording refused by a filter. -/
def recordDenied (c : Cfg) (kind : RKind) (k : PKey) (ifp : Option IfId) : Bool :=
  match kind with
  | .request => decide (c.inputFilter none k none (ifp.getD 0) ≥ INFINITY)
  | .update => decide (c.outputFilter none k (ifp.getD 0) ≥ INFINITY)

/-- resend.c:151-155. -/
def armResend (s : St) (r : Resend) : St :=
  if r.delay ≠ 0 then { s with resendTime := timevalMin s.resendTime (resendDue r) } else s

/-- resend.c:91-157 `record_resend` (allocation failure not modelled). -/
def recordResend (c : Cfg) (s : St) (kind : RKind) (k : PKey) (seqno : UInt16)
    (id : Option Bytes) (ifp : Option IfId) (delay0 : Nat) : St :=
  if recordDenied c kind k ifp then s
  else
    let delay := min delay0 65535
    match findResend s kind k with
    | some r =>
      let r' := refreshResend s.now seqno id ifp delay r
      let s1 := { s with resends := modFirst (resendMatch kind k) (fun _ => r'.1) s.resends }
      if r'.2 then s1 else armResend s1 r'.1
    | none =>
      let r := newResend s.now kind k seqno id ifp delay
      armResend { s with resends := r :: s.resends } r

/-- resend.c:170-186 `unsatisfied_request`. -/
def unsatisfiedRequest (s : St) (k : PKey) (seqno : UInt16) (id : Bytes) : Bool :=
  match findResend s .request k with
  | none => false
  | some r =>
    if resendExpired s.now r then false
    else decide (r.id ≠ id ∨ seqnoCompare r.seqno seqno ≤ 0)

/-- resend.c:188-218 `request_redundant`.  `ifp` is never NULL in its caller. -/
def requestRedundant (s : St) (i : IfId) (k : PKey) (seqno : UInt16) (id : Bytes) : Bool :=
  match findResend s .request k with
  | none => false
  | some r =>
    if resendExpired s.now r then false
    else if r.id = id ∧ seqnoCompare r.seqno seqno > 0 then false
    else if r.ifp ≠ none ∧ r.ifp ≠ some i then false
    else if r.max > 0 then true
    else decide (timevalMinusMsec s.now r.time <
      (match getIf s i with | some x => min x.helloInterval 1000 | none => 1000))

/-- resend.c:220-246 `satisfy_request`. -/
def satisfyRequest (s : St) (k : PKey) (seqno : UInt16) (id : Bytes) (ifp : Option IfId) : St :=
  match findResend s .request k with
  | none => s
  | some r =>
    if ifp ≠ none ∧ r.ifp ≠ ifp then s
    else if r.id ≠ id ∨ seqnoCompare r.seqno seqno ≤ 0 then
      recomputeResendTime { s with
        resends := modFirst (resendMatch .request k)
          (fun r => { r with max := 0, time := ⟨0, r.time.usec⟩ }) s.resends }
    else s

/-- resend.c:248-275 `expire_resend`. -/
def expireResend (s : St) : St :=
  if s.resends.any (resendExpired s.now) then
    recomputeResendTime
      { s with resends := s.resends.filter (fun r => !resendExpired s.now r) }
  else s

end Babel
