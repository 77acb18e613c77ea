import Verif.Model.NetlinkRead
/-
Commands to the kernel and requests for dumps (kernel_netlink.c:517-622).
-/
namespace Babel

/-- The result of `sendmsg`: this many bytes were sent, it would block (EAGAIN) or was interrupted (EINTR), or
it failed otherwise. -/
inductive SendRes
  | sent (n : Nat)
  | again
  | other
deriving DecidableEq, Repr

/-- The value returned by `sendmsg`. -/
def SendRes.rc : SendRes → Int
  | .sent n => n
  | .again => -1
  | .other => -1

/-- kernel_netlink.c:546-555: `sendmsg`, tried again once if `wait_for_fd`, which returns `wait`, says
that this is possible. -/
def sendTwice (first : SendRes) (wait : Int) (second : SendRes) : Int :=
  if first = .again then
    if wait ≤ 0 then wait else second.rc
  else first.rc

/-- kernel_netlink.c:557, 614 `rc < nlmsg_len`: an `int` and an unsigned number of 32 bits are compared as unsigned numbers. -/
def shortSend (rc : Int) (len : Nat) : Bool := decide ((rc % 4294967296).toNat < len)

/-- kernel_netlink.c:517-567 `netlink_talk`, for a message of `len` bytes, given what `recvmsg` returns.  The result is
that of `netlink_read` (none: it waits for more), together with the new sequence number. -/
def netlinkTalk (pid : Nat) (seqno : UInt16) (len : Nat) (first : SendRes) (wait : Int) (second : SendRes) (rs : List Recv) :
    UInt16 × Option (NlRc × List Recv) :=
  let seqno := seqno + 1
  let rc := sendTwice first wait second
  if shortSend rc len then (seqno, some (.fail, rs))
  else (seqno, (netlinkRead true pid seqno.toNat none false rs).2)

/-- kernel_netlink.c:569-622 `netlink_send_dump`, for `len` bytes of data; the result is 0 or -1. -/
def sendDump (seqno : UInt16) (len : Nat) (res : SendRes) : UInt16 × Int :=
  if len = 0 then (seqno, -1)
  else
    let seqno := seqno + 1
    if shortSend res.rc (16 + len) then (seqno, -1) else (seqno, 0)

end Babel
