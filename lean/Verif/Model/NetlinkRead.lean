import Verif.Model.Netlink
/-
Model of kernel_netlink.c: reading from the netlink sockets.
-/
namespace Babel

/-- What is done with a message: `filter_netlink` (kernel_netlink.c:1462-1505) is called with it, or
`check_interfaces`. -/
inductive NlEv
  | deliver (msg : Bytes)
  | checkInterfaces
deriving DecidableEq, Repr, Inhabited

/-- How the loop over the messages of a datagram ends: the variable `done` is 0 or 1, or `netlink_read` returns 0
(an acknowledgment) or -1 with this `errno`; `undef` if something that was not received is read. -/
inductive NlEnd
  | more
  | done
  | ack
  | error (errno : Int)
  | undef
deriving DecidableEq, Repr, Inhabited

/-- kernel_netlink.c:452-495, the loop over the messages of a datagram.  `d` is what remains of the
datagram.  `answer`: an answer to the request `seqno` of the socket `pid` is awaited; `ignore` is
`nl_ignore`; `filter` tells if there is a filter.  `netlink_get_extack`, which only prints a message, is modelled
below. -/
def nlWalk (answer : Bool) (pid seqno : Nat) (ignore : Option Nat) (filter : Bool) :
    (fuel : Nat) → (d : Bytes) → (done : Bool) → List NlEv × NlEnd
  | 0, _, _ => ([], .undef)
  | fuel + 1, d, done =>
    match hrd32 d 0, hrd16 d 4, hrd32 d 8, hrd32 d 12 with
    | some l, some type, some seq, some p =>
      if l < 16 || l > d.length then ([], if done then .done else .more)
      else
        let done := done || !answer
        let next := nlWalk answer pid seqno ignore filter fuel (d.drop (align4 l)) done
        if ignore == some p then next
        else if answer && (p != pid || seq != seqno) then next
        else if type = NLMSG_DONE then ([], .done)
        else if type = NLMSG_ERROR then
          match hrd32 d 16 with
          | some e => ([], if e = 0 then .ack else .error (-toInt e))
          | none => ([], .undef)
        else
          let ev := (if type = RTM_NEWLINK ∨ type = RTM_DELLINK then [NlEv.checkInterfaces] else []) ++
            (if filter then [NlEv.deliver (d.take l)] else [])
          (ev ++ next.1, next.2)
    | _, _, _, _ => ([], if done then .done else .more)

/-- What `recvmsg` returns: an error, the end of the file, a datagram whose sender's address has another
length, or one with this sender. -/
inductive Recv
  | fail
  | eof
  | badName
  | data (sender : Nat) (d : Bytes)
deriving DecidableEq, Repr, Inhabited

/-- The result of `netlink_read`: 0, -1, or -1 after the socket has been closed. -/
inductive NlRc
  | ok
  | fail
  | closed
  | undef
deriving DecidableEq, Repr, Inhabited

/-- kernel_netlink.c:382-500 `netlink_read`, given what `recvmsg` returns; the part of it that was not used is
returned too.  `none`: it waits for more. -/
def netlinkRead (answer : Bool) (pid seqno : Nat) (ignore : Option Nat) (filter : Bool) :
    List Recv → List NlEv × Option (NlRc × List Recv)
  | [] => ([], none)
  | r :: rs =>
    match r with
    | .fail => ([], some (.fail, rs))
    | .eof => ([], some (.closed, rs))
    | .badName => ([], some (.closed, rs))
    | .data sender d =>
      if sender ≠ 0 then ([], some (.fail, rs))
      else
        let w := nlWalk answer pid seqno ignore filter (d.length + 1) d false
        match w.2 with
        | .more =>
          let n := netlinkRead answer pid seqno ignore filter rs
          (w.1 ++ n.1, n.2)
        | .done => (w.1, some (.ok, rs))
        | .ack => (w.1, some (.ok, rs))
        | .error _ => (w.1, some (.fail, rs))
        | .undef => (w.1, some (.undef, rs))

/-- kernel_netlink.c:357-390 `netlink_get_extack`: the number of bytes at the beginning of the
buffer among which all those that are read are.  `nh` is the offset of the message, `n` the length of
the datagram.  `NLMSG_ALIGN(int)` is `((int)+4U-1) & ~(4U-1)`, that is 0. -/
def extackLoop (buf : Bytes) : (fuel : Nat) → (off : Nat) → (len : Int) → (seen : Nat) → (msg : Option Nat) → Nat × Option Nat
  | 0, _, _, seen, msg => (seen, msg)
  | fuel + 1, off, len, seen, msg =>
    if len < 4 then (seen, msg)
    else
      let seen := max seen (off + 2)
      match hrd16 buf off, hrd16 buf (off + 2) with
      | some l, some type =>
        if l < 4 || (l : Int) > len then (seen, msg)
        else extackLoop buf fuel (off + align4 l) (len - align4 l) (max seen (off + 4))
          (if type = 1 then some (off + 4) else msg)
      | _, _ => (seen, msg)

/-- kernel_netlink.c:357-390 `netlink_get_extack`. -/
def extackReads (buf : Bytes) (nh n : Nat) (done : Bool) : Nat :=
  let flags := (hrd16 buf (nh + 6)).getD 0
  if !done && flags &&& 0x200 = 0 then 0
  else
    let r := extackLoop buf (buf.length + 1) (nh + 16 + (if done then 4 else 20))
      ((n : Int) - nh - (if done then 0 else 20)) 0 none
    match r.2 with
    | some i => max r.1 (i + 1)
    | none => r.1

/-- kernel_netlink.c:1305-1328 `kernel_dump`: the families and tables of the requests for routes, in
order.  Each is followed by `netlink_read`. -/
def dumpRequests (perTable : Bool) (tables : List Nat) : List (Nat × Nat) :=
  [AF_INET6, AF_INET].flatMap fun f => ((if perTable then tables else tables.take 1).map fun t => (f, t))

end Babel
