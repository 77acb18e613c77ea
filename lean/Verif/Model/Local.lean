import Verif.Model.Config
/-
Model of local.c:318-389 `local_read` and of the part of the main loop that calls it
(babeld.c:681-694).  The lines describing interfaces, neighbours and routes
(`local_notify_all_1`) are one abstract output, which is always written in full; memory allocation does not fail.
-/
namespace Babel

/-- local.h:35 -/
def LOCAL_BUFSIZE : Nat := 1024

/-- local.h:37-42 `struct local_socket`: the characters in the buffer, whether the client is
told about changes, and whether `shutdown` has been called. -/
structure Sock where
  buf : Bytes := []
  monitor : Bool := false
  shut : Bool := false
deriving DecidableEq, Repr

/-- What is sent to a client: a reply, the contents of all tables, the end of the stream. -/
inductive SockOut
  | reply (text : Bytes) | tables | close
deriving DecidableEq, Repr

/-- `errno`: EAGAIN and EINTR, or anything else. -/
inductive Errno
  | again | other
deriving DecidableEq, Repr

/-- The value of `read`. -/
inductive ReadRes
  | data (b : Bytes) | eof | err (e : Errno)
deriving DecidableEq, Repr

/-- The result of `local_read`: 1, 0, -1 with `errno`; or memory was freed twice by the parser. -/
inductive LocalRes
  | ok | eof | fail (e : Errno) | ub
deriving DecidableEq, Repr

/-- local.c:351-376: the new contents of `reply`, which keeps its value from line to line. -/
def replyAfter (reply : Bytes) : Except Fail LineAct → Bytes
  | .ok .quit => []
  | .ok .noSuchInterface => ascii "no No such interface\n"
  | .ok _ => reply
  | .error _ => ascii "bad\n"

/-- local.c:351-368: what a line does to the connection itself. -/
def sockAfter (k : Sock) : Except Fail LineAct → Sock × List SockOut
  | .ok .quit => ({ k with shut := true }, [.close])
  | .ok .dump => (k, [.tables])
  | .ok .monitor => ({ k with monitor := true }, [.tables])
  | .ok .unmonitor => ({ k with monitor := false }, [])
  | _ => (k, [])

/-- local.c:51-80 `write_timeout`: a write after `shutdown` fails with EPIPE; other writes fail, with
EAGAIN, if the client does not read for too long (`full`). -/
def canWrite (k : Sock) (full : Bool) : Except Errno Unit :=
  if k.shut then .error .other else if full then .error .again else .ok ()

/-- The behaviour of the parser was undefined. -/
def isDoubleFree : Except Fail LineAct → Bool
  | .error .doubleFree => true
  | _ => false

/-- local.c:343-383: the loop over the complete lines in the buffer.  `full` tells for each reply
whether the client fails to take it. -/
def localLoop (L : Libc) : Nat → List Bool → Bytes → Conf × Sock → Conf × Sock × List SockOut × LocalRes
  | 0, _, _, (s, k) => (s, k, [], .ok)
  | fuel + 1, full, reply, (s, k) =>
    if ¬ k.buf.contains 10 then (s, k, [], .ok)
    else
      let line := k.buf.takeWhile (· != 10) ++ [10]
      let (s, r) := parseString L s line
      if isDoubleFree r then (s, k, [], .ub)
      else
        let reply := replyAfter reply r
        let (k, o) := sockAfter k r
        if reply = [] then
          let (s, k, o', res) := localLoop L fuel full reply (s, { k with buf := k.buf.drop line.length })
          (s, k, o ++ o', res)
        else
          match canWrite k (full.head?.getD false) with
          | .error e => (s, { k with shut := true }, o ++ [.close], .fail e)
          | .ok () =>
            let (s, k, o', res) := localLoop L fuel full.tail reply (s, { k with buf := k.buf.drop line.length })
            (s, k, o ++ .reply reply :: o', res)

/-- local.c:318-389 `local_read`.  A `read` yields at most the number of characters asked for. -/
def localRead (L : Libc) (rd : ReadRes) (full : List Bool) (s : Conf) (k : Sock) :
    Conf × Sock × List SockOut × LocalRes :=
  if k.buf.length ≥ LOCAL_BUFSIZE then (s, { k with shut := true }, [.close], .fail .other)
  else
    match rd with
    | .eof => (s, k, [], .eof)
    | .err e => (s, k, [], .fail e)
    | .data b =>
      let k := { k with buf := k.buf ++ b.take (LOCAL_BUFSIZE - k.buf.length) }
      localLoop L k.buf.length full (ascii "ok\n") (s, k)

/-- babeld.c:681-694: one client in the main loop, given the results of the successive calls of
`read` and `write`.  `none`: the loop has not been left when there are no more results; otherwise
whether the connection is kept. -/
def serve (L : Libc) : List (ReadRes × List Bool) → Conf → Sock → Option (Conf × Sock × Bool)
  | [], _, _ => none
  | (rd, full) :: env, s, k =>
    match localRead L rd full s k with
    | (s, k, _, .ok) => some (s, k, true)
    | (s, k, _, .fail .again) => serve L env s k
    | (s, k, _, _) => some (s, k, false)

/-- A sequence of calls of `local_read` that each receive some characters and can write their
replies, as long as the connection lasts. -/
def session (L : Libc) : List Bytes → Conf → Sock → Conf × Sock × List SockOut × LocalRes
  | [], s, k => (s, k, [], .ok)
  | b :: bs, s, k =>
    match localRead L (.data b) [] s k with
    | (s, k, o, .ok) =>
      let (s, k, o', res) := session L bs s k
      (s, k, o ++ o', res)
    | r => r

end Babel
