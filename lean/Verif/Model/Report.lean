import Verif.Model.Config
import Verif.Model.Restart
import Verif.Model.State
/-
Model of the text sent to the clients of the local socket: the formatting functions of util.c and
the lines, the header and the writing of local.c.  `snprintf` is modelled by the text it is asked
for; that this text fits in the static buffers is C79_buffers, and the tests of local.c for lines
that do not fit are kept.
-/
namespace Babel

/-- `inet_ntop` for AF_INET and AF_INET6. -/
structure Ntop where
  v4 : Bytes → Bytes
  v6 : Bytes → Bytes

/-- A digit of `%x`. -/
def hexChar (n : Nat) : UInt8 := UInt8.ofNat (if n < 10 then 48 + n else 87 + n)

/-- `%lx`; `fuel` is at least the number of digits. -/
def hexDigits : Nat → Nat → Bytes
  | 0, _ => []
  | fuel + 1, n => if n < 16 then [hexChar n] else hexDigits fuel (n / 16) ++ [hexChar (n % 16)]

/-- `%04x`, of an `unsigned short`. -/
def hex4 (n : Nat) : Bytes :=
  let w := hexDigits 4 n
  List.replicate (4 - w.length) 48 ++ w

/-- util.c:288-300 `format_address`. -/
def formatAddress (T : Ntop) (a : Bytes) : Bytes :=
  if v4mapped a then T.v4 (a.drop 12) else T.v6 a

/-- util.c:302-319 `format_prefix`. -/
def formatPrefix (T : Ntop) (p : Bytes) (plen : Nat) : Bytes :=
  if plen ≥ 96 ∧ v4mapped p then T.v4 (p.drop 12) ++ 47 :: decDigits 3 (plen - 96)
  else T.v6 p ++ 47 :: decDigits 3 plen

/-- `%02x`. -/
def hex2 (b : UInt8) : Bytes := [hexChar (b.toNat / 16), hexChar (b.toNat % 16)]

/-- util.c:321-331 `format_eui64`. -/
def formatEui64 : Bytes → Bytes
  | [] => []
  | [b] => hex2 b
  | b :: bs => hex2 b ++ 58 :: formatEui64 bs

/-- util.c:333-340 `format_thousands`; the value is an `unsigned int`. -/
def formatThousands (v : Nat) : Bytes :=
  let w := decDigits 3 (v % 1000)
  decDigits 7 (v / 1000) ++ 46 :: (List.replicate (3 - w.length) 48 ++ w)

/-- local.c:82-91 `local_kind`. -/
def kindText : NKind → Bytes
  | .flush => ascii "flush"
  | .change => ascii "change"
  | .add => ascii "add"

/-- local.c:93-118: the line about an interface: its name, whether it is up, its link-local
addresses, its IPv4 address. -/
def ifLine (T : Ntop) (kind : NKind) (name : Bytes) (up : Bool) (ll : List Bytes) (ipv4 : Option Bytes) : Bytes :=
  let v4 := match ipv4 with
    | some a => if up then T.v4 a else []
    | none => []
  if up then
    kindText kind ++ ascii " interface " ++ name ++ ascii " up true" ++
      (match ll with
       | a :: _ => ascii " ipv6 " ++ formatAddress T a
       | [] => []) ++
      (if v4 = [] then [] else ascii " ipv4 ") ++ v4 ++ [10]
  else kindText kind ++ ascii " interface " ++ name ++ ascii " up false" ++ [10]

/-- What local.c:141-180 prints of a neighbour: its address in memory, its address, the name of its
interface, the history of multicast and unicast Hellos, its costs, the RTT and its cost if it is
valid. -/
structure NbrRep where
  ptr : Nat
  address : Bytes
  ifname : Bytes
  reach : Nat
  ureach : Nat
  rxcost : Nat
  txcost : Nat
  rtt : Option (Nat × Nat)
  cost : Nat
deriving DecidableEq, Repr

/-- local.c:148-154: `rttbuf`. -/
def rttText : Option (Nat × Nat) → Bytes
  | none => []
  | some (rtt, c) =>
    let t := ascii " rtt " ++ formatThousands rtt ++ ascii " rttcost " ++ decDigits 10 c
    if t.length ≥ 64 then [] else t

/-- local.c:156-172: the line about a neighbour. -/
def nbrLine (T : Ntop) (kind : NKind) (n : NbrRep) : Bytes :=
  kindText kind ++ ascii " neighbour " ++ hexDigits 16 n.ptr ++ ascii " address " ++ formatAddress T n.address ++
    ascii " if " ++ n.ifname ++ ascii " reach " ++ hex4 n.reach ++ ascii " ureach " ++ hex4 n.ureach ++
    ascii " rxcost " ++ decDigits 10 n.rxcost ++ ascii " txcost " ++ decDigits 10 n.txcost ++ rttText n.rtt ++
    ascii " cost " ++ decDigits 10 n.cost ++ [10]

/-- local.c:192-206: the line about a redistributed route. -/
def xrouteLine (T : Ntop) (kind : NKind) (p : Bytes) (plen : Nat) (sp : Bytes) (splen metric : Nat) : Bytes :=
  let dst := formatPrefix T p plen
  let src := formatPrefix T sp splen
  kindText kind ++ ascii " xroute " ++ dst ++ ascii "-" ++ src ++ ascii " prefix " ++ dst ++ ascii " from " ++ src ++
    ascii " metric " ++ decDigits 10 metric ++ [10]

/-- What local.c:229-253 prints of a route. -/
structure RouteRep where
  ptr : Nat
  pfx : Bytes
  plen : Nat
  src : Bytes
  srcPlen : Nat
  installed : Bool
  rid : Bytes
  metric : Nat
  refmetric : Nat
  via : Bytes
  ifname : Bytes
deriving DecidableEq, Repr

/-- local.c:246 -/
def yesNo (b : Bool) : Bytes := if b then ascii "yes" else ascii "no"

/-- local.c:229-253: the line about a route. -/
def routeLine (T : Ntop) (kind : NKind) (r : RouteRep) : Bytes :=
  kindText kind ++ ascii " route " ++ hexDigits 16 r.ptr ++ ascii " prefix " ++ formatPrefix T r.pfx r.plen ++
    ascii " from " ++ formatPrefix T r.src r.srcPlen ++ ascii " installed " ++
    yesNo r.installed ++ ascii " id " ++ formatEui64 r.rid ++
    ascii " metric " ++ decDigits 10 r.metric ++ ascii " refmetric " ++ decDigits 10 r.refmetric ++
    ascii " via " ++ formatAddress T r.via ++ ascii " if " ++ r.ifname ++ [10]

/-- local.c:393-406: the header; `none` if `gethostname` fails. -/
def headerText (version : Bytes) (host : Option Bytes) (myid : Bytes) : Bytes :=
  ascii "BABEL 1.0\nversion " ++ version ++ ascii "\nhost " ++ (host.getD (ascii "alamakota")) ++
    ascii "\nmy-id " ++ formatEui64 myid ++ ascii "\nok\n"

/-! ### Writing -/

/-- The value of `write`: the number of bytes, EAGAIN or EINTR, another error. -/
inductive WRes
  | sent (n : Nat) | again | fail
deriving DecidableEq, Repr

/-- What happens in one turn of the loop of `write_timeout`: the value of the first `write`, whether
the socket becomes writable within 100 ms, the value of the second `write`. -/
structure WTry where
  first : WRes
  ready : Bool
  second : WRes
deriving DecidableEq, Repr

/-- local.c:57-66: the number of bytes sent in one turn, 0 if the loop is left. -/
def tryWrite (a : WTry) (len : Nat) : Nat :=
  match a.first with
  | .sent n => min n len
  | .fail => 0
  | .again =>
    if a.ready then
      match a.second with
      | .sent n => min n len
      | _ => 0
    else 0

/-- local.c:51-80 `write_timeout`: what is sent, and whether the value is 1.  There are at most as
many turns as bytes; `env` tells what happens in each. -/
def writeTimeout : Nat → (Nat → WTry) → Bytes → Bytes × Bool
  | 0, _, b => ([], b.isEmpty)
  | fuel + 1, env, b =>
    if b = [] then ([], true)
    else
      let n := tryWrite (env 0) b.length
      if n = 0 then ([], false)
      else
        let r := writeTimeout fuel (fun i => env (i + 1)) (b.drop n)
        (b.take n ++ r.1, r.2)

/-- A connection: all that was sent, whether `shutdown` was called. -/
structure Conn where
  sent : Bytes := []
  shut : Bool := false
deriving DecidableEq, Repr

/-- What is done with a connection: a text is formatted in a buffer of the given size and written;
the client asks for the end of the connection (local.c:354-357). -/
inductive ConnOp
  | text (size : Nat) (t : Bytes) (env : Nat → WTry)
  | quit

/-- local.c:115-125, 170-180, 204-214, 250-260, 376-381, 404-419: a text that does not fit is not sent and the connection is shut
down; so is it if the text cannot be written.  After `shutdown`, `write` fails with EPIPE (SIGPIPE is ignored, babeld.c:1000-1002). -/
def connStep (c : Conn) : ConnOp → Conn
  | .quit => { c with shut := true }
  | .text size t env =>
    if t.length ≥ size then { c with shut := true }
    else if c.shut then c
    else
      let r := writeTimeout t.length env t
      { sent := c.sent ++ r.1, shut := !r.2 }

end Babel
