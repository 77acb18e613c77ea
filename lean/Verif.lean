import Verif.Props.Util
import Verif.Props.Prefix
import Verif.Props.Literals
import Verif.Props.Table
import Verif.Props.Selected
import Verif.Props.Expiry
import Verif.Props.Metric
import Verif.Props.Choice
import Verif.Props.Queue
import Verif.Props.Requests
import Verif.Props.Forward
import Verif.Props.Neighbour
import Verif.Props.Wire
import Verif.Props.Buffer
import Verif.Props.Auth
import Verif.Props.Config
import Verif.Props.Local
import Verif.Props.Restart
import Verif.Props.Reject
import Verif.Props.Xroute
import Verif.Props.Deny
import Verif.Props.Teardown
import Verif.Props.Lost
import Verif.Props.Net
import Verif.Props.Netlink
import Verif.Props.NetlinkRead
import Verif.Props.Recost
import Verif.Props.Dup
import Verif.Props.NewRoute
import Verif.Props.Newer
import Verif.Props.Satisfy
import Verif.Props.IfParams
import Verif.Props.Daemon
import Verif.Props.DNet
import Verif.Props.Loop
import Verif.Props.Stuck
import Verif.Props.Packet
import Verif.Props.Unicast
import Verif.Props.Hello
import Verif.Props.Origin
import Verif.Props.Host
import Verif.Props.TwoWay
import Verif.Props.Identity
import Verif.Props.TwoRoute
import Verif.Props.Sockets
import Verif.Props.Main
import Verif.Props.Monitor
import Verif.Props.Report
import Verif.Props.Hub
import Verif.Props.System
import Verif.Props.Talk
import Verif.Props.Signals
import Verif.Props.Farewell
import Verif.Props.Room
import Verif.Spec.Pending
import Verif.Lemmas.Pending
import Verif.Props.Pending
import Verif.Lemmas.Armed
import Verif.Props.Armed
