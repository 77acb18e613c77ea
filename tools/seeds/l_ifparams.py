IP="Model/IfParams.lean"
def d(f,defn,old,new,claim,**k): return dict(file=f,**{"def":defn},old=old,new=new,claim=claim,**k)
SEEDS=[
 d(IP,"defaultHello","opt.getD 4000","opt.getD 2000","the default hello interval"),
 d(IP,"defaultHello","max (opt.getD 4000) 5","opt.getD 4000","hello intervals are at least 5 ms"),
 d(IP,"sendBufferSize","if mtu < 0 then 1280","if mtu < 0 then 1500","the MTU assumed when it is unknown"),
 d(IP,"sendBufferSize","if mtu < 512 then 512","if mtu < 0 then 512","the smallest buffer"),
 d(IP,"sendBufferSize","mtu - 4 - 48","mtu - 48","the header is counted"),
 d(IP,"ifType","if e.allWireless then IF_TYPE_WIRELESS","if e.allWireless then IF_TYPE_WIRED","option -w"),
 d(IP,"ifType","if e.wireless < 0 then c.type","if e.wireless < 0 then IF_TYPE_WIRELESS","interfaces of unknown kind"),
 d(IP,"ifType","else if e.wireless ≠ 0 then IF_TYPE_WIRELESS","else if e.wireless > 1 then IF_TYPE_WIRELESS","wireless interfaces are recognised"),
 d(IP,"ifType","if c.type = IF_TYPE_DEFAULT then","if c.type ≠ IF_TYPE_TUNNEL then","a configured type wins"),
 d(IP,"setFlag","if conf = CONFIG_YES then flagSet f b","if conf = CONFIG_YES then flagClear f b","an option that is set is on"),
 d(IP,"setFlag","else if conf = CONFIG_NO then flagClear f b","else if conf = CONFIG_NO then f","an option that is cleared is off after reconfiguration"),
 d(IP,"setFlag","  else if dflt then flagSet f b\n  else flagClear f b","  else if dflt then flagSet f b\n  else f","defaults do not depend on the past"),
 d(IP,"ifFlags","flagSet f IFB_WIRELESS else flagClear f IFB_WIRELESS","flagSet f IFB_WIRELESS else f","a wired interface is not wireless"),
 d(IP,"ifFlags","c.splitHorizon (type == IF_TYPE_WIRED)","c.splitHorizon (type == IF_TYPE_WIRELESS)","split horizon on wireless links"),
 d(IP,"ifFlags","c.lq (type == IF_TYPE_WIRELESS)","c.lq (type == IF_TYPE_WIRED)","link quality estimation"),
 d(IP,"ifFlags","if c.unicast = CONFIG_YES then flagSet f IFB_UNICAST","if c.unicast = CONFIG_YES then flagSet f IFB_FARAWAY","option unicast"),
 d(IP,"ifFlags","flagSet f IFB_ACCEPT_BAD_SIGNATURES\n    else flagClear f IFB_ACCEPT_BAD_SIGNATURES","flagSet f IFB_ACCEPT_BAD_SIGNATURES\n    else f","option accept-bad-signatures is off again"),
 d(IP,"ifFlags","if c.acceptBad = CONFIG_YES","if c.acceptBad ≠ CONFIG_NO","bad signatures are refused by default"),
 d(IP,"ifFlags","c.timestamps (type == IF_TYPE_TUNNEL)","c.timestamps true","timestamps are for tunnels"),
 d(IP,"ifFlags","flagSet f IFB_RFC6126 else flagClear f IFB_RFC6126","flagSet f IFB_RFC6126 else f","option rfc6126-compatible"),
 d(IP,"ifFlags","else e.safeV4viaV6","else true","v4-via-v6 only if the kernel is safe"),
 d(IP,"ifFlags","if c.v4viav6 = CONFIG_NO then false","if c.v4viav6 = CONFIG_NO then true","option v4-via-v6"),
 d(IP,"ifParams","if c.helloInterval > 0 then c.helloInterval","if c.helloInterval > 4000 then c.helloInterval","the configured hello interval"),
 d(IP,"ifParams","else if type = IF_TYPE_WIRELESS then e.wirelessHello","else if type = IF_TYPE_WIRELESS then e.wiredHello","the hello interval of wireless interfaces"),
 d(IP,"ifParams","if c.updateInterval > 0 then c.updateInterval else hello * 4","if c.updateInterval > 0 then c.updateInterval else hello * 3","updates every four hellos"),
 d(IP,"ifParams","flushInterval := hello / 2","flushInterval := hello","flush interval"),
 d(IP,"ifParams","if c.cost ≤ 0 then (if type = IF_TYPE_WIRELESS then 256 else 96)","if c.cost ≤ 0 then (if type = IF_TYPE_WIRELESS then 96 else 256)","default costs"),
 d(IP,"ifParams","if rttMax ≤ rttMin then rttMin + 10000","if rttMax < rttMin then rttMin + 10000","rtt-max exceeds rtt-min"),
 d(IP,"ifParams","c.maxRttPenalty = 0 ∧ type = IF_TYPE_TUNNEL then 96","type = IF_TYPE_TUNNEL then 96","a configured penalty is used"),
 d(IP,"ifBringDown","flagClear i.flags IFB_UP","i.flags","an interface that failed is down"),
 d(IP,"ifBringDown","bufSize := 0","bufSize := i.bufSize","no buffer while down"),
 d(IP,"ifBringUp","if e.ifindex = 0 then ifBringDown i","if e.ifindex = 0 then i","an interface without index stays down"),
 d(IP,"ifBringUp","else if e.setup < 0 then ifBringDown i","else if e.setup > 0 then ifBringDown i","failure of the setup"),
 d(IP,"ifBringUp","if e.linkLocal < 0 then ifBringDown i","if e.linkLocal < 0 then i","an interface that is up has link-local addresses"),
 d(IP,"ifBringUp","else if e.join < 0 then ifBringDown i","else if false then ifBringDown i","the multicast group is joined"),
 d(IP,"ifBringUp","else { i with key := c.key }","else i","the key of the configuration is used"),
 d(IP,"ifUpdown","if flagTest i.flags IFB_UP then i else ifBringUp conf e i","ifBringUp conf e i","an interface that is up keeps its parameters"),
 d(IP,"ifCheck","if index ≠ st.1 then ifUpdown st.2 none","if false then ifUpdown st.2 none","a new index resets the interface"),
 d(IP,"ifCheck","if index > 0 then operational else 0","operational","an interface that disappeared is down"),
 d(IP,"ifCheck","(rc > 0)","(rc ≥ 0)","an interface that is not operational is down"),
 d(IP,"updateIntervalField","(i.updateInterval + 5) / 10","i.updateInterval / 10","rounding of intervals"),
]
