def auto(prefix):
    out = []
    for f in sorted(glob.glob(os.path.join(here, "../lean/Verif/Props/*.lean"))):
        for m in re.finditer(r"^theorem\s+(" + prefix + r"_[^\s:({\[]+)", open(f).read(), re.M):
            out.append("Babel." + m.group(1))
    return out
c("C01", "proved", auto("C01"))
c("C02", "proved", auto("C02"))
c("C03", "proved", auto("C03"))
c("C04", "proved", auto("C04"))
c("C05", "proved", auto("C05"))
c("C06", "partial", auto("C06"), "Fixed-point literals with more than 9 fractional digits are misread by the code (counterexample theorem C06_thousands_long_fraction_false); proved for at most 9 fractional digits. fromhex fully proved. parse_nat (strtol) not modelled.")
c("C21", "proved", auto("C21"), "route_compare identifies the two spellings of 'any source'; on canonical keys (as built by the parser) it is equality, see C21_route_order.")
c("C24", "proved", auto("C24"))
c("C22", "proved", auto("C22"), "The announced half has the exception of a recorded seqno exactly 0x8000 away from the announced one.")
c("C23", "proved", auto("C23"))
c("C25", "proved", auto("C25"))
c("C26", "proved", auto("C26"), "Needs sane next hops and an import table that depends on the destination only; C26_needs_sane_nexthop and C26_needs_table_per_destination are counterexamples without these conditions.")
c("C27", "proved", auto("C27"), "A route with infinite metric can be selected (C27_unreachable_selected); the statement was weakened accordingly.")
c("C33", "proved", auto("C33"))
c("C37", "proved", auto("C37"))
c("C28", "proved", auto("C28"), "Hysteresis part from the record of selections (C27_selection).")
c("C29", "partial", auto("C29"), "False of the code as it stands: C29_false reaches a loop of two routers in a network of three, because update_route does not ignore an unfeasible update from the same originator when the selected route had been retracted. C29_partial proves loop freedom for networks of any size and topology, when no event revives a retracted selected route with an unfeasible update. Also assumed: kernels accept requests, link costs are at least 1, feasibility distances do not go stale, seqnos of the originator are within half the number space.")
c("C30", "proved", auto("C30") + ["Babel.C27_selection"], "'Unusable once expired' is C27_selection: an expired route is never newly selected with a finite metric; C28_best: it is never the candidate.")
c("C31", "partial", auto("C31"), "Between-ness proved in full. Reaching the metric: proved when 30 half-lives pass between computations; false when the computation is done every second (C31_stuck). Overflow: excluded except for half-life 2, where it is reachable (C31_overflow_half_life_2). Half-life 1 never uses the product.")
c("C48", "partial", auto("C48"), "Routes: every route always refers to a known neighbour on an interface that exists and is up (C48_routes), so removing a neighbour or an interface leaves no route behind (C48_neighbour, C48_down, C48_removed). False for neighbours and pending requests when an interface is removed (C48_false); neighbours are covered when interfaces are only removed after their neighbours are gone (C48_partial).")
c("C49", "proved", auto("C49"))
c("C40", "proved", auto("C40"), "A retraction queued several times is sent several times; every other announcement is sent once.")
c("C47", "proved", auto("C47"))
c("C36", "proved", auto("C36"), "Two parts one would expect are false of the code and were taken out of the statement: C36_own_request_forwarded, C36_resent_far.")
c("C38", "proved", auto("C38"), "At most three retransmissions: from the 67th second after boot (before, a cancelled request has a negligible age). Timer armed on recording: except when the pending entry already asks for a newer seqno (the code returns early; C38_armed_false shows a request that is never sent again). Updates to be sent again always have the timer set (C38_update_armed).")
c("C39", "proved", auto("C39"), "Statement describes what the code does; C39_newer_suppressed and C39_older_forwarded show that the comparison is reversed.")
c("C18", "proved", auto("C18"))
c("C19", "partial", auto("C19"), "The lower bound of the receive cost with link-quality estimation is false of the code: the product of cost and age wraps at 32 bits (C19_rx_wraps, a reachable neighbour state). Proved when the product fits (C19_rx_lq_partial); everything else is proved in full.")
c("C20", "partial", auto("C20"), "Smoothing between old and new is false above 16.7 s because of 32-bit overflow (C20_smooth_wraps), proved below; the change of penalty caused by the first sample is not reported (C20_first_unreported), later ones are.")
c("C07", "proved", auto("C07"), "Without authentication C07_packet, with authentication C07_auth_safe (take the receive buffer to be just the packet). Packets shorter than the header: C07_short_reads_outside, C07_short_harmless.")
c("C08", "proved", auto("C08"))
c("C09", "proved", auto("C09"))
c("C50", "proved", auto("C50"))
c("C10", "proved", auto("C10"), "Between two times the interface goes down: C10_updown_lost shows that after the interface has gone down and up again the compression state is stale and an update is lost.")
c("C11", "proved", auto("C11"), "Timestamps: C11_hello_time, C11_ihu_times. Contents of challenge messages are exact bytes (Waiting); their effect on the receiver is C16. Packet counters: C17.")
c("C12", "proved", auto("C12"), "Provided packets can be signed: C12_unsigned_overflow is a counterexample when the interface has lost its link-local address.")
c("C13", "partial", auto("C13"), "Deadline met when the acknowledgment is written; a message written later can postpone it (C13_postponed_beyond), by less than a quarter of the time left (C13_postponed_partial).")
c("C17", "proved", auto("C17"), "For one time the interface is up; the counter and index are not changed when it goes down or up.")
c("C14", "proved", auto("C14"), "MAC functions are arbitrary. Finding: a Pad1 before the MAC TLV hides the MAC from check_hmac (C14_pad1_hides).")
c("C15", "proved", auto("C15"), "Finding: a challenge reply held back by an attacker resets the counter (C15_delayed_reply); the bound C15_replay_bound still holds.")
c("C16", "proved", auto("C16"), "Provided random numbers can be obtained: C16_short_read is a counterexample otherwise.")
c("C41", "proved", auto("C41"))
c("C42", "partial", auto("C42"), "False of the code (C42_false): the filter is consulted only when a route is selected for a destination that had none, not when the selection moves to another neighbour or when the router-id changes. Proved: a first selection is never a denied route (C42_first); a destination in use is admitted for some router and interface (C42_admitted); filters whose denials depend on the destination only are fully respected (C42_partial).")
c("C43", "proved", auto("C43"), "C43_outside: what happens outside the range.")
c("C44", "proved", auto("C44"), "C44_ignored: a line for an interface of the configuration files is accepted on a control connection but has no effect. Such a line does not take values from the default lines.")
c("C51", "proved", auto("C51"), "C51_double_free: texts for which memory is freed twice. C51_zero_refused: documented values that are refused.")
c("C52", "proved", auto("C52"))
c("C45", "proved", auto("C45"))
c("C46", "proved", auto("C46"), "C46_sticky_false: the reply to a line can be that to an earlier line of the same read.")
c("C53", "proved", auto("C53"), "C53_stall: a client that does not read its replies stops the daemon.")
c("C54", "proved", auto("C54"))
c("C34", "proved", auto("C34"), "If two kernel routes are redistributed to the same destination, the metric is that of one of them. Up to 262143 routes and addresses (limit of the code).")
c("C35", "partial", auto("C35"), "False of the code (C35_false): the prefix length and source prefix are taken from the first entry of the table. Proved when those are the same (C35_partial).")
c("C32", "proved", auto("C32"), "C32_unannounced is the excepted change of originator. C32_believed is the version over whole histories. C32_triggered and C32_asked are about the functions that react to a change and to the removal of the selected route.")
c("C55", "partial", auto("C55"), "False of the code for tables above 255 (C55_false): only 8 bits of the table number are sent. Everything else is proved; C55_partial says the table is the number modulo 256.")
c("C56", "proved", auto("C56"), "Integer attributes have at least 4 bytes (C56_short otherwise). C56_unreachable_v4, C56_no_address: findings.")
c("C57", "proved", auto("C57"), "netlink_get_extack, which only prints a text, reads beyond the received data: C57_beyond, C57_extack. Requests for tables from 256 on name another table: C57_large_table.")
c("C58", "partial", auto("C58"), "For neighbours proved in full. False for interfaces (C58_skipped): a route that is moved to the front of its list during the walk is missed. Proved for destinations with at most one route through the interface (C58_interface_partial).")
c("C59", "proved", auto("C59"), "When there is a selected route: both routes can be expressed by the kernel, which answers without errors.")
c("C60", "partial", auto("C60"), "The exception for allow-duplicates is false of the code (C60_false): the comparison is the wrong way around. Proved: C60_selected (as the code has it) and C60_partial (no exception configured).")
c("C61", "partial", auto("C61"), "Proved for unknown routes and for known routes that are not selected. False for the selected route (C61_selected_false): no request is sent, and the route stays selected.")
c("C62", "partial", auto("C62"), "False of the code in three places: option -s has no effect (C62_s_false); unicast, faraway and probe-mtu stay set until the interface is removed (C62_unicast_false, exact condition C62_sticky, first time C62_unicast_partial); the default update interval wraps when announced if the hello interval is more than 163 s (C62_interval_false, C62_interval_partial). Everything else is proved in full.")
c("C63", "partial", auto("C63"), "False of the code (C63_crash): a request for an IPv4-mapped IPv6 destination with an IPv6 source prefix crashes the daemon. Proved for all histories in which the requests in correctly signed packets are for destinations whose source prefix is at least 96 bits long if the destination is IPv4 (C63_partial). Sizes of kernel routes: XFits. Interfaces without a key go down and come up at any time; for those with a key see C67.")
c("C64", "partial", auto("C64"), "False of the code: C64_withdrawn (a request for an IPv4-mapped IPv6 prefix makes the daemon retract an IPv4 route), C64_misannounced (deletion of one of several redistributed routes leads to an unnormalised prefix in the compression state, consequence of C35_false), C64_flap (compression state that survives an interface going down leads to an update with the wrong router-id). Proved for all histories without such requests and mixtures, for an interface that stays as it is while others go down and come up (C64_heard_partial), and for one that goes down and comes up any number of times without updates in its buffer (C64_source_partial); C64_reachable connects the whole daemon to the states of the routing part in C19 to C42 and C58 to C61.")
c("C65", "partial", auto("C65"), "False of the code as it stands: C65_false is a loop of two daemons, with all the packets they exchange (no duplicates needed; the code revives a retracted selected route, as in C29). C65_partial proves loop freedom at the level of packets for networks of any size when no such route is revived. Assumed as in C29: kernels accept all requests, sequence numbers in half of the number space, the clock does not make a feasibility distance stale; as in C63 and C64: redistributed destinations are proper. Interfaces without a key go down and come up, without updates in their buffer (C64_flap).")
c("C66", "proved", auto("C66"), "What jobs do is left open, except for the timers they set (JobsOk); resending at a later time is proved of the model of resend.c if it is less than the delay late (C66_resend; otherwise false, C66_resend_twice). Packets can be signed (see C67 for what happens otherwise). The clock is monotonic.")
c("C67", "partial", auto("C67"), "False of the code (C67_stuck, C67_deaf, for all histories): when an interface with a key goes down while a packet for a neighbour is waiting, the packet can be neither signed nor dropped (C67_no_address), its deadline stays in the past, and the daemon spins without looking at its sockets until the neighbour is forgotten or the interface comes up. Proved: a packet is kept only if there is a key and it cannot be signed (C67_flush); the daemon reads its sockets whenever nothing is due if packets can be signed (C66_polls, C66_deadlines).")
c("C68", "proved", auto("C68"), "Packets arrive on interfaces that are up or down; which signed packets are accepted is C14 to C16, how bytes become messages is C08 and C09. C68_costs and C68_links are for interfaces without a key.")
c("C69", "proved", auto("C69"), "Of the acknowledgments, challenges and replies only that they are sent to the neighbour is proved, not that nothing else of the kind is (acknowledgments are among what C69_said leaves out, as a receiver ignores them).")
c("C70", "proved", auto("C70"), "C70_starved exhibits a neighbour that gets no IHU on an interface with timestamps (see Findings). When hellos are due is Model/Loop (C66).")
c("C71", "proved", auto("C71"), "C71_refused shows why kernels must accept the requests. An interface going down with an update in its buffer is excluded because of C64_flap.")
c("C72", "proved", auto("C72"), "C72_half, C72_recreated and C72_full are the exceptions named in the statement. Assumes that writing one setting does not change another.")
c("C73", "proved", auto("C73"), "C73_both needs addresses to belong to one router each and interface costs of at most 65535. The requests in packets are assumed to be for well-formed destinations.")
c("C74", "proved", auto("C74"), "C74_infiniband and C74_zero are the two exceptions named in the statement, proved with concrete hosts.")
c("C75", "proved", auto("C75"), "Same assumptions as C73_both; the cost of a link about which nothing is known is infinite when the history begins.")
c("C76", "proved", auto("C76"), "C76_leak and C76_stale are findings: one socket is opened twice, and a stale socket file prevents the daemon from starting.")
c("C77", "proved", auto("C77"), "C77_group_false is a finding: a configuration file can set a group that is not multicast. C77_no_i: the option -i is known but always refused.")
c("C78", "proved", auto("C78"), "C78_selected_false and C78_id_false are the exceptions named in the statement (findings): deselecting a route and changing its router-id are announced only if the kernel agrees.")
c("C79", "proved", auto("C79"), "inet_ntop is abstract: NtopOk says that inet_pton reads what it writes, and bounds its output; an instance is given. C79_name_false is the exception named in the statement (finding).")
c("C80", "proved", auto("C80"), "For turns that end: a turn may go on for ever if read returns EAGAIN (C53). C80_passed_over_false shows that the exception named in the statement does occur (finding).")
c("C81", "proved", auto("C81"), "C81_monotone_false: without a monotonic clock the time may still go back by less than a second, as only seconds are compared (finding; the comment in kernel.c says that monotonicity is enforced).")
c("C82", "proved", auto("C82"), "C82_failure_false: a failure of sendmsg itself is not noticed, and the answer to a command that was not sent is waited for (finding).")
c("C83", "proved", auto("C83"), "The exception for SIGUSR2 is a lost signal (C83_reopen_false, finding). Signals that arrive between the test and select take effect when select returns; how long that takes at most is in C66.")
c("C84", "proved", auto("C84"), "The two exceptions are faults: C84_after_false (updates follow the retraction) and C84_unicast_false (the retraction is not sent).")
c("C85", "proved", auto("C85"), "Failure of malloc is not modelled.  The number of destinations is installed_routes_estimate, which counts all slots of the table.")
c("C86", "proved", auto("C86"), "The random numbers are arbitrary.  The daemon also sends the queue whenever the send buffer of the interface is flushed, for instance after a hello; this is an event of the history here, and bounds the wait in C86_wait_false in practice.")
