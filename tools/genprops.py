#!/usr/bin/env python3
"""Writes properties.jsonl from the list below (kept in one place so that the
property texts can be edited without JSON escaping)."""
import json, os
P = []
def p(id, title, statement, quantifier, why, anchors):
    P.append(dict(id=id, title=title, statement=statement, quantifier=quantifier,
                  why_tests_cant=why, anchors=anchors))

p("C01", "Sequence numbers are compared by the cyclic order",
  "Comparing two 16-bit sequence numbers agrees with the order of the unbounded counters they were truncated from as long as those counters are less than 32768 apart; two numbers compare equal iff they are the same; adding an increment and subtracting recovers it modulo 2^16. (At distance exactly 32768 each number compares as newer than the other.)",
  "all pairs of 16-bit values; all pairs of natural-number counters less than 32768 apart",
  "2^32 pairs, and the interesting ones straddle the wrap-around; tests sample a handful.",
  ["util.h: seqno_compare, seqno_minus, seqno_plus"])
p("C02", "Randomised delays stay within their advertised range",
  "A randomised version of an interval v is always between 3/4 v and 5/4 v (rounding down), whatever the random generator returns, it is odd-symmetric in the sign of v, and never undefined (no division by zero, no int overflow) for every interval the daemon uses. Jittered timers derived from it inherit this bound.",
  "all integer intervals in range, all random generator outputs",
  "The result depends on random(); a test sees a few draws.",
  ["util.c: roughly", "interface.c: jitter, update_jitter, set_timeout", "message.c: schedule_flush_ms"])
p("C03", "Time arithmetic is exact and normalised",
  "Adding milliseconds to a normalised time gives the normalised time that many milliseconds later; subtraction never goes below zero and is exact when the first time is later; difference in milliseconds is within 1 ms of the true difference and saturates at 2000000000; comparison is the total order of real times; minimum treats an unset time as later than everything.",
  "all normalised timevals and all millisecond counts",
  "Borrow and carry between seconds and microseconds has boundary cases over a huge domain.",
  ["util.c: timeval_minus, timeval_minus_msec, timeval_add_msec, timeval_compare, timeval_min, timeval_min_sec"])
p("C04", "Prefix normalisation and containment are bit-exact",
  "Normalising an address to a prefix length keeps exactly the first plen bits and clears the others; it is idempotent; two addresses normalise to the same prefix iff they agree on their first plen bits; an address is reported as inside a prefix iff the two agree on the first plen bits.",
  "all 16-byte addresses, all prefix lengths 0..128",
  "2^128 addresses times 129 lengths; off-by-one in the partial byte only shows for particular lengths.",
  ["util.c: normalize_prefix, in_prefix"])
p("C05", "Martian prefixes are recognised exactly",
  "A prefix is refused as martian iff it is multicast (ff00::/8), link-local (inside fe80::/10), the loopback or unspecified host ::1/128 or ::/128, or, for IPv4, inside 127.0.0.0/8, 0.0.0.0/8 or 224.0.0.0/4, or the limited broadcast address 255.255.255.255/32 (the default routes are allowed).",
  "all prefixes and prefix lengths",
  "Infinite family of prefixes around each boundary.",
  ["util.c: martian_prefix", "route.c: update_route", "xroute.c: check_xroutes"])
p("C06", "Textual numbers mean what they say",
  "A decimal literal with up to any number of fractional digits is read as its value in thousandths, truncated; a hexadecimal key string decodes to exactly the bytes it spells and anything else is refused.",
  "all strings",
  "Unbounded set of strings, including overlong fractions, odd lengths and bad digits.",
  ["util.c: parse_thousands, parse_nat, h2i, fromhex"])
p("C07", "No received packet can make the parser read outside the packet",
  "For every byte string of at least four bytes received, the packet parser (all TLV and sub-TLV types, including compressed prefixes, authentication pre-pass and MAC trailer) only reads bytes of that string; it always terminates. A shorter datagram has no effect (although the code then reads up to four bytes left over from earlier packets in its receive buffer).",
  "all byte strings as packets (any length), all parser start states",
  "Memory safety over adversarial input; fuzzing only samples.",
  ["message.c: parse_packet, preparse_packet, network_prefix, network_address, parse_update_subtlv, parse_hello_subtlv, parse_ihu_subtlv, parse_request_subtlv, parse_seqno_request_subtlv, parse_other_subtlv", "hmac.c: check_hmac"])
p("C08", "Prefix decoding matches the Babel prefix encoding",
  "Decoding an encoded prefix (address encoding, prefix length, omitted bytes, default prefix) succeeds only for legal encodings and then returns the normalised prefix whose bytes are the omitted bytes of the previous default prefix followed by the bytes on the wire; the decoded length is at most 32 (IPv4) or 128 (IPv6).",
  "all address encodings, lengths, omitted counts, wire bytes, default prefixes",
  "Many interacting byte-level parameters.",
  ["message.c: network_prefix, network_address"])
p("C09", "Malformed or unknown items are contained",
  "Unknown TLVs and unknown optional sub-TLVs have no effect; a TLV with an unknown mandatory sub-TLV or a malformed sub-TLV area has no effect other than that, for router-id, next-hop and update TLVs, it sets the parser state as the same TLV without sub-TLVs would (RFC 8966, 4.4); a truncated TLV at the end of the packet is ignored; a packet not starting with the protocol magic and version, or not sent from a link-local address, has no effect at all.",
  "all packets obtained by inserting unknown or malformed TLVs anywhere into a packet",
  "Requires a statement about all packets and all insertion points.",
  ["message.c: parse_packet"])
p("C10", "Updates survive encoding, prefix compression and decoding",
  "Whatever sequence of route announcements and retractions a router hands to an interface or neighbour while the interface is up, interleaved with any other messages and split into packets in whatever way, using next-hop TLVs, router-id TLVs and prefix compression, a receiver decodes exactly the same sequence of (router-id, prefix, source prefix, sequence number, metric, interval, next hop) announcements.",
  "all finite sequences of messages with normalised prefixes, all buffer sizes, all points at which packets are sent",
  "The encoder and decoder share evolving compression state; errors only show for particular sequences.",
  ["message.c: really_buffer_update, parse_packet, network_prefix"])
p("C11", "All other messages survive encoding and decoding",
  "Hello, IHU, acknowledgment, route request, seqno request, challenge request/reply and packet-counter TLVs written by the daemon are decoded by it to the same contents, in the same order, each exactly once; a hello carries the time at which its packet is sent, and there is at most one hello per packet.",
  "all field values the daemon can send",
  "Field packing over all values.",
  ["message.c: buffer_hello, buffer_ihu, send_ack, send_request, send_multihop_request, send_pc, send_challenge_request, send_challenge_reply, parse_packet, preparse_packet"])
p("C12", "Send buffers never overflow",
  "No sequence of messages, of any sizes the daemon can produce, writes past the end of a send buffer, as long as the interface can sign packets (it has a link-local address); every packet sent fits the interface MTU including the authentication trailer; messages are sent whole and in order.",
  "all sequences of buffered messages and flushes, all MTUs, with and without authentication",
  "Needs an invariant over all message histories.",
  ["message.c: start_message, end_message, ensure_space, flushbuf, send_pc, flush_unicast_hello", "hmac.c: add_hmac", "interface.c: interface_updown"])
p("C13", "Acknowledgments are sent before their deadline",
  "A reply to an acknowledgment request with interval d is scheduled to leave within d of its reception, whatever else is buffered before or afterwards.",
  "all intervals, all random draws, all buffer states and later schedules",
  "Depends on random jitter applied twice and on interleaving with other messages.",
  ["message.c: send_ack, schedule_flush_ms, schedule_flush"])
p("C14", "Only correctly signed packets are accepted on authenticated interfaces",
  "When an interface has a key and does not accept bad signatures, a packet has an effect only if its trailer contains a MAC equal to the MAC of the packet under that key with the claimed source and destination.",
  "all packets, all keys, all MAC functions",
  "Universally quantified over packets and an abstract MAC.",
  ["hmac.c: check_hmac, compute_hmac, compare_hmac", "message.c: parse_packet"])
p("C15", "Authenticated packets cannot be replayed",
  "A signed packet is accepted only if it answers an outstanding challenge, or has the neighbour's known index and a counter larger than the last one accepted. For each neighbour, counters of accepted packets strictly increase under one index between two successful challenges, separately for unicast and multicast; hence a packet is accepted at most once per successful challenge of that neighbour, even across expiry of the neighbour. (A challenge may be sent before and answered after a packet is accepted: the packet can then be accepted once more, see the findings.)",
  "all histories of received packets, challenges and neighbour expiries",
  "Quantifies over all adversarial histories.",
  ["message.c: preparse_packet", "neighbour.c: find_neighbour, flush_neighbour"])
p("C16", "Challenge replies only work once, in time and for the right nonce",
  "A challenge reply establishes a neighbour's index only if a challenge is outstanding, not past its 30 s deadline, and the reply carries exactly the nonce that was sent; after that the same reply has no further effect. Conversely such a reply in a signed packet with a counter is accepted. Challenges are sent exactly to neighbours with an unknown index, answered unless the packet is a replay, and both at most every 300 ms.",
  "all histories of challenges and replies",
  "History property.",
  ["message.c: preparse_packet, send_challenge_request"])
p("C17", "A sender never reuses an (index, counter) pair",
  "Over the life of an interface, the (index, packet counter) pairs put in sent packets are pairwise distinct provided the random indices drawn are distinct; the counter never wraps within an index.",
  "all histories of sent packets",
  "Wrap-around after 2^32 packets is out of reach of tests.",
  ["message.c: send_pc", "interface.c: interface_updown"])
p("C18", "Hello history records exactly the received and missed hellos",
  "After any sequence of hellos with increasing sequence numbers (gaps below half the sequence space) interleaved with periodic checks, the 16-bit reachability register has, at position i from the most recent hello accounted for, a one iff the hello i back was received. Late or repeated hellos and restarts of the neighbour never make the register claim a hello that was not received; a restart clears it. A hello is counted as missed at the first check at least 1.7 intervals after the previous one, and no time is counted twice.",
  "all sequences of hello sequence numbers, including wrap-around, loss and restart",
  "Sequences with wrap and loss are unbounded.",
  ["neighbour.c: update_neighbour, check_neighbours"])
p("C19", "Link cost estimates are sane",
  "The receive cost is infinite when too few recent hellos were received, otherwise at least the configured interface cost; link cost is infinite when the neighbour does not hear us, never exceeds infinity and never underestimates the transmit cost. A reported transmit cost is forgotten when not refreshed, and a neighbour no longer heard is removed.",
  "all hello histories, ages, configured costs, received transmit costs",
  "Arithmetic over large domains with rounding and C integer overflow.",
  ["neighbour.c: neighbour_rxcost, neighbour_txcost, neighbour_cost, two_three, neighbour_rttcost"])
p("C20", "RTT penalty is monotone and bounded; RTT smoothing stays between samples",
  "The RTT-based penalty is 0 up to the minimum RTT, the maximum penalty from the maximum RTT on, monotone between; the smoothed RTT always lies between the previous estimate and the new sample; the sample itself does not depend on the offset between the two clocks; every change of penalty leads to recomputing route metrics.",
  "all RTT values and configuration parameters",
  "Integer division and overflow over all parameters.",
  ["neighbour.c: neighbour_rttcost", "message.c: parse_packet (timestamps)"])
p("C21", "Sorted tables find what they contain",
  "In the source, route and redistributed-route tables, a lookup by key succeeds iff an entry with that key was added and not removed, returns that entry, and insertion keeps exactly one entry per key.",
  "all sequences of insertions, removals and lookups, any table size",
  "Binary search with insertion point over unbounded tables.",
  ["source.c: find_source_slot, find_source", "route.c: find_route_slot, insert_route, flush_route", "xroute.c: find_xroute_slot, add_xroute, flush_xroute"])
p("C22", "Feasibility distances never worsen",
  "While a source is remembered and fresh, no sequence of events makes its recorded (seqno, metric) worse in the order newer-seqno-then-smaller-metric, and after announcing a route the recorded distance is at least as good as what was announced, or has a seqno exactly half the space away from it.",
  "all histories of announcements for a source within a half seqno window",
  "This is the invariant loop-freedom rests on; it must hold for all histories.",
  ["source.c: update_source", "route.c: update_feasible", "message.c: flushupdates"])
p("C23", "Sources are never freed while routes use them",
  "At all times the use count of a source equals the number of routes from it; garbage collection only removes sources that no route uses and that were not refreshed for 200 s.",
  "all histories of route insertion, source switch, flush and garbage collection",
  "Dangling-pointer freedom over all histories.",
  ["source.c: retain_source, release_source, expire_sources", "route.c: update_route, flush_route"])
p("C24", "One route per destination and neighbour",
  "After any history, the route table is strictly sorted by (destination, source prefix), has no empty entries, and contains at most one route for each (destination prefix, source prefix, neighbour).",
  "all histories of events",
  "Inductive invariant over all histories.",
  ["route.c: find_route, insert_route, flush_route, update_route"])
p("C25", "At most one route per destination is in use, and it can be found",
  "After any history, for each (destination, source prefix) at most one route is selected, and looking up the selected route returns it iff there is one.",
  "all histories of events, including kernel failures",
  "Inductive invariant over all histories.",
  ["route.c: find_installed_route, install_route, uninstall_route, switch_routes, move_installed_route"])
p("C26", "The kernel forwarding table mirrors the selected routes",
  "If kernel operations succeed, next hops are of the family of the prefix they are used for, and the import table chosen by the install filter depends on the destination only, then after any history the set of routes this daemon has put in the kernel is exactly the set of its selected routes, with next hop, interface and metric of the selected route; after shutdown it is empty.  (Both side conditions are needed: the code violates the property without them.)",
  "all histories of events",
  "Refinement over all histories.",
  ["route.c: change_route, install_route, uninstall_route, switch_routes, change_route_metric, flush_route", "kernel_netlink.c: kernel_route"])
p("C27", "A route is only selected if feasible",
  "Whenever a route becomes the selected route for its destination, it is at that moment feasible with respect to the feasibility distance of its source and, if it is reachable (finite metric), has not expired; when it replaces another selected route it is reachable.  (An unreachable route can be selected: it is installed as an unreachable entry.)",
  "all histories of events",
  "The loop-avoidance condition must hold at every selection in every history.",
  ["route.c: consider_route, find_best_route, route_lost, route_changed, update_route, update_interface_metric", "xroute.c: flush_xroute"])
p("C28", "Best-route choice is optimal and stable",
  "The candidate chosen among the routes to a destination is acceptable (not past its hold time, feasible if required, and not through the excluded neighbour; its metric may be infinite) and no acceptable route has a strictly smaller smoothed metric; a selected route is replaced only by a route that is better by the hysteresis rule.",
  "all route lists, metrics, times, random smoothing draws",
  "Arbitrary lists and random smoothing.",
  ["route.c: find_best_route, route_acceptable, consider_route, route_smoothed_metric"])
p("C29", "No routing loops",
  "In a network of any size and topology, under any loss, duplication, delay and reordering of updates, there is never a cycle of routers each of which forwards to the next with selected routes for the same destination originated by the same router.",
  "all topologies, all executions of all nodes (no feasibility distance forgotten, seqnos of one originator within half the space, link costs at least 1, kernels that accept requests)",
  "Global property over all asynchronous executions.",
  ["route.c: update_route, update_feasible, consider_route", "source.c: update_source", "message.c: flushupdates"])
p("C30", "Stale routes disappear",
  "A route that is not refreshed is unusable once its hold time has passed and is removed by the next expiry pass, which always terminates and removes no route younger than 7/8 of its hold time; losing a neighbour or an interface removes every route through it and no other route.",
  "all histories, all hold times",
  "Requires statement over all tables.",
  ["route.c: expire_routes, route_old, route_expired, flush_neighbour_routes, flush_interface_routes, retract_neighbour_routes"])
p("C31", "Route metrics and their smoothing",
  "A route's metric is min(announced metric + link cost + filter addition, infinity); the smoothed metric always lies between its previous value and the metric and reaches the metric; no arithmetic overflow occurs.",
  "all metrics, times, half-life settings and random draws",
  "Random, time-dependent integer arithmetic.",
  ["route.h: route_metric", "route.c: route_smoothed_metric, change_smoothing_half_life"])
p("C32", "Losing or changing a route is announced",
  "When an event makes a destination unreachable that was reachable, or changes the originator of its selected route, then by the end of the event every active interface that may carry announcements of the destination has the destination queued for an update, or a retraction (or an update with the new originator) was already sent; so neighbours are never left believing in an unreachable destination.  Not covered: destinations that are redistributed, interfaces on which the destination is filtered, or learnt while split horizon is on, activation of the interface itself, shutdown, and one case of a change of originator that the code does not announce (a neighbour changes the originator of the selected route to that of another route, and the daemon switches to that route).  A change of the selected route leads to an update exactly if the source changed, the destination became unreachable or reachable, a pending request is answered, or the metric grew by 384 or shrank by 1024; the update is sent within 157 ms if the source changed, the destination was lost, the metric grew by 512 or a request is answered.  When the selected route is removed while its metric is at most 32767 and no other route is usable, a newer sequence number is requested.",
  "all histories",
  "Event/response property over all histories.",
  ["route.c: send_triggered_update, route_lost, route_changed, retract_route, flush_route", "message.c: send_update", "resend.c: unsatisfied_request"])
p("C33", "A router never learns its own routes back",
  "No route whose originator is this router is ever stored, whatever updates are received; martian destinations are never stored.",
  "all histories of received updates",
  "Invariant over all histories.",
  ["route.c: update_route"])
p("C34", "Redistributed routes follow the kernel and the filters",
  "After synchronising with the kernel, the exported set is exactly the set of non-martian kernel routes (and addresses) accepted by the redistribution filters with metric below infinity, with the metric given by the filters; notifications of single kernel routes change exactly the destination concerned; every addition and change is announced on every interface. (Withdrawals: C35.)",
  "all kernel tables, all previous export tables, all filters",
  "Merge of two sorted sequences over arbitrary tables.",
  ["xroute.c: check_xroutes, filter_route, add_xroute, flush_xroute, modify_xroute"])
p("C35", "Withdrawing a redistributed route acts on that route's prefix",
  "When a redistributed route is withdrawn, the fallback route installed and the update sent are for the destination and source prefix of the withdrawn route.",
  "all export tables and positions",
  "Only visible when the withdrawn entry is not the first of the table.",
  ["xroute.c: flush_xroute"])
p("C36", "Requests are forwarded with decreasing hop count and never echoed",
  "A forwarded seqno request has a strictly smaller hop count, which is at least 1, is never sent back to the neighbour it came from, and is forwarded only if it cannot be answered, is plausible and not redundant, to at most one neighbour, one that announces the destination; so every request is forwarded finitely often. (False of the code and excluded here: a router may forward a request destined to itself when it has no selected route to the destination, and a forwarded request that takes the place of a pending request of this router is later sent again with full hop count.)",
  "all tables, all requests",
  "Decision logic over arbitrary tables; termination over networks.",
  ["message.c: handle_request"])
p("C37", "A router's own sequence number only moves forward by one on legitimate demand",
  "This router's seqno changes only in reply to a request naming its router-id with a newer seqno, in which case it increases by exactly one.",
  "all requests and states",
  "All 2^32 pairs of seqnos with window rules.",
  ["message.c: handle_request, update_myseqno", "babeld.c: babel_main"])
p("C38", "Retransmissions are bounded and backed off",
  "A recorded request is retransmitted at most 3 times, with the delay doubling each time and capped, expires after 65 s, and is cancelled by a satisfying update that is sent; announcing a selected reachable route cancels the request for its destination unless that asks the same router for a seqno newer than the remembered one, while announcing a retraction leaves it pending; a pending request for one prefix never affects other prefixes; after each run the timer is set for the earliest pending retransmission, and recording a request sets it in time, except if the pending entry already asks the same router for a newer seqno, when it may stay unset; in every history the timer is set, in time, while an update is to be sent again.",
  "all histories of records, satisfactions and timer runs",
  "History property.",
  ["resend.c: record_resend, do_resend, satisfy_request, expire_resend, recompute_resend_time; message.c: send_update, flushupdates"])
p("C39", "Redundant requests are suppressed, others are not",
  "A request is suppressed as redundant exactly if a request for the same destination from the same interface (or several) was recorded in the last 65 s, still to be repeated or less than a second old, which did not ask for a newer seqno of the same router; a suppressed request has no effect. (The comparison is the opposite of what one would expect: requests for newer seqnos are suppressed, older ones are not.)",
  "all resend tables",
  "Decision logic over arbitrary tables.",
  ["resend.c: request_redundant"])
p("C40", "Queued updates are all sent, once",
  "When the update queue of an interface is flushed, each queued (destination, source prefix) is announced with the current state, and only once unless it is a retraction (the code may repeat a retraction that was queued several times): the redistributed route if there is one, else the selected route subject to split horizon, else a retraction.",
  "all queues (any length, with duplicates), all tables",
  "Sorting and duplicate elimination over arbitrary queues.",
  ["message.c: buffer_update, flushupdates, compare_buffered_updates"])
p("C41", "Filters: first match wins",
  "The outcome of each filter (in, out, redistribute, install) is the action of the first rule of the configuration files that matches, and the documented default if none matches; a rule matches iff every condition it states holds. This remains so whatever is received on control connections and whenever interface indices change. Rules mixing address families are rejected.",
  "all configuration files written in the language with prefix lengths in range, all routes, all later commands",
  "Arbitrary texts, lists and prefixes.",
  ["configuration.c: parse_filter, filter_match, do_filter, input_filter, output_filter, redistribute_filter, install_filter, renumber_filter"])
p("C42", "Install filter denials are respected",
  "A route denied by the install filter is never put into the kernel table.",
  "all histories and filters",
  "History property.",
  ["route.c: change_route, switch_routes", "configuration.c: install_filter"])
p("C43", "Prefix-length conditions mean what is written",
  "A rule with a prefix, 'ge g' and 'le l' matches exactly the prefixes inside that prefix whose length, as written for the address family, is between g and l, provided g and l are lengths of that family. Outside that range the conditions do not mean what is written.",
  "all rules, all prefixes",
  "Conversion to 8-bit fields.",
  ["configuration.c: parse_filter"])
p("C44", "Interface configuration",
  "After start-up the interfaces are those of the interface lines and of the command line, each with the values given by its own lines, and, exactly where these give none, those of the default lines. An interface created on a control connection has the values of its line.",
  "all configuration files, all interfaces, all fields",
  "One missed field among many.",
  ["configuration.c: parse_ifconf, merge_ifconf, add_ifconf, finalise_config", "interface.c: add_interface"])
p("C45", "Restart continues the sequence-number space",
  "After any number of orderly shutdowns and restarts with the state file, the first seqno used is newer than every seqno with which the router ever announced a destination as its own, as long as the seqno changed at most 32768 times in between. After a crash the seqno is random.",
  "all seqnos including wrap-around, all histories, any number of restarts",
  "Wrap-around, all histories.",
  ["babeld.c: babel_main", "message.c: handle_request"])
p("C46", "The local control socket answers each line",
  "However the characters received are split over reads, exactly the complete lines are obeyed, in order and once each, and each yields exactly one reply. If no read completes more than one line the reply reflects that line's own outcome; otherwise it reflects the last failure among the lines of that read. Overlong lines and quit end the connection.",
  "all byte streams and all ways to split them into reads",
  "Arbitrary splits.",
  ["local.c: local_read"])
p("C47", "Split horizon",
  "With split horizon on, a selected route learned from an interface is not announced back on that interface, except as a retraction; when off, it is.",
  "all routes and interfaces",
  "Decision logic over all tables.",
  ["message.c: flushupdates"])
p("C48", "Tearing down an interface or neighbour leaves nothing pointing at it",
  "After an interface or a neighbour has been removed, no route, neighbour or pending request refers to it.",
  "all histories",
  "Use-after-free freedom over all histories.",
  ["interface.c: flush_interface, interface_updown", "neighbour.c: flush_neighbour"])
p("C49", "Received updates are recorded faithfully",
  "An update that must be ignored (own router-id, martian or mixed-family prefixes, denied by the input filter, no router-id) changes nothing; any other update for a known route leaves in the table that route with the announced originator, sequence number, metric and hold time, refreshed unless it is a retraction; an announcement of an unknown route creates it with these attributes and its next hop; no other route is created, removed or altered by an update. (The next hop of a known route is not changed by an update; the metric is not changed when the kernel refuses the change for the selected route.)",
  "all reachable states, all updates",
  "All combinations of table contents, filters and update fields.",
  ["route.c: update_route, change_route_metric"])
p("C50", "Received packets mean what the protocol says",
  "A packet is decoded TLV by TLV, each acting on the parser state (router-id, next hops, default prefixes) left by the previous ones; an acknowledgment request, hello, IHU, router-id, next hop, update, route request or seqno request is delivered with exactly the fields encoded in it, the compressed prefix completed from the default prefix, the source prefix and timestamps taken from its sub-TLVs, and nothing else is delivered.",
  "all packets, all parser states, all field values, all sub-TLV areas",
  "Exhaustive over byte layouts; tests only sample.",
  ["message.c: parse_packet, parse_update_subtlv, parse_request_subtlv, parse_seqno_request_subtlv, parse_hello_subtlv, parse_ihu_subtlv"])

p("C51", "The configuration language",
  "Configuration files written in the documented syntax, with any white space, comments and number bases, are accepted (except the value 0, which the manual allows for kernel-check-interval and shutdown-delay-ms); options take effect in order and a key is the last one defined with its name. Reading any text whatsoever ends with success or a syntax error, except that some malformed interface and default lines free memory twice.",
  "all texts",
  "All texts of any length.",
  ["configuration.c: getword, getstring, getint, parse_config_line, parse_config_from_file, parse_option, parse_key"])
p("C52", "What control connections can change",
  "Without write permission a control connection changes nothing. With it, filters and all options except link-detect, log-file and smoothing-half-life still never change, so a read-only connection stays read-only; 'flush interface' removes that interface and no other.",
  "all sequences of lines, all states",
  "Any sequence of commands.",
  ["configuration.c: parse_config_line, parse_config_from_string, parse_option", "interface.c: flush_interface"])

p("C53", "Control clients and the main loop",
  "When a control client takes the replies it is sent, the daemon returns to its other tasks after reading from it once. When a reply cannot be written, the daemon does nothing else until the client sends something or goes away.",
  "all inputs, all connection states",
  "Depends on the timing of clients.",
  ["babeld.c: main loop", "local.c: local_read, write_timeout"])

p("C54", "Configuration values stay in range",
  "Whatever configuration files contain and whatever control clients send, accepted or refused, in any order: every metric, cost, interval, port, table and option of the configuration stays within its documented range; prefixes have no bits beyond their length; keys have a length suitable for their algorithm and distinct names; interfaces refer only to keys that exist; there is at most one control socket.",
  "all texts, any sequence of files and lines",
  "Ranges over all texts, including those that are refused half way.",
  ["configuration.c: parse_filter, parse_ifconf, parse_key, parse_option, merge_ifconf, add_key, add_ifconf, finalise_config"])

p("C55", "Requests to the kernel say what is meant",
  "A request to add or delete a kernel route is a well-formed message that fits the buffer and names exactly the table, the destination and source prefix, and the next hop (also an IPv6 next hop for an IPv4 route), interface and metric that were asked for, or an unreachable route if the metric is infinite; it is marked as Babel's and asks for an acknowledgment. It is refused at once if the families do not fit or source-specific routes are not supported; nothing is sent for unreachable default routes. A change deletes the old route and then adds the new one.",
  "all prefixes, next hops, interfaces, metrics, tables",
  "Byte layouts for all values.",
  ["kernel_netlink.c: kernel_route, netlink_talk"])

p("C56", "Kernel notifications mean what they say",
  "A kernel message about a route yields exactly the destination, source prefix, metric, interface, protocol and next hop encoded in it, in whatever order its attributes are; it is ignored exactly if the route is Babel's own, cloned, of a table that is not imported, an unreachable IPv6 default route, or has a truncated address. A message about an address yields the local address and the interface. What one router requests another one importing the table understands.",
  "all messages in the kernel's format",
  "All attribute lists.",
  ["kernel_netlink.c: parse_kernel_route_rta, filter_kernel_routes, parse_addr_rta, filter_addresses"])

p("C57", "Answers and notifications of the kernel are taken exactly once",
  "When an answer of the kernel is read, exactly the messages that answer the request are delivered, once and in order, up to the end of the answer, however they are split into datagrams and whatever other messages are in between, and the result tells success from failure. When listening, the messages of one datagram are delivered except those caused by the daemon's own requests. Datagrams from other processes are not used.",
  "all sequences of datagrams",
  "All interleavings of messages.",
  ["kernel_netlink.c: netlink_read, netlink_talk, kernel_dump, kernel_callback"])

p("C58", "Changes of link costs reach the routes",
  "After the cost of a neighbour or an interface has changed, every route through it has the current cost (or has been retracted, if it is past its hold time); after a neighbour has retracted all its routes, all routes through it are retracted. Routes through other neighbours are not touched. (A route keeps its metric if it is selected and the kernel refuses the change.)",
  "all reachable states, all neighbours and interfaces",
  "The table is reordered while it is walked; all table contents.",
  ["route.c: update_neighbour_metric, update_interface_metric, retract_neighbour_routes, update_route_metric"])

p("C59", "Which new routes are used",
  "A new route to a destination without selected route is selected at once exactly if it is feasible, the destination is not redistributed (or duplicates are allowed), the install filter does not deny it and the kernel takes it. If there is a selected route and metrics are not smoothed, a feasible new route replaces it exactly if its metric is strictly smaller. If metrics are smoothed, it does not replace a selected route with a settled metric at once, however good it is.",
  "all reachable states, all announcements of unknown routes",
  "All combinations of table contents, configuration and kernel answers.",
  ["route.c: update_route, consider_route, route_acceptable, install_route, switch_routes, route_smoothed_metric"])

p("C60", "Redistributed destinations are not routed through neighbours",
  "No event other than a change of the kernel's routes selects a route to a destination that is redistributed, unless allow-duplicates is configured and the metric of the redistributed route is at least the configured value.",
  "all reachable states, all events",
  "All histories.",
  ["route.c: consider_route, switch_routes", "xroute.c: find_xroute"])

p("C61", "Newer sequence numbers are requested when a route is not feasible",
  "When an unfeasible route is announced, its neighbour is asked for the sequence number that would make it feasible, exactly if the announced sequence number is at most 100 behind and there is no selected route to the destination or one that is worse by at least 512. When the announced route is feasible nothing is asked.",
  "all reachable states, all announcements",
  "All combinations of table contents and announcements.",
  ["route.c: update_route, send_unfeasible_request", "message.c: send_unicast_multihop_request"])

p("C62", "Interfaces get the documented parameters",
  "An interface comes up exactly when it exists, is operational, has a link-local address and could be set up, and it is taken down when its index changes or it disappears. Each time it comes up, every parameter (type, cost, intervals, split horizon, link quality, timestamps, RTT parameters, unicast, IPv4-via-IPv6, buffer size, key) has the configured value or, if none is configured, the documented default for the type of the interface and the options of the command line; the interval announced in updates is the one used.",
  "all configurations, command lines, kernel answers, and histories of going up and down",
  "All combinations of options, and all histories of an interface.",
  ["interface.c: interface_updown, check_interfaces", "babeld.c: main (options -h, -H, -s, -w)", "message.c: really_buffer_update"])

p("C63", "No packet makes the daemon misbehave",
  "Whatever packets arrive, from any number of neighbours, valid or not, signed or not, interleaved in any way with the passage of time, changes of the kernel's routes, interfaces going down and coming up, and all other activities of the daemon: it never reads or writes outside its send buffers and never fails an assertion. On an interface with a key, packets that are not correctly signed have no effect at all.",
  "all histories of packets and other events of a daemon, from its start",
  "Ranges over all histories of arbitrary packets; a bad value may be stored when one packet arrives and do its harm when another is sent.",
  ["message.c: parse_packet, flushupdates, really_buffer_update, flushbuf", "babeld.c: main", "neighbour.c: check_neighbours, neighbour_cost"])

p("C64", "Neighbours learn exactly what the daemon announces",
  "Whatever has happened to the daemon, what neighbours read in the packets it has sent to everyone on an interface are exactly the announcements and retractions it has made on this interface, in the same order, with the same destination, router-id, sequence number and metric, despite compression, splitting into packets, and the interleaving with other messages. Neighbours read no announcement that has not been made, also in packets sent to one neighbour only.",
  "all histories of packets and other events of a daemon, from its start; all neighbours",
  "Ranges over all histories; the compression state is shared by all messages in a packet.",
  ["message.c: flushupdates, really_buffer_update, buffer_update, flushbuf, parse_packet", "babeld.c: main", "interface.c: interface_updown"])

p("C65", "No routing loops among daemons that exchange packets",
  "In a network of any number of such daemons, with any links between them, whose interfaces go down and come up, in which packets are lost, duplicated, delayed, reordered, or forged without the key of an interface that has one, forwarding towards a destination announced by one router never loops, and no daemon makes another one read or write outside its buffers.",
  "all networks, all histories of packets and other events at all routers, all contents of unsigned packets on interfaces with a key",
  "Ranges over networks of unbounded size and all interleavings; involves encoding, decoding, link costs, buffers and routing at once.",
  ["route.c: update_feasible, update_route, route_lost", "message.c: parse_packet, flushbuf, flushupdates", "source.c: update_source", "babeld.c: main"])

p("C66", "Everything is done in time",
  "The daemon sleeps until the earliest of all its deadlines (or less than a second longer, if that is in whole seconds), and reads packets whenever nothing is due. When it wakes up it does everything that is due and nothing else; after that no deadline has passed. So nothing is done later than twice the time by which the loop may be delayed, plus a second for deadlines in whole seconds. In particular, on each interface that is up, at any time the last hello was sent not longer ago than 5/4 of the hello interval, and the last full update was made not longer ago than 5/4 of the update interval, plus that delay; and periodic hellos and updates are at least 3/4 of the interval apart.",
  "all histories of the main loop: all packets, interfaces and neighbours that come and go, random numbers, and delays of the operating system below a bound",
  "Timing depends on all histories of all timers, and on random numbers.",
  ["babeld.c: main, schedule_neighbours_check, schedule_interfaces_check", "util.c: timeval_min, timeval_min_sec, roughly", "interface.c: set_timeout", "resend.c: do_resend, recompute_resend_time"])

p("C67", "A packet that cannot be sent does not stop the daemon",
  "When a packet on one interface cannot be sent, because it cannot be signed, the daemon goes on reading packets of other neighbours, messages of the kernel and control connections.",
  "all histories of the main loop, all packets that cannot be signed",
  "An interface must go down between the moment a message for a neighbour is put in a buffer and the moment it is sent.",
  ["message.c: flushbuf", "hmac.c: add_hmac", "interface.c: interface_updown", "babeld.c: main"])

p("C68", "A packet does what its messages say, and nothing else",
  "The daemon does exactly what the messages of a packet ask for, in their order: each update, retraction and request is handled once, with the cost the link has according to the hellos and IHUs received before it, also in the same packet; a request for everything is answered unless everything was announced during the last hello interval. What is known of the link to the sender changes as the hellos, IHUs and timestamps in the packet say; nothing is learnt about other neighbours. Packets on an interface that is down have no effect, and on an interface with a key a packet has all its effects or none. A neighbour not heard of for too long is forgotten with all its routes and with its authentication state.",
  "all daemons, after all histories; all packets",
  "Ranges over all contents of packets and all states; the order of link measurements and updates matters within a packet.",
  ["message.c: parse_packet, handle_request", "neighbour.c: find_neighbour, update_neighbour, check_neighbours", "babeld.c: main"])

p("C69", "Messages for one neighbour go to that neighbour",
  "Each neighbour has a buffer of its own, addressed to it. A neighbour reads in the packets addressed to it, apart from hellos and IHUs, exactly the requests meant for it and, on interfaces configured to use unicast, the updates and requests meant for everyone on the interface, all in the order in which the routing part produced them; a neighbour that has just appeared gets nothing that was written earlier for another one. A request for an acknowledgment is answered to its sender with its nonce; challenges and replies to challenges go to the neighbour concerned. What waits in the buffer of a neighbour is not lost before it is sent.",
  "all daemons, after all histories in which the requests received and the routes redistributed are for well-formed destinations; all packets, any number of neighbours on an interface",
  "Neighbours come and go on shared interfaces, and buffers are flushed at any moment; compression state must be right in every buffer.",
  ["message.c: start_message, start_unicast_message, end_unicast_message, flushbuf, send_ack, send_challenge_req, send_challenge_reply, send_multihop_request, buffer_update", "neighbour.c: find_neighbour", "hmac.c: check_hmac"])

p("C70", "Hellos and IHUs say what they should",
  "What a neighbour reads in the packets sent to everyone on an interface that stays up contains hellos with consecutive numbers, modulo 65536, each with interval 0 (unscheduled), the configured hello interval, or the short one sent when the daemon stops; the hellos sent to one neighbour are unscheduled and numbered from 1. When a hello is due, exactly one scheduled hello is added, with the next number, and exactly one IHU for each neighbour on the interface if the number is a multiple of three, otherwise for each neighbour with a cost of at least 384 or one of whose last four hellos was missed; unscheduled hellos are added only if timestamps are enabled. An IHU has the address of the neighbour, the current cost of receiving from it and three times the hello interval, and is read by that neighbour and no other. A request for everything is answered with one IHU for the neighbour who sent it. Without timestamps, a neighbour that stays known gets an IHU with at least one of three consecutive scheduled hellos (with timestamps, unscheduled hellos use up numbers, and it may get none at all). Writing hellos and IHUs never fails, and everything else that is claimed of daemons with arbitrary hellos and IHUs holds.",
  "all daemons, after all histories of packets, hellos, IHUs and other events in which the requests received and the routes redistributed are for well-formed destinations; all neighbours and all readers",
  "Whether links are usable depends on the numbers and costs that a neighbour reads over a long time, after interfaces and neighbours have come and gone and buffers were flushed at any moment.",
  ["message.c: buffer_hello, send_multicast_hello, send_unicast_hello, send_hello, buffer_ihu, send_ihu, send_marginal_ihu", "babeld.c: main", "neighbour.c: neighbour_rxcost"])

p("C71", "Routes lead back to where they were originated",
  "If the kernels accept the requests of the routers, what a router announces with a finite metric, or has in its table and has not been retracted, selected or not, was announced along a chain of routers, each a neighbour of the one before it, with the same router-id and sequence number and with strictly smaller metrics; at its end is the router with that router-id, which has redistributed the destination and told its local clients so. (If a kernel refuses to change a route, a router may announce a sequence number that nobody ever announced.) No event fails.",
  "all networks with any number of routers; all histories, in which packets may be lost, duplicated, delayed, reordered, and forged on interfaces with a key; interfaces without a key may go down when their buffer holds no update",
  "No router invents destinations, router-ids or sequence numbers, in any history of any network.",
  ["route.c: update_route, change_route_metric, route_changed", "message.c: parse_packet, flushupdates, really_buffer_update", "xroute.c: add_xroute"])

p("C72", "The settings of the host are restored",
  "If nobody else changes them meanwhile, all settings of the host (forwarding, redirects, reverse path filters) are, after the daemon has ended, what they would be if it had never run, however often interfaces were added, went up and down, vanished with their settings or were removed. While it runs, forwarding is on, redirects are ignored, the reverse path filter is off in general and on each interface that is up, and the settings of other interfaces are untouched. An interface is up after a check exactly if it exists, is operational, and was up already or could be brought up. With skip-kernel-setup no setting is ever changed. (False if a setting cannot be read at the start: those changed before it are not restored; and an interface that is replaced by another with the same name between two checks gets the setting of the old one. With more than 1024 interfaces the daemon reads outside of its table.)",
  "all hosts and all histories of interfaces, at most 1024 of them, with names of at most 15 characters",
  "The saved settings are kept in a table that is compacted as interfaces come and go; a mistake shows only after particular histories.",
  ["kernel_netlink.c: kernel_setup, kernel_setup_interface, get_old_if, free_old_if, read_proc, write_proc", "interface.c: interface_updown, check_interfaces, flush_interface", "babeld.c: babel_main"])

p("C73", "Links with a finite cost have worked in both directions",
  "In a network whose packets may be lost, delayed, reordered, duplicated or (on interfaces with a key) forged: the cost a router uses for sending to a neighbour is infinite, or exactly what that neighbour had computed, at some earlier time, as its cost of receiving from a router with this router's address. If the register of hellos received from a neighbour is not empty, the neighbour has sent a hello. Hence when the cost of a link is finite, both routers have sent hellos that the other can read, and the other router had a finite cost of receiving from this one, which is the cost in use. Interfaces stay up during the history.",
  "all networks and all histories of packets, timers, hellos and IHUs in which interfaces stay up",
  "The cost at one end depends on what the other end computed from what it received before; no test covers all interleavings of loss and delay.",
  ["message.c: send_ihu, send_hello, parse_packet", "neighbour.c: update_neighbour, check_neighbours, neighbour_rxcost, neighbour_cost"])

p("C74", "Every router gets a router-id of its own",
  "The router-id is the one configured, if there is one. Otherwise, unless a random one is asked for, it is made from the hardware address of the first interface of the host (by index, below 256, whether or not babeld uses it) that has one assigned by its manufacturer: the modified EUI-64 of that address. If there is none it is random. Two hosts whose hardware addresses of the same size differ get different router-ids; an EUI-64 and a 48-bit address give the same only if one is made from the other; router-ids made from hardware and random ones are never equal; and those made from hardware are never all zeroes or all ones. Not so for Infiniband, where the part of the address that is used is not unique, and random ones may be all zeroes.",
  "All options, all sets of interfaces with all hardware addresses, all random bytes.",
  "Hosts have arbitrary sets of interfaces; that no two hosts share a router-id is a statement on all pairs of hosts, and tests see the hardware of one.",
  ["babeld.c main", "kernel_netlink.c if_eui64", "kernel.c read_random_bytes"])

p("C75", "Routes only use links that have worked in both directions",
  "In the networks of C73: a route with a finite metric, in any router, goes through a neighbour which has sent a hello this router can read, and which has itself had a finite cost of receiving from this router, after this router had sent a hello that the neighbour can read. The metric of the route is exactly the sum of the metric announced by the neighbour, the configured addition, and a cost that is no less than that cost of receiving. So a router which has sent no hello has no usable route and is used by nobody. Interfaces stay up during the history.",
  "all networks, all histories of packets (lost, delayed, reordered, duplicated or forged), timers, hellos, IHUs and updates in which interfaces stay up, and all routes",
  "The cost in a route is a copy made when the route was learned or when a link changed; that no copy is ever made from a link that did not work, or survives it, is a property of whole histories of two routers.",
  ["route.c: update_route, update_neighbour_metric, update_interface_metric", "neighbour.c: neighbour_cost", "message.c: parse_packet, send_ihu, send_hello"])

p("C76", "Sockets are set up right or not at all",
  "Whichever system calls fail: the socket for Babel packets is opened if and only if all calls but the one for the traffic class succeed; it is then IPv6 only, has hop limit 1, does not hear its own multicasts, reports destination addresses, does not block, is closed on exec and is bound to the port; otherwise nothing stays open. Similarly for the sockets for clients (TCP on the loopback address, or a file; a failed attempt leaves no file behind) and for the kernel (subscribed to links, addresses and routes of both families). A daemon that starts has all of them, plus one that it does not use. A file left by a daemon that was killed keeps the next one from starting. Sending a packet takes at most 100 calls, and the packet is sent whole and once if and only if the last call succeeds. A received packet is processed if and only if it came in on an interface on which Babel runs and its destination is known.",
  "all patterns of failing system calls, all paths and ports, all packets and control messages",
  "The calls hardly ever fail in tests, and there are thousands of combinations of failures.",
  ["net.c: babel_socket, babel_recv, babel_send, tcp_server_socket, unix_server_socket", "kernel_netlink.c: netlink_socket, kernel_setup_socket", "babeld.c: main, resize_receive_buffer"])

p("C77", "The command line means what the manual says",
  "The words of the command line are divided into options, arguments and interface names as getopt describes, wherever the options stand; the daemon does not start with an unknown option, an option without its argument, a number or address out of range, or a wrong statement. Otherwise the last of several equal options counts, imported tables (at most ten) and configuration files add up, and everything not given has its documented default. Numbers can be decimal, octal or hexadecimal and nothing else. The configuration files are read in order after all options and add to them, so that a setting in a file wins; the default file is read only if no file is given and only if it exists. Hello intervals are between 5 ms and 655.35 s, and the delay for sending again is half of the smaller interval within 20 ms and 2 s. The pid file contains the process number; if it exists or cannot be written, the daemon does not start and leaves no file behind.",
  "all command lines, all contents of the configuration files, all failures in writing the pid file",
  "There are unboundedly many ways to join, repeat and order options, and defaults and overrides interact.",
  ["babeld.c: main", "util.c: parse_nat, parse_thousands", "configuration.c: parse_config_from_file, parse_config_from_string"])

p("C78", "A monitoring client has the right picture",
  "A client that keeps a table of what it is told (add, change, flush) knows after every history exactly the redistributed routes with their metrics, and which routes there are, with their metrics; each selected route is shown as selected. If the kernel has never refused a request it knows exactly which routes are selected and their router-ids. The same holds for a client that connects later and is first sent the whole tables. Only unknown routes are added, only known ones are changed or removed. If the kernel refuses a request, a client may go on seeing a deselected route as selected, or an old router-id.",
  "all configurations, all histories of the routing part, all answers of the kernel, all moments at which a client connects",
  "A change that is not announced is only visible to a client that compares its table with the daemon's after that particular history; there are many places that change routes.",
  ["local.c: local_notify_route, local_notify_xroute, local_notify_all_1", "route.c: install_route, uninstall_route, switch_routes, change_route_metric, flush_route, update_route", "xroute.c: add_xroute, flush_xroute, check_xroutes"])

p("C79", "What clients are sent can be read",
  "Every line sent to a client of the local socket - about interfaces, neighbours, redistributed routes and routes - ends with its only newline, and cut at spaces gives the kind of event, the kind of object, an identifier and pairs of names and values; reading the values with the daemon's own readers gives back exactly the addresses, prefixes, router-ids, metrics, costs and times that were meant. All lines fit in their buffers. Whatever write() does, a client has received some texts in full, one after the other, and at most a beginning of the next; unless the connection is shut down it has received all of them. This assumes that names of interfaces contain no spaces: a name with spaces, which the configuration allows between quotes, makes a line that reads like one about another interface.",
  "all addresses, prefixes, router-ids and values in their C types; all results of write and of waiting; all sequences of texts",
  "Formats with many fields are only read wrongly for particular values (IPv4-mapped prefixes, zero-padding, longest lines), and partial writes depend on the client's timing.",
  ["util.c: format_address, format_prefix, format_eui64, format_thousands", "local.c: write_timeout, local_notify_interface_1, local_notify_neighbour_1, local_notify_xroute_1, local_notify_route_1, local_header"])

p("C80", "Control connections are opened, served and closed properly",
  "There are never more than four connections to the local socket, and exactly their descriptors are open: no descriptor is leaked, closed twice or used after it was closed. New connections are accepted exactly while there is room, start with an empty buffer and not monitoring, and are closed at once if they cannot be made non-blocking. In each turn of the main loop each readable connection is read from once, and the others are not touched; a connection is given up exactly if reading from it says so. A readable connection is passed over, until the next turn, only if another one is given up in the same turn.",
  "all sequences of turns of the main loop, all results of select, accept, fcntl, read and write, all commands sent",
  "The table is compacted while it is being walked; what happens depends on which clients come, leave and write in the same turn.",
  ["local.c: local_socket_create, local_socket_destroy", "babeld.c: accept_local_connections, main loop"])

p("C81", "The time goes on, and what the kernel and the interfaces can do is found out properly",
  "The daemon's time is that of the monotonic clock if there is one. Otherwise it is the time elapsed on the system's clock, where setting that clock back, any number of times and by any amount, counts as no time: its seconds never go back. The features of the kernel (source-specific routes, IPv4 routes over IPv6, and whether the latter is safe) are used exactly from the releases on that have them, comparing versions as numbers. An interface is operational exactly if it is up and, if so configured, running; it is taken to be wireless or wired only if it is known to be neither a bridge nor another protocol's mesh.",
  "all sequences of readings of the clocks, including failures and clocks set back; all names of releases; all flags and all answers of the system about an interface",
  "The clock may be set at any moment; releases and kinds of interfaces cannot all be tried.",
  ["kernel.c: gettime, kernel_older_than", "kernel_netlink.c: kernel_interface_operational, isbridge, isbatman, kernel_interface_wireless, kernel_has_ipv6_subtrees, kernel_has_v4viav6, kernel_safe_v4viav6"])

p("C82", "A command is taken to have been carried out only if the kernel says so",
  "Whatever the system calls for sending and receiving return, the daemon takes a command to the kernel (such as installing a route) to have been carried out only if the last thing it read is an answer from the kernel itself to this very command that says so. A command that was sent completely gets exactly the result in the kernel's answer; late answers to earlier commands and messages for others are passed over, and the numbers of commands differ for 65535 commands. Commands and requests that were sent in part have failed.",
  "all results of sendmsg, select and recvmsg, all contents of received datagrams, all sequences of commands",
  "Late answers, interrupted calls and foreign messages depend on timing and on the kernel.",
  ["kernel_netlink.c: netlink_talk, netlink_send_dump, netlink_read"])

p("C83", "Signals are acted upon",
  "SIGTERM, SIGHUP and SIGINT end the main loop, whenever they arrive and whatever other signals arrive: select returns at most once more. The loop ends only after one of them, or after SIGUSR2 if the log file cannot be opened. After SIGUSR1 the tables are dumped before the end of the next turn, unless nothing has been done since the last dump; after SIGUSR2 the log file is opened again before the end of the next turn, unless the signal arrives after the file has been opened and before the flag is reset. SIGPIPE has no effect. In each turn the tables are dumped at most once and the log file is opened at most once. When the log file has been opened again, both outputs go to it, and no descriptor is left over.",
  "all interleavings of signals with the steps of the main loop, from all states",
  "Races between signals and the loop cannot be provoked reliably.",
  ["babeld.c: init_signals, sigexit, sigdump, sigreopening, main loop, reopen_logfile"])

p("C84", "What the neighbours are told at exit",
  "When the daemon exits, what was waiting to be multicast on an interface that is up is sent, followed by a retraction of all routes and a hello that announces the next one within 0.1s; nothing is left in the buffer. Updates that were still queued are not sent, except that they may be sent after the retraction if a hello was waiting. Nothing is sent on an interface that is down. On an interface where updates are unicast, the hello is sent but the retraction need not be.",
  "all histories of messages written to the buffers of the interface, all queues of updates, with and without authentication and timestamps",
  "What is sent depends on what happened to be waiting when the signal arrived.",
  ["babeld.c: main", "message.c: send_wildcard_retraction, send_multicast_hello, flushupdates, flushbuf"])

p("C85", "The queues of updates do not overflow",
  "Whatever happens, the number of updates queued on an interface does not exceed the size of the array that holds them: no update is written outside of it, and the array exists only while something is queued. A queue that is full is sent before the next update is queued, and nothing is dropped. A new array has room for one update for every destination in the table of routes and every redistributed route, and four more. On an idle interface a wildcard update of one kind therefore fits in the queue and nothing is sent before everything is queued; a full update, in which the redistributed routes are queued twice, fits if at most four routes are redistributed or if it fits in a packet, and may not fit otherwise.",
  "all histories of events, all configurations, all sizes of the tables",
  "The queue fills up only under particular sequences of events between two flushes.",
  ["message.c: buffer_update, flushupdates, send_update", "interface.c: interface_updown"])

p("C86", "No update waits without a timer",
  "Whatever happens, if the clock does not go back: updates wait only on interfaces that are up, and while they wait a timer is set that is at most 6250 ms ahead, at which they are sent. Queuing more updates may postpone the timer, by at most a quarter of what remains of it; repeatedly, so that this timer alone does not bound the time for which an update waits.",
  "all histories of events with a clock that does not go back, all configurations, all random numbers",
  "A queue that is filled without its timer being set is sent eventually, with some other update, so that tests see it sent.",
  ["message.c: schedule_update_flush, buffer_update, send_update, flushupdates", "interface.c: set_timeout", "babeld.c: main"])

out = os.path.join(os.path.dirname(__file__), "..", "properties.jsonl")
with open(out, "w") as f:
    for x in P:
        f.write(json.dumps(x) + "\n")
print(len(P))
