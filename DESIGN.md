# A formal model of babeld in Lean 4

## Trusted base

* Lean 4.33.0's kernel.  Every theorem listed in `MANIFEST.json` depends only on
  the axioms `propext`, `Classical.choice` and `Quot.sound` (many on fewer).
  No `sorry`, `admit`, `native_decide`, `bv_decide`, or axioms of our own.
* The faithfulness of the model: each definition under `lean/Verif/Model/`
  carries a comment citing the file and lines of `/repo` it models and says
  what it simplifies.  The model was written by reading the C code; it was
  never executed against it.

## Method

* C state is a Lean structure, C functions are total functions on it.
  Pointers to table entries are represented by the keys that identify the
  entry; the theorems on uniqueness of keys justify this.
* `random()` is an arbitrary stream of naturals which is an argument of the
  model, so theorems quantify over all random outcomes.  Kernel calls return a
  result taken from an arbitrary oracle stream.  Time is an argument of each event.
* Undefined behaviour (out-of-bounds read, signed overflow) is a distinct outcome of
  the modelled function, so that safety theorems are not true by totalisation.
* `unsigned short`/`int` conversions which can truncate are modelled explicitly.
* Properties false of the code are kept in the list: we prove the negation with
  a concrete reachable witness, and a `_partial` theorem under the
  weakest hypothesis we found that makes it true.

## Layout

* `lean/Verif/Model/*`  – the model (definitions only).
* `lean/Verif/Spec/*`   – small independent specifications.
* `lean/Verif/Lemmas/*` – helper lemmas.
* `lean/Verif/Props/*`  – one file per topic with the property theorems and,
  beside each, `example`s showing hypotheses are met by concrete cases.

## Plan per property

| id | modelled | proof |
|----|----------|-------|
| C01 | seqno_* on 16-bit words | arithmetic vs unbounded counters |
| C02 | roughly with arbitrary random value; jitter and timers | inequalities |
| C03 | timeval functions | comparison with microsecond counts |
| C04 | normalize_prefix, in_prefix on byte lists | bit-level spec (`bit i`) |
| C05 | martian_prefix | equivalence with a list of excluded prefixes |
| C06 | parse_thousands, fromhex on byte strings | value-of-literal spec, induction |
| C07 | whole packet parser in a monad where any out-of-range read is an error outcome | parser never returns that error, for all inputs |
| C08 | network_prefix | bit/byte-level spec |
| C09 | TLV loop | equations for parsing with inserted TLV |
| C10 | really_buffer_update + parser state | simulation relation between encoder and decoder state, induction over the sequence |
| C11 | message writers + parser | round-trip equations |
| C12 | buffer functions as state machine with explicit overflow outcome | invariant by induction; failure of signing gives a counterexample (`flushbuf` returns without emptying the buffer) |
| C13 | schedule_flush_ms, send_ack | inequalities; later reschedule is a counterexample |
| C14 | check_hmac with abstract MAC | for all packets |
| C15–C16 | preparse_packet as state machine | invariant/induction over histories |
| C17 | send_pc | induction over histories |
| C18 | update_neighbour | bit-level refinement to list of received hellos |
| C19–C20 | cost functions with C integer widths | arithmetic; overflow witnesses |
| C21 | the binary search loop and sorted insertion | generic correctness; instantiated thrice |
| C22–C23 | source.c | invariants by induction |
| C24–C28, C30–C33 | route.c as node state machine with kernel table, outputs | invariants by induction over event lists |
| C29 | network of such nodes (Spec/Net): each update received was sent before by the neighbour | global invariant (Lemmas/Net, Net2, Net3): the pair of a selected route is below the feasibility distance, and not below that of the neighbour; so the distance decreases along a path. Counterexample for the unrestricted property |
| C34–C35 | xroute.c | functional correctness of merge; counterexample for C35 |
| C36–C37 | handle_request | decision logic; network termination |
| C38–C39 | resend.c | induction over histories; counterexample for C39; invariant that the timer is set while an update is to be sent again (Lemmas/Armed) |
| C40, C47 | update queue | permutation/dedup theorem |
| C41–C44 | configuration.c filters | list induction; counterexamples for C42, C43 |
| C45 | state file handling | arithmetic |
| C46 | local_read | stream splitting; counterexample for sticky replies |
| C49–C50 | decoding of sequences of TLVs and of each TLV | equations for all field values |
| C51–C54 | the configuration language as grammar and as set of malformed texts | parser = grammar on correct texts, refusal on malformed texts, invariant over all texts |
| C55–C56 | the buffer that kernel_netlink.c fills for a request, byte by byte, and the decoding of messages; netlink format as specification | the bytes are an encoding of a message (Spec/Netlink) with the meaning that was asked for; decoding an encoded message yields its meaning; round trip |
| C57 | netlink_read | equation for all sequences of datagrams |
| C58 | the walks over the table in route.c | invariant of the walk: the slot keeps its routes, those behind the cursor are done |
| C59 | the transition for an announcement of an unknown route | exact condition, by unfolding the decision; the state in between is named |
| C60 | as C21 | invariant of all elementary transitions |
| C61 | as C59; outputs of all internal activity | exact condition; the rest of the transition sends no sequence number requests |
| C48 | teardown functions | invariant; counterexample for flush_interface |
| C62 | interface_updown and check_interfaces, as they set the parameters; flags as 16 bits | bit-level lemmas, then equations for each parameter after any history |
| C63 | the whole daemon: authentication, decoding, link quality, routing and send buffers driven by packets | an invariant of the destinations in the state and in the messages (lengths only), kept by every event; the send buffers are the result of operations with suitable arguments |
| C64 | as C63 | the same invariant with normalised destinations, and the history of each buffer; then C10 |
| C65 | networks of daemons (Spec/DNet): each packet received was sent before by the neighbour, or is unsigned | every step of the network of daemons is a sequence of steps of the network of C29, since by C11 each update read in a packet was announced by the neighbour (Lemmas/DNet). Counterexample with actual packets |
| C66 | main loop with all its timers (Model/Loop); what jobs do is arbitrary, apart from timers | invariant over turns of the loop: after each turn no deadline has passed; the time to sleep is the minimum of the deadlines (fold over the timers); each entry of the log was made in time (Lemmas/Loop) |
| C67 | `failed` in Model/Loop: the timer of a buffer is kept when signing fails; `flushbuf` without addresses (Model/Buffer) | invariant over turns: the deadline stays, so the minimum of all deadlines is in the past (Lemmas/Stuck) |
| C68 | whole daemon (Model/Daemon) | composition: each message is a list of events of the routing part (`Handles`), lists are appended along the packet; small specification of what a message asks for (Spec/Packet) |
| C69 | whole daemon (Model/Daemon) | each event is a sequence of writes to buffers (`Trace`, Lemmas/Daemon2); invariants over it: every neighbour has its own buffer with its address, and what is read from a buffer grows by what is written to it (Lemmas/Unicast) |
| C70 | Model/Hello on top of Model/Daemon: the hello numbers, `send_hello`, `send_ihu` | refinement to the daemon with arbitrary hellos and IHUs; invariant: the hellos read from a buffer are `numbered` (Spec/Hello); `Tells`: what each operation adds to what a reader finds |
| C71 | network of whole daemons (Spec/DNet, Spec/Origin) | invariant over the micro-transitions of each router: every route was told by the neighbour, every announcement comes from an own route or a route with a smaller metric (Lemmas/Origin1); induction over the history of the network, then over the metric |
| C72 | Model/Host: the settings of the host and the table of saved ones | invariant: every setting is either the host's own or saved (Lemmas/Host); the host's own settings are computed by Spec/Host without the daemon |
| C73 | networks of Model/Hello (Spec/TwoWay: the list of all states) | invariants: every IHU in a packet or buffer repeats the receive cost of an earlier state; what is known of a neighbour changes only by messages read in packets it sent, and by timeouts (Lemmas/TwoWay, TwoWay2) |
| C74 | the choice of the router-id and if_eui64 (Model/Identity) | the loop over interfaces by induction; the bits of the first byte by cases over all bytes; injectivity of the modified EUI-64 |
| C75 | networks of Model/Hello (Spec/TwoRoute) | invariant of the micro-transitions of the routing part: the cost of every route was a cost of its link (Lemmas/Costs); with C73, every cost of a link has its reasons in the past (Lemmas/TwoRoute) |
| C76 | net.c and the opening of sockets (Model/Sockets) | a table of open sockets and an arbitrary sequence of outcomes of system calls; sequences of calls by induction, each function by cases over the first failure; sending by induction over the attempts left |
| C77 | the command line, the configuration files, the intervals and the pid file (Model/Main) | getopt as a recursive function, proved equivalent to an inductive grammar; the loop over the options by induction from the end, against a description of what the last option of each kind says; `strtol` against the grammar of numbers |
| C78 | the notifications recorded by the routing part (`Out.notifyRoute`, `Out.notifyXroute`) | a client is a fold over the lines (Spec/Monitor); invariant `Pic` over the elementary transitions: the client's table agrees with the route table except for the routes being changed; generic in the relation, so that one proof gives the exact statement (kernel accepts) and the weaker one (any kernel) |
| C79 | the formatting functions of util.c, the lines and the header of local.c, `write_timeout` and the connection (Model/Report); `inet_ntop` abstract | a client is a function that cuts a line at spaces (Spec/Report); each line is shown to be the join of its words; the words are read by the modelled readers `parse_net`, `parse_address`, `parse_thousands`, `strtol`; the stream by induction over the texts |
| C80 | the table of connections, accepting, the loop over the connections (Model/Hub) on top of `local_read` (Model/Local) | invariant over turns: open descriptors are a permutation of those in the table; the loop by induction over the rest of the table, with the swap of the last connection |
| C81 | `gettime`, `kernel_older_than` and the tests that use it, the flags and the kind of an interface (Model/System) | refinement of the sequence of times to the time elapsed (Spec/System), by induction over the calls; the text of a release is read back; decision tables |
| C82 | `netlink_talk` and `netlink_send_dump` (Model/Talk) on top of `netlink_read` (Model/NetlinkRead) | induction over the bytes of the datagrams read (any bytes), and composition with C57_answer for well-formed ones |
| C83 | the flags set by the handlers, the places where the main loop tests and resets them, `reopen_logfile` (Model/Signals); a signal may arrive between any two steps | number of steps to the place where the flag is acted upon, by induction over the interleaving |
| C84 | the messages sent at exit, as operations on the buffers of C10-C12 (Model/Farewell); the queue of updates is given | what is decoded from the packets of the whole run (C11), split at the exit |
| C85 | the size of the array is part of the state of an interface (Model/Queue) | invariant over the decomposition of events into elementary operations (Lemmas/Soft); exact effect of queuing an update; a wildcard update fits since the destinations in use are distinct (Lemmas/Room2) |
| C86 | the timer is part of the state of an interface (Model/Queue) | invariant over the decomposition of events into elementary operations, with exceptions for the interface whose queue is being filled and for the one that goes down (Lemmas/Pending); witness for the postponed timer |

Not expressible in the model: timing of the operating system, performance,
ioctls and route sockets (`kernel_socket.c`, parts of `kernel_netlink.c`), the cryptographic strength of the MAC (`rfc6234`, `BLAKE2`
are replaced by an arbitrary function).


## What is modelled

| module | code |
|--------|------|
| Model/Util | util.c (sequence numbers, time, prefixes, parsing of literals), parts of configuration.c |
| Model/Table, RouteTable | the sorted tables of source.c, route.c, xroute.c and their binary search |
| Model/Types, State, Kernel, Select, Xroute, Resend, Queue, Node | route.c, source.c, xroute.c, resend.c, the update queue and request handling of message.c, as one state machine (`Ev`, `step`, `Reachable`) |
| Model/Neighbour | neighbour.c |
| Model/Wire | message.c 56-430, 573-1105: decoding of packets |
| Model/Buffer | message.c 1107-1545, 1868-1972, 2060-2202, hmac.c 210-239: the send buffers |
| Model/Auth | hmac.c 109-208, 242-287, message.c 432-625, 1305-1348: authentication of received packets, for all neighbours of an interface |
| Model/Config | configuration.c: the lexer and parser byte by byte, the state they build, finalise_config, renumber_filters, filter evaluation, commands of control connections |
| Model/Dump | xroute.c 243-311, 436-469: reading the addresses and routes of the host |
| Model/Local | local.c 318-389, babeld.c 681-694: control connections |
| Model/Teardown | neighbour.c 57-128, interface.c 66-131, 254-515, babeld.c 643-665: the tables of neighbours and interfaces around the state machine of Model/Node |
| Model/Netlink, NetlinkRead | kernel_netlink.c 68-79, 357-500, 515-622, 955-1281, 1284-1505: requests to the kernel, decoding of its messages, reading from the sockets |
| Model/IfParams | interface.c 255-582: parameters and state of an interface |
| Model/Daemon | babeld.c 588-787 (without timers), message.c 573-1105: the whole daemon, made of the parts Auth, Wire, Neighbour, Node, Buffer |
| Model/Hello | message.c 1350-1435, 1946-2058, babeld.c 752, 800, interface.c 485: when hellos and IHUs are sent and what they contain, around Model/Daemon |
| Model/Host | kernel_netlink.c 84-165, 230-276, 626-698, 739-786, interface.c 66-131, 254-278, 493-577: settings under /proc/sys |
| Model/Identity | babeld.c 443-477, kernel_netlink.c 167-228: the choice of the router-id |
| Model/Sockets | net.c, kernel_netlink.c 290-351, 700-737, babeld.c 417-526, 654-678, 937-954: sockets |
| Model/Main | babeld.c 122-384, util.c 136-154: the command line |
| Model/Report | util.c:288-340, local.c:51-262 and 393-420: the text sent to clients, writing it |
| Model/Hub | local.c 422-449, babeld.c 621-629, 678-694, 862-910: the table of control connections |
| Model/System | kernel.c 38-82, 116-131, kernel_netlink.c 787-800, 833-954: the clock, the features of the kernel, the state and kind of interfaces |
| Model/Talk | kernel_netlink.c 517-622: sending commands and requests for dumps |
| Model/Signals | babeld.c 588-787 (the flags), 959-1020, 1107-1132: signals, and opening the log file again |
| Model/Farewell | babeld.c 789-805, message.c 1370-1399, 1886-1908: the last messages |
| Model/Loop | babeld.c 588-787: the timers of the main loop, how long it sleeps, what it tests when it wakes up |
| Model/Restart | babeld.c 479-508, 813-835: the state file |

Simplifications that matter when reading the theorems:

* `Model/Node`: packets are not bytes but decoded items; the link with the bytes is Model/Wire
  and Model/Buffer.  The result of a route selection is recorded in a ghost output
  (`Out.selected`), which the code does not have.
* `Model/Neighbour`: one neighbour; the table of neighbours is a list without duplicates.
* `Model/Wire`: an item is what the handler of a TLV would be called with.
* `Model/Buffer`: all operations on one interface and the buffers of its neighbours; failures of
  `sendmsg` are not modelled.
* `Model/Auth`: the hash functions are arbitrary functions (`Digest`); the neighbour table is a
  partial function from addresses; effects of an accepted packet are the decoded items of Model/Wire.
* `Model/Config`: `inet_pton`, `strtol` and `if_nametoindex` are functions of which only what the
  manual says is assumed (`LibcOk`); memory exhaustion is not modelled; options are named fields
  rather than global variables; a double free is the outcome `ub`.
* `Model/Host`: a write to a setting changes no other setting; memory allocation does not fail.
* `Model/Identity`: the ioctl copies at most 14 bytes of the hardware address; opening its socket does not fail.
* `Model/Main`: getopt is that of the GNU C library without POSIXLY_CORRECT, written from its manual; allocation does not fail; the log file, `/dev/null` and the
  change to the background are not modelled, nor are the texts printed.  A configuration file is read whole or not at all.
* `Model/Sockets`: each system call succeeds or fails, whatever its arguments, except that binding to an existing file fails; the address family of
  a datagram is IPv6 and control messages are not truncated; `parse_packet` is called for the first interface of the right index (indices are distinct).
* `Model/Loop`: what a job does, and what packets cause, is arbitrary, except that other timers are set to later times with
  `set_timeout` or cleared; interfaces and neighbours come and go. Whether a packet can be signed (`failed`, message.c:1145)
  is arbitrary: C66 assumes that it can, C67 says what happens otherwise. `select` does not fail.
* `Model/Daemon`: an interface that comes up has the same parameters as before, except for its MTU, and only interfaces without a key
  go down (what happens to those with a key is C67); hellos and IHUs are written, and buffers flushed, at arbitrary times with
  arbitrary contents (Model/Hello replaces these by what the code writes; its times remain arbitrary); the messages sent by one step of the routing part are written to the buffers after that step.

## Seeded edits, and what the log does and does not show

`tools/seed.py` applies each edit of `tools/seeds/*.py` to a scratch copy, rebuilds, and logs the declarations that fail in
`seeded/LOG.jsonl`.  Read the log with these limits in mind:

* An edit counts as "killed" if any theorem fails, helper lemmas included.  Of the 1213 lines logged, 229 name a property theorem (`Cxx_…`)
  among the failures; 982 name only helper lemmas, and 2 name none: these survived, and are marked in the seed files as equivalent
  (`compareHmac`, where the bytes are compared as well; `kernelOlderThan`, whose callers only compare the result with 0).
* A helper lemma that fails stops the build of the modules that depend on it, so the property theorem is then not tried.  Besides, many of the
  later runs used `FAST=1`, which stops at the first module in which a theorem fails.
* A helper may fail because its statement is false of the edited program, or only because its proof follows the shape of the definition
  (the `frame_…` and `qms_…` lemmas of Lemmas/Micro are often of the latter kind).  For the 982 lines the log therefore does not by itself
  show that the property theorem is strong enough to exclude the edit; these were not examined one by one.
* Edits that survived were not logged until the theorem had been tightened, the edit replaced or marked as equivalent, so the log is no
  estimate of how many edits survive at the first attempt.  Edits that did not compile were replaced as well.
* Not run, or run in part only: zc_room, zb_rest, v_monitor, u_report, t_main, r_route2.

## Findings

Properties that one would expect and that are false of the code.  Each has a theorem with a
concrete witness.

* C06: literals with more than nine fractional digits (`C06_thousands_long_fraction_false`).
* C07: datagrams of less than four bytes are parsed using stale bytes (`C07_short_reads_outside`).
* C10: compression state survives when an interface goes down (`C10_updown_lost`).
* C12: when signing fails, e.g. because the link-local address was removed, buffers overflow
  (`C12_unsigned_overflow`).
* C13: an acknowledgment can be postponed beyond its deadline (`C13_postponed_beyond`).
* C14: a Pad1 before the MAC hides it (`C14_pad1_hides`); with a key of the wrong length or type
  nothing is accepted (`C14_bad_key`).
* C15: a challenge reply that is held back resets the counter, so that packets can be replayed
  (`C15_delayed_reply`).
* C16: a failing random generator changes the nonce of the outstanding challenge
  (`C16_short_read`); a reply without counter uses up the challenge (`C16_no_counter`).
* C17: a packet is sent without counter when the random generator fails (`C17_no_random`).
* C19: wrap-around of the receive cost (`C19_rx_wraps`).
* C20: smoothing of large RTTs overflows (`C20_smooth_wraps`); the first RTT sample is not reported
  (`C20_first_unreported`).
* C26: next hops that are not sane, import tables (`C26_needs_sane_nexthop`,
  `C26_needs_table_per_destination`).
* C27: a route with infinite metric can be selected (`C27_unreachable_selected`).
* C29: a routing loop.  `update_route` (route.c:902-917) has the comment "If the source remains the
  same, we ignore the update", but it does not: an unfeasible update for the selected route, from the
  same source, is stored and the route stays selected.  If the selected route had been retracted
  (`route_lost` does select such a route, since a retraction is always feasible), the unfeasible update
  revives it.  `C29_false` is a history of three routers in a line, with one duplicated update, that
  ends in a loop of two routers.  `C29_partial` shows that there are no loops without such a revival.
* C31: smoothed metrics can get stuck, and overflow (`C31_stuck`, `C31_overflow_half_life_2`).
* C32: a change of originator can go unannounced (`C32_unannounced`): a neighbour gives the selected route the
  originator of another route, and the daemon switches to that route in the same event; `switch_routes` compares the
  sources of the two routes, which are now equal.  Also, from the hypotheses of the theorems: a retraction that happens
  while an interface is down is not announced when it comes up again before the neighbours have noticed; with split
  horizon, moving to a route through interface `i` leaves the neighbours on `i` with the old announcement; an
  output filter that denies by router-id leaves stale announcements; `route_lost` requests nothing if the old
  metric was above 32767; a retraction is followed by a request only if the metric grew by 288 or more.
* C35: when a redistributed route is withdrawn, the prefix length and source prefix of another one are used
  (`C35_false`): the withdrawal is not announced, and a route to another destination, which is still
  redistributed, is selected.
* C42: the install filter is only consulted when a route is selected for a destination that has no selected
  route. When the selection moves to another neighbour (`switch_routes`), or the router-id of the selected
  route changes, a denied route stays or is put in the kernel (`C42_false`).
* C48: `flush_interface` frees the interface but discards neither the neighbours on it nor the pending
  requests that refer to it (`C48_false`); they are dereferenced by the next flush of the neighbour's
  buffer, the next dump on a control connection and the next `do_resend`.
* C36: own requests are forwarded; requests are resent too far (`C36_own_request_forwarded`,
  `C36_resent_far`).
* C39: the redundancy check is reversed (`C39_newer_suppressed`, `C39_older_forwarded`).
* C43: prefix lengths that are not lengths of the address family wrap around at 8 bits, so that
  e.g. `ge 200` in an IPv4 rule means `ge 40` (`C43_outside`).
* C44: a line about an interface of the configuration files is accepted on a control connection and
  ignored (`C44_ignored`).  Interfaces created on a control connection do not take values from
  `default` lines.
* C51: `interface eth0 rxcost 96 "x` frees memory twice (`C51_double_free`); so does a word of more
  than 255 characters in that place.
* C46: the buffer holding the reply is not reset between lines of the same read, so that after a
  line that fails, later lines that succeed are answered `bad` (`C46_sticky_false`).
* C53: when a reply cannot be written within 100 ms, `local_read` fails with EAGAIN and the main loop
  calls it again without end (`C53_stall`).
* C55: table numbers up to 65535 are accepted, but only 8 bits of them are sent to the kernel: table 510 is
  table 254, the main table (`C55_false`).  The same truncation happens when the routes of an imported
  table are asked for.
* C56: an unreachable IPv4 default route of the kernel is not ignored, unlike an IPv6 one, because its prefix length
  is 96, not 0 (`C56_unreachable_v4`); an address message without address is delivered with an uninitialised
  one (`C56_no_address`); the length of integer attributes is not checked (`C56_short`); the IPv6 next hop of
  an IPv4 route is not seen (`C56_roundtrip`).
* C57: a dump of an import table from 256 on asks for another table: the number is stored in the 8-bit `rtm_table` field
  (`C57_large_table`), e.g. 44 instead of 300, and everything if the number is a multiple of 256.
* C57: `netlink_get_extack` does not subtract the length of the header, and `NLMSG_ALIGN(int)` is 0: at the
  end of each dump it reads up to 21 bytes beyond what was received (`C57_beyond`, `C57_extack`), which
  can be beyond the buffer.
* C58: when the cost of an interface changes, a route through it can be missed and keep its old cost, because
  the list is reordered during the walk (`C58_skipped`).
* C60: `allow-duplicates` is compared the wrong way around when a route is received (route.c:1029), though not when a
  kernel route appears (xroute.c:377) (`C60_false`).
* C61: an unfeasible update for the selected route is applied and the route stays selected; no
  newer sequence number is asked for (`C61_selected_false`).
* C62: the option `-s`, documented to disable split horizon on wired interfaces, has no effect: the variable it sets is never
  read (`C62_s_false`).  `unicast`, `faraway` and `probe-mtu` are never cleared (`C62_unicast_false`).  With a hello interval of more than
  163 s and no update interval, the announced interval wraps at 16 bits (`C62_interval_false`).  Split horizon is only the default on
  interfaces declared to be `wired`, not on those whose type is guessed.
* C63: remote crash.  A route request or seqno request in address encoding 2 for ::ffff:a.b.c.d/n (n at least 96), with an IPv6 source prefix
  of at most 88 bits, is queued and answered as an IPv4 update, whose source prefix has a negative length in bytes (message.c 1470-1540): `memcpy` is
  called with a huge length (`C63_crash`).  A single packet from a neighbour suffices if there is no key.
* C64: a request for ::ffff:10.0.0.0/104 makes a daemon that redistributes 10.0.0.0/8 send a retraction of 10.0.0.0/8 to all neighbours
  (`C64_withdrawn`).  Since the prefixes of withdrawn redistributed routes get the length of another route (C35), they may be unnormalised, and the
  receiver and the sender disagree about the bytes left out of the next update in the packet (`C64_misannounced`).
* C64: when an interface goes down with updates in its send buffer, these are dropped but the compression state (router-id, next hop, prefix)
  is kept (interface.c:489-515), and the first packet after it comes back relies on what was never sent: updates are not understood, and an update whose
  router-id was implied by one that is not understood is read with the router-id before it, so that a neighbour believes that this
  router originates a route it has learnt from another one (`C64_flap`).
* C51: `kernel-check-interval 0` and `shutdown-delay-ms 0`, allowed by the manual, are syntax errors (`C51_zero_refused`).
* C65: the loop of C29 with actual packets, and without duplicates: three daemons in a line; router 2 misses some hellos of router 1 and retracts the
  route; router 1 loses router 0 and selects the retracted route; an announcement of router 1 that was on its way to router 2 arrives
  (`C65_false`).
* C66: `do_resend` doubles the delay of an entry, but counts it from the time when the entry was recorded. When the loop is late by the delay or
  more, the entry is due again at once, and is sent several times in a row (`C66_resend_twice`).
* C66: neighbours and interfaces are checked when the deadline is *before* the current time, but the loop stops sleeping *at* the deadline: when
  the clock is exactly at the deadline, the loop turns without doing anything, and without reading packets, until it has moved on (harmless). Also, the
  test for `update_flush_timeout` lacks the test for 0, so `flushupdates` is called in each turn (harmless).
* C66: timers of an interface that goes down are not cleared; those of its buffer and of the update queue are met as soon as it comes up again.
* C67: `flushbuf` returns without clearing the buffer and its timer when `add_hmac` fails, and `add_hmac` fails when the interface has no link-local
  address. `interface_updown` drops the addresses of an interface that goes down, but not its neighbours, and the main loop flushes the buffers of
  neighbours also when their interface is down. So if an interface with a key goes down while something is waiting for a neighbour, the deadline of
  that buffer stays in the past and the main loop neither sleeps nor calls `select` until the neighbour is forgotten: no packets are read on any
  interface, so that in the end all neighbours are lost (`C67_stuck`, `C67_deaf`). Every turn also uses up a packet counter as long as there
  is room (`sendPc`).
* C70: `send_hello` sends IHUs to all neighbours when the hello number is a multiple of 3, but unscheduled hellos, sent with the IHU to a neighbour
  whose timestamps are echoed, increment the same number. On an interface with timestamps where one neighbour requests the full routing table
  twice in each hello interval, scheduled hellos have the numbers 1, 4, 7, ..., and a neighbour with a good link never gets an IHU, so that
  it loses the link (`C70_starved`).
* C71: `update_route` stores the new sequence number and router-id before `change_route_metric`, which gives up when the kernel refuses to change the
  metric of an installed route. The route is then a mixture of the old and the new one, and is announced: after a retraction with a new sequence number
  that the kernel refused, with a sequence number that nobody ever announced (`C71_refused`).
* C72: if `kernel_setup` fails half way, the program ends without restoring the settings it has changed (`C72_half`); an interface that is replaced by
  another one with the same name between two checks gets, when the old one is brought down, the saved setting of the old one (`C72_recreated`); with 1025
  interfaces `kernel_setup_interface` reads `old_if[-1]` (`C72_full`).
* C74: for an Infiniband interface the router-id is made from the first 8 bytes of its address (kernel_netlink.c:213-222), which are a queue number and the beginning of the subnet prefix, not from the EUI-64 in its last 8 bytes: two hosts may get the same (`C74_infiniband`). A random router-id may be all zeroes, which RFC 8966 forbids (`C74_zero`).
* C76: `kernel_setup_socket(1)` is called twice (babeld.c:423 and 518) and the socket opened first is neither read nor closed (`C76_leak`); the kernel keeps
  queueing messages for it until its buffer is full.  A socket file left by a daemon that was killed prevents the daemon from starting (`C76_stale`).
* C77: an empty number counts as 0 (`C77_numbers`), so `-k ""` is accepted.  `-m` refuses addresses that are not multicast, `protocol-group` in a
  configuration file does not (`C77_group_false`).  getopt is told about `-i`, but it only prints the usage (`C77_no_i`); the usage mentions `-z`, which
  does not exist.  A configuration file wins over an option on the command line (`C77_start`).  A pid file left by a daemon that was killed prevents
  the next one from starting (`C77_pid`).
* C78: `uninstall_route` announces the change only if the kernel has removed the route: otherwise clients go on seeing `installed yes`
  (`C78_selected_false`).  `update_route` changes the router-id before `change_route_metric`, which announces nothing if the kernel refuses
  the new metric: clients go on seeing the old router-id (`C78_id_false`).
* C79: the configuration line `interface "eth0 up true"` is accepted and announced to clients as `add interface eth0 up true up false`
  (`C79_name_false`): names from the configuration are not checked for spaces.
* C80: `local_socket_destroy(i)` moves the last connection to place `i`, and the loop then goes on with `i + 1`: the moved connection is not
  read from in this turn even if it is readable (`C80_passed_over_false`).  Harmless, as `select` reports it again.
* C81: without a monotonic clock, `gettime` 'enforces monotonicity' of the seconds only: if the system's clock is set back within a second, so is
  the time (`C81_monotone_false`; less than a second, `C81_seconds`).
* C82: `rc < nh->nlmsg_len` and `rc < buf.nh.nlmsg_len` compare an `int` with a `__u32`: -1 is converted to 4294967295, so that a failure of
  `sendmsg` is never noticed (`C82_failure_false`).  `netlink_talk` then waits 100 ms for an answer that cannot come and fails with EAGAIN instead of
  the error of `sendmsg`; `netlink_send_dump` returns 0.
* C83: the flag `reopening` is reset after `reopen_logfile`: a SIGUSR2 that arrives in between is lost, and the daemon goes on writing to the file
  that has been rotated away (`C83_reopen_false`).  Resetting it before would be correct.  `reopen_logfile` leaks the descriptor if `dup2` fails
  (`C83_leak_false`).  `select` is used and not `pselect`: a signal that arrives just before it is acted upon only when it returns.
* C84: at exit only `ifp->buf` is flushed.  On an interface with `unicast true` the retraction is written to the buffers of the neighbours, which are
  never flushed, so that it is not sent (`C84_unicast_false`).  If a hello is waiting, `send_multicast_hello` flushes the queue of updates after
  the retraction, so that neighbours are told of routes again just before the daemon exits (`C84_after_false`).
* **C85_full_false** (message.c:1764-1767, 1850-1851).  `buffer_update` allocates "enough space to hold a full update".  A full update
  consists of two wildcard updates, each of which queues all redistributed routes (`send_self_update`), so these are queued twice.  With
  sixteen redistributed routes, one route of a neighbour and a packet size of 448 the queue is sent in the middle of the full update, at
  once and not after the jitter, and the redistributed routes that are queued afterwards are sent again.  `C85_full` gives conditions under
  which this does not happen.
* **C86_wait_false** (message.c:1741-1750).  `schedule_update_flush` leaves a timer alone that is less than a random delay ahead, and otherwise
  sets it to this delay randomised once more (`set_timeout`), which may be later than before.  With bad luck an update that waits on an
  interface is overtaken by the requests of a neighbour for as long as these go on and the queue has room.  The flush of the send buffer
  after each hello (babeld.c:764-773) sends the queue as well and hides this.
* **C38_armed_false** (resend.c:119-122).  `record_resend` returns early if a newer sequence number has already been asked for; by then it has
  made the entry one that is to be sent again, but it has not set `resend_time`.  If the earlier entry is that of a request passed on for
  another router, which has no delay, the request of the daemon for a lost route is never sent again.  The update that is sent when a route
  is lost usually sets the timer and hides this; it does not if an output filter refuses the destination.
* Not stated as theorems, but visible in Model/Config: option lines rejected because of trailing
  text still take effect; `key id foo type hmac-sha256` without a value defines an all-zero key;
  numbers are truncated to 32 bits.
