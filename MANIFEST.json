{
 "claims": [
  {
   "property": "C01",
   "status": "proved",
   "theorems": [
    "Babel.C01_seqno_compare_window",
    "Babel.C01_seqno_compare_zero",
    "Babel.C01_seqno_compare_antisymm",
    "Babel.C01_seqno_compare_opposite",
    "Babel.C01_seqno_plus_minus",
    "Babel.C01_seqno_plus_mod",
    "Babel.C01_seqno_minus_window"
   ],
   "note": ""
  },
  {
   "property": "C02",
   "status": "proved",
   "theorems": [
    "Babel.C02_roughly_bounds",
    "Babel.C02_roughly_surjective",
    "Babel.C02_roughly_small",
    "Babel.C02_roughly_neg",
    "Babel.C02_roughly_defined"
   ],
   "note": ""
  },
  {
   "property": "C03",
   "status": "proved",
   "theorems": [
    "Babel.C03_minus_exact",
    "Babel.C03_add_msec_exact",
    "Babel.C03_minus_msec",
    "Babel.C03_compare",
    "Babel.C03_min",
    "Babel.C03_min_sec"
   ],
   "note": ""
  },
  {
   "property": "C04",
   "status": "proved",
   "theorems": [
    "Babel.C04_normalize_bits",
    "Babel.C04_normalize_idem",
    "Babel.C04_normalize_eq_iff",
    "Babel.C04_in_prefix_iff",
    "Babel.C04_in_prefix_clamp",
    "Babel.C04_in_prefix_normalize"
   ],
   "note": ""
  },
  {
   "property": "C05",
   "status": "proved",
   "theorems": [
    "Babel.C05_martian_iff"
   ],
   "note": ""
  },
  {
   "property": "C06",
   "status": "partial",
   "theorems": [
    "Babel.C06_thousands_integer_partial",
    "Babel.C06_thousands_fixed_partial",
    "Babel.C06_thousands_long_fraction_false",
    "Babel.C06_thousands_reject",
    "Babel.C06_fromhex_iff"
   ],
   "note": "Fixed-point literals with more than 9 fractional digits are misread by the code (counterexample theorem C06_thousands_long_fraction_false); proved for at most 9 fractional digits. fromhex fully proved. parse_nat (strtol) not modelled."
  },
  {
   "property": "C21",
   "status": "proved",
   "theorems": [
    "Babel.C21_source_order",
    "Babel.C21_xroute_order",
    "Babel.C21_route_order",
    "Babel.C21_route_order_needs_canonical",
    "Babel.C21_table_sorted",
    "Babel.C21_table_is_map",
    "Babel.C21_sources",
    "Babel.C21_xroutes"
   ],
   "note": "route_compare identifies the two spellings of 'any source'; on canonical keys (as built by the parser) it is equality, see C21_route_order."
  },
  {
   "property": "C24",
   "status": "proved",
   "theorems": [
    "Babel.C24_route_table_shape",
    "Babel.C24_route_table_lookup",
    "Babel.C24_route_table_same_routes"
   ],
   "note": ""
  },
  {
   "property": "C22",
   "status": "proved",
   "theorems": [
    "Babel.C22_never_worsens",
    "Babel.C22_announced",
    "Babel.C22_improves_antitone"
   ],
   "note": "The announced half has the exception of a recorded seqno exactly 0x8000 away from the announced one."
  },
  {
   "property": "C23",
   "status": "proved",
   "theorems": [
    "Babel.C23_use_counts",
    "Babel.C23_forgotten",
    "Babel.C23_collects"
   ],
   "note": ""
  },
  {
   "property": "C25",
   "status": "proved",
   "theorems": [
    "Babel.C25_unique",
    "Babel.C25_found"
   ],
   "note": ""
  },
  {
   "property": "C26",
   "status": "proved",
   "theorems": [
    "Babel.C26_kernel_mirror",
    "Babel.C26_one_entry",
    "Babel.C26_shutdown",
    "Babel.C26_needs_sane_nexthop",
    "Babel.C26_needs_table_per_destination"
   ],
   "note": "Needs sane next hops and an import table that depends on the destination only; C26_needs_sane_nexthop and C26_needs_table_per_destination are counterexamples without these conditions."
  },
  {
   "property": "C27",
   "status": "proved",
   "theorems": [
    "Babel.C27_newly_selected",
    "Babel.C27_selection",
    "Babel.C27_never_warns",
    "Babel.C27_unreachable_selected"
   ],
   "note": "A route with infinite metric can be selected (C27_unreachable_selected); the statement was weakened accordingly."
  },
  {
   "property": "C33",
   "status": "proved",
   "theorems": [
    "Babel.C33_not_own"
   ],
   "note": ""
  },
  {
   "property": "C37",
   "status": "proved",
   "theorems": [
    "Babel.C37_increments",
    "Babel.C37_otherwise"
   ],
   "note": ""
  },
  {
   "property": "C28",
   "status": "proved",
   "theorems": [
    "Babel.C28_best",
    "Babel.C28_none",
    "Babel.C28_search_is_pure",
    "Babel.C28_hysteresis"
   ],
   "note": "Hysteresis part from the record of selections (C27_selection)."
  },
  {
   "property": "C29",
   "status": "partial",
   "theorems": [
    "Babel.C29_partial",
    "Babel.C29_false"
   ],
   "note": "False of the code as it stands: C29_false reaches a loop of two routers in a network of three, because update_route does not ignore an unfeasible update from the same originator when the selected route had been retracted. C29_partial proves loop freedom for networks of any size and topology, when no event revives a retracted selected route with an unfeasible update. Also assumed: kernels accept requests, link costs are at least 1, feasibility distances do not go stale, seqnos of the originator are within half the number space."
  },
  {
   "property": "C30",
   "status": "proved",
   "theorems": [
    "Babel.C30_expiry",
    "Babel.C30_expiry_only",
    "Babel.C30_neighbour",
    "Babel.C30_interface",
    "Babel.C30_down",
    "Babel.C27_selection"
   ],
   "note": "'Unusable once expired' is C27_selection: an expired route is never newly selected with a finite metric; C28_best: it is never the candidate."
  },
  {
   "property": "C31",
   "status": "partial",
   "theorems": [
    "Babel.C31_metric",
    "Babel.C31_between",
    "Babel.C31_reached",
    "Babel.C31_stuck",
    "Babel.C31_no_overflow_partial",
    "Babel.C31_overflow_half_life_2"
   ],
   "note": "Between-ness proved in full. Reaching the metric: proved when 30 half-lives pass between computations; false when the computation is done every second (C31_stuck). Overflow: excluded except for half-life 2, where it is reachable (C31_overflow_half_life_2). Half-life 1 never uses the product."
  },
  {
   "property": "C48",
   "status": "partial",
   "theorems": [
    "Babel.C48_routes",
    "Babel.C48_neighbour",
    "Babel.C48_down",
    "Babel.C48_updown",
    "Babel.C48_removed",
    "Babel.C48_partial",
    "Babel.C48_false"
   ],
   "note": "Routes: every route always refers to a known neighbour on an interface that exists and is up (C48_routes), so removing a neighbour or an interface leaves no route behind (C48_neighbour, C48_down, C48_removed). False for neighbours and pending requests when an interface is removed (C48_false); neighbours are covered when interfaces are only removed after their neighbours are gone (C48_partial)."
  },
  {
   "property": "C49",
   "status": "proved",
   "theorems": [
    "Babel.C49_ignored",
    "Babel.C49_known",
    "Babel.C49_new",
    "Babel.C49_others",
    "Babel.C49_nothing"
   ],
   "note": ""
  },
  {
   "property": "C40",
   "status": "proved",
   "theorems": [
    "Babel.C40_flush",
    "Babel.C40_flush_iff",
    "Babel.C40_down",
    "Babel.C40_emptied",
    "Babel.C40_queued",
    "Babel.C40_scheduled"
   ],
   "note": "A retraction queued several times is sent several times; every other announcement is sent once."
  },
  {
   "property": "C47",
   "status": "proved",
   "theorems": [
    "Babel.C47_on",
    "Babel.C47_off"
   ],
   "note": ""
  },
  {
   "property": "C36",
   "status": "proved",
   "theorems": [
    "Babel.C36_forwarded_only",
    "Babel.C36_once",
    "Babel.C36_forwarded",
    "Babel.C36_hops",
    "Babel.C36_finite",
    "Babel.C36_answered",
    "Babel.C36_own_request_forwarded",
    "Babel.C36_resent_far"
   ],
   "note": "Two parts one would expect are false of the code and were taken out of the statement: C36_own_request_forwarded, C36_resent_far."
  },
  {
   "property": "C38",
   "status": "proved",
   "theorems": [
    "Babel.C38_update_armed",
    "Babel.C38_one_entry",
    "Babel.C38_bounds",
    "Babel.C38_cancelled",
    "Babel.C38_retransmit",
    "Babel.C38_only_due",
    "Babel.C38_due_sent",
    "Babel.C38_other",
    "Babel.C38_expire",
    "Babel.C38_at_most_three",
    "Babel.C38_satisfy",
    "Babel.C38_denied",
    "Babel.C38_record",
    "Babel.C38_timer",
    "Babel.C38_armed",
    "Babel.C38_armed_false",
    "Babel.C38_retraction",
    "Babel.C38_announcement"
   ],
   "note": "At most three retransmissions: from the 67th second after boot (before, a cancelled request has a negligible age). Timer armed on recording: except when the pending entry already asks for a newer seqno (the code returns early; C38_armed_false shows a request that is never sent again). Updates to be sent again always have the timer set (C38_update_armed)."
  },
  {
   "property": "C39",
   "status": "proved",
   "theorems": [
    "Babel.C39_redundant",
    "Babel.C39_only",
    "Babel.C39_newer_suppressed",
    "Babel.C39_older_forwarded"
   ],
   "note": "Statement describes what the code does; C39_newer_suppressed and C39_older_forwarded show that the comparison is reversed."
  },
  {
   "property": "C18",
   "status": "proved",
   "theorems": [
    "Babel.C18_register",
    "Babel.C18_honest",
    "Babel.C18_clock",
    "Babel.C18_overdue",
    "Babel.C18_unknown_interval",
    "Babel.C18_restart",
    "Babel.C18_late",
    "Babel.C18_unreported"
   ],
   "note": ""
  },
  {
   "property": "C19",
   "status": "partial",
   "theorems": [
    "Babel.C19_dead_iff",
    "Babel.C19_rx_plain",
    "Babel.C19_rx_dead",
    "Babel.C19_rx_lq_partial",
    "Babel.C19_rx_lq_value",
    "Babel.C19_rx_perfect",
    "Babel.C19_rx_wraps",
    "Babel.C19_cost_bounds",
    "Babel.C19_cost_infinite",
    "Babel.C19_cost_value",
    "Babel.C19_tx_expiry",
    "Babel.C19_check_removes",
    "Babel.C19_check_keeps",
    "Babel.C19_next_check",
    "Babel.C19_heard"
   ],
   "note": "The lower bound of the receive cost with link-quality estimation is false of the code: the product of cost and age wraps at 32 bits (C19_rx_wraps, a reachable neighbour state). Proved when the product fits (C19_rx_lq_partial); everything else is proved in full."
  },
  {
   "property": "C20",
   "status": "partial",
   "theorems": [
    "Babel.C20_penalty",
    "Babel.C20_penalty_stale",
    "Babel.C20_penalty_monotone",
    "Babel.C20_params",
    "Babel.C20_smooth_partial",
    "Babel.C20_smooth_value_partial",
    "Babel.C20_smooth_wraps",
    "Babel.C20_sample",
    "Babel.C20_sample_bound",
    "Babel.C20_add",
    "Babel.C20_reported_partial",
    "Babel.C20_first_unreported"
   ],
   "note": "Smoothing between old and new is false above 16.7 s because of 32-bit overflow (C20_smooth_wraps), proved below; the change of penalty caused by the first sample is not reported (C20_first_unreported), later ones are."
  },
  {
   "property": "C07",
   "status": "proved",
   "theorems": [
    "Babel.C07_auth_safe",
    "Babel.C07_parse",
    "Babel.C07_packet",
    "Babel.C07_stale",
    "Babel.C07_short_reads_outside",
    "Babel.C07_short_harmless"
   ],
   "note": "Without authentication C07_packet, with authentication C07_auth_safe (take the receive buffer to be just the packet). Packets shorter than the header: C07_short_reads_outside, C07_short_harmless."
  },
  {
   "property": "C08",
   "status": "proved",
   "theorems": [
    "Babel.C08_decode",
    "Babel.C08_address",
    "Babel.C08_unique",
    "Babel.C08_normalised"
   ],
   "note": ""
  },
  {
   "property": "C09",
   "status": "proved",
   "theorems": [
    "Babel.C09_tail",
    "Babel.C09_any",
    "Babel.C09_ignored",
    "Babel.C09_unknown",
    "Babel.C09_optional",
    "Babel.C09_mandatory",
    "Babel.C09_header"
   ],
   "note": ""
  },
  {
   "property": "C50",
   "status": "proved",
   "theorems": [
    "Babel.C50_sequence",
    "Babel.C50_ackReq",
    "Babel.C50_ack",
    "Babel.C50_hello",
    "Babel.C50_ihu",
    "Babel.C50_ihu_malformed",
    "Babel.C50_routerId",
    "Babel.C50_nh",
    "Babel.C50_nh_malformed",
    "Babel.C50_update",
    "Babel.C50_update_malformed",
    "Babel.C50_update_unknown",
    "Babel.C50_request",
    "Babel.C50_request_malformed",
    "Babel.C50_seqnoRequest",
    "Babel.C50_seqnoRequest_malformed",
    "Babel.C50_short"
   ],
   "note": ""
  },
  {
   "property": "C10",
   "status": "proved",
   "theorems": [
    "Babel.C10_updates",
    "Babel.C10_updown_lost"
   ],
   "note": "Between two times the interface goes down: C10_updown_lost shows that after the interface has gone down and up again the compression state is stale and an update is lost."
  },
  {
   "property": "C11",
   "status": "proved",
   "theorems": [
    "Babel.C11_messages",
    "Babel.C11_flushed",
    "Babel.C11_hello_time",
    "Babel.C11_ack",
    "Babel.C11_challenge",
    "Babel.C11_reply",
    "Babel.C11_ihu_times"
   ],
   "note": "Timestamps: C11_hello_time, C11_ihu_times. Contents of challenge messages are exact bytes (Waiting); their effect on the receiver is C16. Packet counters: C17."
  },
  {
   "property": "C12",
   "status": "proved",
   "theorems": [
    "Babel.C12_safe",
    "Babel.C12_mtu",
    "Babel.C12_unsigned_overflow"
   ],
   "note": "Provided packets can be signed: C12_unsigned_overflow is a counterexample when the interface has lost its link-local address."
  },
  {
   "property": "C13",
   "status": "partial",
   "theorems": [
    "Babel.C13_scheduled_partial",
    "Babel.C13_postponed_partial",
    "Babel.C13_postponed_beyond"
   ],
   "note": "Deadline met when the acknowledgment is written; a message written later can postpone it (C13_postponed_beyond), by less than a quarter of the time left (C13_postponed_partial)."
  },
  {
   "property": "C17",
   "status": "proved",
   "theorems": [
    "Babel.C17_distinct",
    "Babel.C17_counter",
    "Babel.C17_unique",
    "Babel.C17_no_random"
   ],
   "note": "For one time the interface is up; the counter and index are not changed when it goes down or up."
  },
  {
   "property": "C14",
   "status": "proved",
   "theorems": [
    "Babel.C14_unsigned",
    "Babel.C14_accepted",
    "Babel.C14_accept_bad",
    "Babel.C14_verifies",
    "Babel.C14_sent",
    "Babel.C14_key",
    "Babel.C14_mac",
    "Babel.C14_covers",
    "Babel.C14_bad_key",
    "Babel.C14_pad1_hides"
   ],
   "note": "MAC functions are arbitrary. Finding: a Pad1 before the MAC TLV hides the MAC from check_hmac (C14_pad1_hides)."
  },
  {
   "property": "C15",
   "status": "proved",
   "theorems": [
    "Babel.C15_verdict",
    "Babel.C15_increasing",
    "Babel.C15_replay_bound",
    "Babel.C15_delayed_reply"
   ],
   "note": "Finding: a challenge reply held back by an attacker resets the counter (C15_delayed_reply); the bound C15_replay_bound still holds."
  },
  {
   "property": "C16",
   "status": "proved",
   "theorems": [
    "Babel.C16_answered",
    "Babel.C16_succeeds",
    "Babel.C16_challenges",
    "Babel.C16_short_read",
    "Babel.C16_no_counter"
   ],
   "note": "Provided random numbers can be obtained: C16_short_read is a counterexample otherwise."
  },
  {
   "property": "C41",
   "status": "proved",
   "theorems": [
    "Babel.C41_rule",
    "Babel.C41_families",
    "Babel.C41_filters"
   ],
   "note": ""
  },
  {
   "property": "C42",
   "status": "partial",
   "theorems": [
    "Babel.C42_first",
    "Babel.C42_admitted",
    "Babel.C42_partial",
    "Babel.C42_false"
   ],
   "note": "False of the code (C42_false): the filter is consulted only when a route is selected for a destination that had none, not when the selection moves to another neighbour or when the router-id changes. Proved: a first selection is never a denied route (C42_first); a destination in use is admitted for some router and interface (C42_admitted); filters whose denials depend on the destination only are fully respected (C42_partial)."
  },
  {
   "property": "C43",
   "status": "proved",
   "theorems": [
    "Babel.C43_range",
    "Babel.C43_outside"
   ],
   "note": "C43_outside: what happens outside the range."
  },
  {
   "property": "C44",
   "status": "proved",
   "theorems": [
    "Babel.C44_merge",
    "Babel.C44_startup",
    "Babel.C44_runtime",
    "Babel.C44_ignored"
   ],
   "note": "C44_ignored: a line for an interface of the configuration files is accepted on a control connection but has no effect. Such a line does not take values from the default lines."
  },
  {
   "property": "C51",
   "status": "proved",
   "theorems": [
    "Babel.C51_meaning",
    "Babel.C51_line",
    "Babel.C51_file",
    "Babel.C51_zero_refused",
    "Babel.C51_double_free",
    "Babel.C51_reject",
    "Babel.C51_reject_files"
   ],
   "note": "C51_double_free: texts for which memory is freed twice. C51_zero_refused: documented values that are refused."
  },
  {
   "property": "C52",
   "status": "proved",
   "theorems": [
    "Babel.C52_readonly",
    "Babel.C52_fixed",
    "Babel.C52_flush"
   ],
   "note": ""
  },
  {
   "property": "C45",
   "status": "proved",
   "theorems": [
    "Babel.C45_next",
    "Babel.C45_newer",
    "Babel.C45_crash",
    "Babel.C45_errors"
   ],
   "note": ""
  },
  {
   "property": "C46",
   "status": "proved",
   "theorems": [
    "Babel.C46_lines",
    "Babel.C46_one_reply",
    "Babel.C46_answers",
    "Babel.C46_sticky",
    "Babel.C46_sticky_false",
    "Babel.C46_quit",
    "Babel.C46_after_quit",
    "Babel.C46_after_close",
    "Babel.C46_too_long"
   ],
   "note": "C46_sticky_false: the reply to a line can be that to an earlier line of the same read."
  },
  {
   "property": "C53",
   "status": "proved",
   "theorems": [
    "Babel.C53_progress",
    "Babel.C53_closed",
    "Babel.C53_stall"
   ],
   "note": "C53_stall: a client that does not read its replies stops the daemon."
  },
  {
   "property": "C54",
   "status": "proved",
   "theorems": [
    "Babel.C54_ranges",
    "Babel.C54_interface"
   ],
   "note": ""
  },
  {
   "property": "C34",
   "status": "proved",
   "theorems": [
    "Babel.C34_table",
    "Babel.C34_exact",
    "Babel.C34_kernel",
    "Babel.C34_limit",
    "Babel.C34_added",
    "Babel.C34_removed",
    "Babel.C34_announced",
    "Babel.C34_announced_add",
    "Babel.C34_displaced"
   ],
   "note": "If two kernel routes are redistributed to the same destination, the metric is that of one of them. Up to 262143 routes and addresses (limit of the code)."
  },
  {
   "property": "C35",
   "status": "partial",
   "theorems": [
    "Babel.C35_partial",
    "Babel.C35_false"
   ],
   "note": "False of the code (C35_false): the prefix length and source prefix are taken from the first entry of the table. Proved when those are the same (C35_partial)."
  },
  {
   "property": "C32",
   "status": "proved",
   "theorems": [
    "Babel.C32_lost",
    "Babel.C32_origin",
    "Babel.C32_believed",
    "Babel.C32_triggered",
    "Babel.C32_asked",
    "Babel.C32_unannounced"
   ],
   "note": "C32_unannounced is the excepted change of originator. C32_believed is the version over whole histories. C32_triggered and C32_asked are about the functions that react to a change and to the removal of the selected route."
  },
  {
   "property": "C55",
   "status": "partial",
   "theorems": [
    "Babel.C55_when",
    "Babel.C55_partial",
    "Babel.C55_false",
    "Babel.C55_modify",
    "Babel.C55_entry"
   ],
   "note": "False of the code for tables above 255 (C55_false): only 8 bits of the table number are sent. Everything else is proved; C55_partial says the table is the number modulo 256."
  },
  {
   "property": "C56",
   "status": "proved",
   "theorems": [
    "Babel.C56_routes",
    "Babel.C56_unreachable_v4",
    "Babel.C56_short",
    "Babel.C56_addresses",
    "Babel.C56_no_address",
    "Babel.C56_roundtrip"
   ],
   "note": "Integer attributes have at least 4 bytes (C56_short otherwise). C56_unreachable_v4, C56_no_address: findings."
  },
  {
   "property": "C57",
   "status": "proved",
   "theorems": [
    "Babel.C57_answer",
    "Babel.C57_wait",
    "Babel.C57_listen",
    "Babel.C57_others",
    "Babel.C57_beyond",
    "Babel.C57_extack",
    "Babel.C57_dump",
    "Babel.C57_request",
    "Babel.C57_large_table",
    "Babel.C57_whole",
    "Babel.C57_extack_bad"
   ],
   "note": "netlink_get_extack, which only prints a text, reads beyond the received data: C57_beyond, C57_extack. Requests for tables from 256 on name another table: C57_large_table."
  },
  {
   "property": "C58",
   "status": "partial",
   "theorems": [
    "Babel.C58_neighbour",
    "Babel.C58_retracted",
    "Babel.C58_interface_partial",
    "Babel.C58_skipped"
   ],
   "note": "For neighbours proved in full. False for interfaces (C58_skipped): a route that is moved to the front of its list during the walk is missed. Proved for destinations with at most one route through the interface (C58_interface_partial)."
  },
  {
   "property": "C59",
   "status": "proved",
   "theorems": [
    "Babel.C59_first",
    "Babel.C59_replaces",
    "Babel.C59_waits"
   ],
   "note": "When there is a selected route: both routes can be expressed by the kernel, which answers without errors."
  },
  {
   "property": "C60",
   "status": "partial",
   "theorems": [
    "Babel.C60_selected",
    "Babel.C60_partial",
    "Babel.C60_false"
   ],
   "note": "The exception for allow-duplicates is false of the code (C60_false): the comparison is the wrong way around. Proved: C60_selected (as the code has it) and C60_partial (no exception configured)."
  },
  {
   "property": "C61",
   "status": "partial",
   "theorems": [
    "Babel.C61_new",
    "Babel.C61_known",
    "Babel.C61_selected_false"
   ],
   "note": "Proved for unknown routes and for known routes that are not selected. False for the selected route (C61_selected_false): no request is sent, and the route stays selected."
  },
  {
   "property": "C62",
   "status": "partial",
   "theorems": [
    "Babel.C62_up",
    "Babel.C62_params",
    "Babel.C62_default_hello",
    "Babel.C62_sticky",
    "Babel.C62_unicast_partial",
    "Babel.C62_sane",
    "Babel.C62_check",
    "Babel.C62_interval_partial",
    "Babel.C62_unicast_false",
    "Babel.C62_s_false",
    "Babel.C62_interval_false"
   ],
   "note": "False of the code in three places: option -s has no effect (C62_s_false); unicast, faraway and probe-mtu stay set until the interface is removed (C62_unicast_false, exact condition C62_sticky, first time C62_unicast_partial); the default update interval wraps when announced if the hello interval is more than 163 s (C62_interval_false, C62_interval_partial). Everything else is proved in full."
  },
  {
   "property": "C63",
   "status": "partial",
   "theorems": [
    "Babel.C63_crash",
    "Babel.C63_partial",
    "Babel.C63_unsigned"
   ],
   "note": "False of the code (C63_crash): a request for an IPv4-mapped IPv6 destination with an IPv6 source prefix crashes the daemon. Proved for all histories in which the requests in correctly signed packets are for destinations whose source prefix is at least 96 bits long if the destination is IPv4 (C63_partial). Sizes of kernel routes: XFits. Interfaces without a key go down and come up at any time; for those with a key see C67."
  },
  {
   "property": "C64",
   "status": "partial",
   "theorems": [
    "Babel.C64_reachable",
    "Babel.C64_heard_partial",
    "Babel.C64_source_partial",
    "Babel.C64_update_partial",
    "Babel.C64_withdrawn",
    "Babel.C64_misannounced",
    "Babel.C64_flap"
   ],
   "note": "False of the code: C64_withdrawn (a request for an IPv4-mapped IPv6 prefix makes the daemon retract an IPv4 route), C64_misannounced (deletion of one of several redistributed routes leads to an unnormalised prefix in the compression state, consequence of C35_false), C64_flap (compression state that survives an interface going down leads to an update with the wrong router-id). Proved for all histories without such requests and mixtures, for an interface that stays as it is while others go down and come up (C64_heard_partial), and for one that goes down and comes up any number of times without updates in its buffer (C64_source_partial); C64_reachable connects the whole daemon to the states of the routing part in C19 to C42 and C58 to C61."
  },
  {
   "property": "C65",
   "status": "partial",
   "theorems": [
    "Babel.C65_partial",
    "Babel.C65_safe_partial",
    "Babel.C65_false"
   ],
   "note": "False of the code as it stands: C65_false is a loop of two daemons, with all the packets they exchange (no duplicates needed; the code revives a retracted selected route, as in C29). C65_partial proves loop freedom at the level of packets for networks of any size when no such route is revived. Assumed as in C29: kernels accept all requests, sequence numbers in half of the number space, the clock does not make a feasibility distance stale; as in C63 and C64: redistributed destinations are proper. Interfaces without a key go down and come up, without updates in their buffer (C64_flap)."
  },
  {
   "property": "C66",
   "status": "proved",
   "theorems": [
    "Babel.C66_wake",
    "Babel.C66_polls",
    "Babel.C66_deadlines",
    "Babel.C66_served",
    "Babel.C66_interval",
    "Babel.C66_spaced",
    "Babel.C66_resend",
    "Babel.C66_resend_twice"
   ],
   "note": "What jobs do is left open, except for the timers they set (JobsOk); resending at a later time is proved of the model of resend.c if it is less than the delay late (C66_resend; otherwise false, C66_resend_twice). Packets can be signed (see C67 for what happens otherwise). The clock is monotonic."
  },
  {
   "property": "C67",
   "status": "partial",
   "theorems": [
    "Babel.C67_flush",
    "Babel.C67_no_address",
    "Babel.C67_stuck",
    "Babel.C67_deaf"
   ],
   "note": "False of the code (C67_stuck, C67_deaf, for all histories): when an interface with a key goes down while a packet for a neighbour is waiting, the packet can be neither signed nor dropped (C67_no_address), its deadline stays in the past, and the daemon spins without looking at its sockets until the neighbour is forgotten or the interface comes up. Proved: a packet is kept only if there is a key and it cannot be signed (C67_flush); the daemon reads its sockets whenever nothing is due if packets can be signed (C66_polls, C66_deadlines)."
  },
  {
   "property": "C68",
   "status": "proved",
   "theorems": [
    "Babel.C68_routing",
    "Babel.C68_costs",
    "Babel.C68_links",
    "Babel.C68_others",
    "Babel.C68_down",
    "Babel.C68_internal",
    "Babel.C68_up",
    "Babel.C68_lost",
    "Babel.C68_checked"
   ],
   "note": "Packets arrive on interfaces that are up or down; which signed packets are accepted is C14 to C16, how bytes become messages is C08 and C09. C68_costs and C68_links are for interfaces without a key."
  },
  {
   "property": "C69",
   "status": "proved",
   "theorems": [
    "Babel.C69_addresses",
    "Babel.C69_said",
    "Babel.C69_new",
    "Babel.C69_run",
    "Babel.C69_ack",
    "Babel.C69_challenges",
    "Babel.C69_kept"
   ],
   "note": "Of the acknowledgments, challenges and replies only that they are sent to the neighbour is proved, not that nothing else of the kind is (acknowledgments are among what C69_said leaves out, as a receiver ignores them)."
  },
  {
   "property": "C70",
   "status": "proved",
   "theorems": [
    "Babel.C70_refines",
    "Babel.C70_numbered",
    "Babel.C70_unicast",
    "Babel.C70_hello",
    "Babel.C70_ihu",
    "Babel.C70_third",
    "Babel.C70_starved"
   ],
   "note": "C70_starved exhibits a neighbour that gets no IHU on an interface with timestamps (see Findings). When hellos are due is Model/Loop (C66)."
  },
  {
   "property": "C71",
   "status": "proved",
   "theorems": [
    "Babel.C71_announced",
    "Babel.C71_routes",
    "Babel.C71_origin",
    "Babel.C71_runs",
    "Babel.C71_refused"
   ],
   "note": "C71_refused shows why kernels must accept the requests. An interface going down with an update in its buffer is excluded because of C64_flap."
  },
  {
   "property": "C72",
   "status": "proved",
   "theorems": [
    "Babel.C72_restored",
    "Babel.C72_wanted",
    "Babel.C72_checked",
    "Babel.C72_skip",
    "Babel.C72_half",
    "Babel.C72_full",
    "Babel.C72_recreated"
   ],
   "note": "C72_half, C72_recreated and C72_full are the exceptions named in the statement. Assumes that writing one setting does not change another."
  },
  {
   "property": "C73",
   "status": "proved",
   "theorems": [
    "Babel.C73_told",
    "Babel.C73_heard",
    "Babel.C73_both"
   ],
   "note": "C73_both needs addresses to belong to one router each and interface costs of at most 65535. The requests in packets are assumed to be for well-formed destinations."
  },
  {
   "property": "C74",
   "status": "proved",
   "theorems": [
    "Babel.C74_configured",
    "Babel.C74_hardware",
    "Babel.C74_random",
    "Babel.C74_some",
    "Babel.C74_distinct",
    "Babel.C74_mixed",
    "Babel.C74_kinds",
    "Babel.C74_infiniband",
    "Babel.C74_zero"
   ],
   "note": "C74_infiniband and C74_zero are the two exceptions named in the statement, proved with concrete hosts."
  },
  {
   "property": "C75",
   "status": "proved",
   "theorems": [
    "Babel.C75_route",
    "Babel.C75_cost",
    "Babel.C75_silent"
   ],
   "note": "Same assumptions as C73_both; the cost of a link about which nothing is known is infinite when the history begins."
  },
  {
   "property": "C76",
   "status": "proved",
   "theorems": [
    "Babel.C76_protocol",
    "Babel.C76_server",
    "Babel.C76_unix",
    "Babel.C76_stale",
    "Babel.C76_kernel",
    "Babel.C76_groups",
    "Babel.C76_all",
    "Babel.C76_starts",
    "Babel.C76_leak",
    "Babel.C76_send",
    "Babel.C76_recv",
    "Babel.C76_pause",
    "Babel.C76_buffer"
   ],
   "note": "C76_leak and C76_stale are findings: one socket is opened twice, and a stale socket file prevents the daemon from starting."
  },
  {
   "property": "C77",
   "status": "proved",
   "theorems": [
    "Babel.C77_words",
    "Babel.C77_bad",
    "Babel.C77_numbers",
    "Babel.C77_options",
    "Babel.C77_no_i",
    "Babel.C77_statement",
    "Babel.C77_start",
    "Babel.C77_group_false",
    "Babel.C77_pid"
   ],
   "note": "C77_group_false is a finding: a configuration file can set a group that is not multicast. C77_no_i: the option -i is known but always refused."
  },
  {
   "property": "C78",
   "status": "proved",
   "theorems": [
    "Babel.C78_routes",
    "Babel.C78_any_kernel",
    "Babel.C78_xroutes",
    "Babel.C78_sense",
    "Babel.C78_late",
    "Babel.C78_selected_false",
    "Babel.C78_id_false"
   ],
   "note": "C78_selected_false and C78_id_false are the exceptions named in the statement (findings): deselecting a route and changing its router-id are announced only if the kernel agrees."
  },
  {
   "property": "C79",
   "status": "proved",
   "theorems": [
    "Babel.C79_address",
    "Babel.C79_prefix",
    "Babel.C79_id",
    "Babel.C79_thousands",
    "Babel.C79_buffers",
    "Babel.C79_route",
    "Babel.C79_xroute",
    "Babel.C79_neighbour",
    "Babel.C79_interface",
    "Babel.C79_header",
    "Babel.C79_write",
    "Babel.C79_stream",
    "Babel.C79_stream_all",
    "Babel.C79_name_false"
   ],
   "note": "inet_ntop is abstract: NtopOk says that inet_pton reads what it writes, and bounds its output; an instance is given. C79_name_false is the exception named in the statement (finding)."
  },
  {
   "property": "C80",
   "status": "proved",
   "theorems": [
    "Babel.C80_resources",
    "Babel.C80_round",
    "Babel.C80_in_order",
    "Babel.C80_accept",
    "Babel.C80_passed_over_false"
   ],
   "note": "For turns that end: a turn may go on for ever if read returns EAGAIN (C53). C80_passed_over_false shows that the exception named in the statement does occur (finding)."
  },
  {
   "property": "C81",
   "status": "proved",
   "theorems": [
    "Babel.C81_posix",
    "Babel.C81_fallback",
    "Babel.C81_seconds",
    "Babel.C81_monotone_false",
    "Babel.C81_features",
    "Babel.C81_features_order",
    "Babel.C81_operational",
    "Babel.C81_wireless"
   ],
   "note": "C81_monotone_false: without a monotonic clock the time may still go back by less than a second, as only seconds are compared (finding; the comment in kernel.c says that monotonicity is enforced)."
  },
  {
   "property": "C82",
   "status": "proved",
   "theorems": [
    "Babel.C82_confirmed",
    "Babel.C82_answer",
    "Babel.C82_short",
    "Babel.C82_dump",
    "Babel.C82_failure_false",
    "Babel.C82_numbers"
   ],
   "note": "C82_failure_false: a failure of sendmsg itself is not noticed, and the answer to a command that was not sent is waited for (finding)."
  },
  {
   "property": "C83",
   "status": "proved",
   "theorems": [
    "Babel.C83_exit",
    "Babel.C83_stays",
    "Babel.C83_dump",
    "Babel.C83_reopen",
    "Babel.C83_reopen_false",
    "Babel.C83_quiet",
    "Babel.C83_logfile",
    "Babel.C83_leak_false",
    "Babel.C83_once"
   ],
   "note": "The exception for SIGUSR2 is a lost signal (C83_reopen_false, finding). Signals that arrive between the test and select take effect when select returns; how long that takes at most is in C66."
  },
  {
   "property": "C84",
   "status": "proved",
   "theorems": [
    "Babel.C84_retraction",
    "Babel.C84_down",
    "Babel.C84_after_false",
    "Babel.C84_unicast_false"
   ],
   "note": "The two exceptions are faults: C84_after_false (updates follow the retraction) and C84_unicast_false (the retraction is not sent)."
  },
  {
   "property": "C85",
   "status": "proved",
   "theorems": [
    "Babel.C85_room",
    "Babel.C85_write",
    "Babel.C85_wild",
    "Babel.C85_full",
    "Babel.C85_full_false"
   ],
   "note": "Failure of malloc is not modelled.  The number of destinations is installed_routes_estimate, which counts all slots of the table."
  },
  {
   "property": "C86",
   "status": "proved",
   "theorems": [
    "Babel.C86_pending",
    "Babel.C86_postponed",
    "Babel.C86_wait_false"
   ],
   "note": "The random numbers are arbitrary.  The daemon also sends the queue whenever the send buffer of the interface is flushed, for instance after a hello; this is an event of the history here, and bounds the wait in C86_wait_false in practice."
  }
 ]
}