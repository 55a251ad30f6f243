{
 "claims": [
  {
   "property": "C01",
   "status": "partial",
   "theorems": [
    "Ouro.Bitmap.C01_id_pool_history_partial",
    "Ouro.Bitmap.C01_allocations_distinct",
    "Ouro.Bitmap.C01_release_one_past_end_violated",
    "Ouro.Bitmap.C01_release_one_past_end_ub"
   ],
   "note": "false of the code for release(offset+size)"
  },
  {
   "property": "C02",
   "status": "proved",
   "theorems": [
    "Ouro.Rbuff.C02_ring_is_bounded_fifo"
   ],
   "note": "Every ring size 2^k, every history of non-blocking calls: results equal those of the bounded FIFO specification."
  },
  {
   "property": "C03",
   "status": "partial",
   "theorems": [
    "Ouro.Rbuff.C03_write_effect_partial",
    "Ouro.Rbuff.C03_read_effect",
    "Ouro.Rbuff.C03_other_calls_keep_queue",
    "Ouro.Rbuff.C03_nothing_lost_partial",
    "Ouro.Rbuff.C03_flowpeer_write_violated",
    "Ouro.Rbuff.C03_down_while_blocked_violated",
    "Ouro.Rbuff.C03_owner_dead_violated"
   ],
   "note": "Full statement is false of the code in three situations, each refuted with a witness; all other write attempts, all reads and all other calls are proved over arbitrary interleavings."
  },
  {
   "property": "C04",
   "status": "partial",
   "theorems": [
    "C04_packets_partial",
    "C04_alloc_result",
    "C04_reclaim_partial",
    "C04_blocking_overlap_violated",
    "C04_early_release_violated",
    "C04_huge_request_violated",
    "C04_reclaim_violated"
   ],
   "note": "Disjointness, bounds, room and get for every history incl. crashes; missing: blocking multi-block allocations (refuted), early release by the retransmission holder (refuted), requests near 2^63 (refuted). Reclaim proved for one-block requests, refuted for several blocks."
  },
  {
   "property": "C05",
   "status": "partial",
   "theorems": [
    "C05_effect_partial",
    "C05_bounds_partial",
    "C05_round_trip",
    "C05_fresh",
    "C05_truncate_violated",
    "C05_tail_wrap_violated",
    "C05_tailspace_violated"
   ],
   "note": "Proved for sizes below 2^63 and truncations inside the area; the code's own checks are weaker (refuted)."
  },
  {
   "property": "C06",
   "status": "proved",
   "theorems": [
    "Ouro.Crc32.C06_crc32_is_standard",
    "Ouro.Crc32.C06_chunking",
    "Ouro.Crc32.C06_detects_bursts"
   ],
   "note": "table-driven code = bit-serial CRC-32; chunking; every burst of at most 32 bits detected"
  },
  {
   "property": "C07",
   "status": "partial",
   "theorems": [
    "Ouro.Sha3.C07_sha3_pieces",
    "Ouro.Md5.C07_md5_pieces_partial",
    "Ouro.Md5.C07_md5_pieces_violated",
    "Ouro.Md5.C07_md5_overread_violated"
   ],
   "note": "SHA-3 in full. MD5: holds if all pieces but the last have a multiple of four bytes; false in general because le32_copy copies whole words, over the length field, and reads past the message (witnesses)."
  },
  {
   "property": "C08",
   "status": "proved",
   "theorems": [
    "Ouro.LinkedList.C08_list_add",
    "Ouro.LinkedList.C08_list_add_tail",
    "Ouro.LinkedList.C08_list_del",
    "Ouro.LinkedList.C08_list_move_within",
    "Ouro.LinkedList.C08_list_move_across",
    "Ouro.LinkedList.C08_list_is_empty",
    "Ouro.LinkedList.C08_list_head_init",
    "Ouro.LinkedList.C08_other_lists_untouched"
   ],
   "note": "pointer-level refinement to sequences, with frame"
  },
  {
   "property": "C09",
   "status": "partial",
   "theorems": [
    "C09_reliable_partial",
    "C09_reliable_steady_partial",
    "C09_progress_partial",
    "C09_reliable_violated",
    "C09_first_packet_violated",
    "C09_assertion_violated"
   ],
   "note": "Prefix property proved by induction over all histories of both endpoints, network and timers, provided runs change while the receiver is inactive and acknowledgements belong to the present run (or: writers do not pause beyond the inactivity time and an end first receives data). Without that the code violates it (witnesses with default timers)."
  },
  {
   "property": "C10",
   "status": "partial",
   "theorems": [
    "Ouro.Seqno.C10_before_characterised",
    "Ouro.Seqno.C10_before_partial",
    "Ouro.Seqno.C10_after",
    "Ouro.Seqno.C10_irreflexive",
    "Ouro.Seqno.C10_trichotomy_partial",
    "Ouro.Seqno.C10_antipode_violated",
    "Ouro.Seqno.C10_shift_invariant",
    "Ouro.Seqno.C10_transitive_in_window",
    "Ouro.Seqno.C10_succ"
   ],
   "note": "holds for all pairs except those exactly 2^31 apart, where the code violates it (C10_antipode_violated)"
  },
  {
   "property": "C11",
   "status": "partial",
   "theorems": [
    "C11_is_window_open",
    "C11_edge_forward",
    "C11_outside_not_queued",
    "C11_window_reconstructed",
    "C11_no_overrun_partial",
    "C11_outside_not_queued_violated",
    "C11_edge_announced_violated",
    "C11_edge_jump_violated"
   ],
   "note": "is_window_open, the receiver's edge and the refusal of packets outside the window proved outright for flows with retransmission; announced edges do move backward (packets sent again carry old windows) and jump when that crosses 2^24; without retransmission the right edge is not tested."
  },
  {
   "property": "C12",
   "status": "partial",
   "theorems": [
    "Ouro.Btree.C12_insert_partial",
    "Ouro.Btree.C12_remove_partial",
    "Ouro.Btree.C12_search_partial",
    "Ouro.Btree.C12_history_partial",
    "Ouro.Btree.C12_removed_violated",
    "Ouro.Btree.C12_stale_violated",
    "Ouro.Btree.C12_order_violated",
    "Ouro.Btree.C12_missing_violated",
    "Ouro.Btree.C12_empty_violated"
   ],
   "note": "Orders 4 and up: inserts exact, removes exact while no missing key was removed before, searches exact for keys never removed. The code violates the rest: removed keys are still found, stale values returned, orders 1-3 and repeated removes of missing keys run out of bounds, removing from an empty tree succeeds."
  },
  {
   "property": "C13",
   "status": "partial",
   "theorems": [
    "Ouro.Time.C13_ts_add",
    "Ouro.Time.C13_ts_diff",
    "Ouro.Time.C13_tv_add",
    "Ouro.Time.C13_tv_diff",
    "Ouro.Time.C13_ts_diff_ns",
    "Ouro.Time.C13_ts_diff_units_partial",
    "Ouro.Time.C13_ts_diff_truncates_partial",
    "Ouro.Time.C13_diff_us_truncation_violated",
    "Ouro.Time.C13_tv_diff_violated",
    "Ouro.Time.C13_tv_diff_us_scale",
    "Ouro.Time.C13_init",
    "Ouro.Time.C13_tv_ts_round_trip"
   ],
   "note": "add/diff exact; the us/ms difference macros are refuted, with the exact error bound proved"
  },
  {
   "property": "C14",
   "status": "proved",
   "theorems": [
    "Ouro.Notifier.C14_event_calls",
    "Ouro.Notifier.C14_reg_result",
    "Ouro.Notifier.C14_unreg_silences"
   ],
   "note": "over all histories"
  },
  {
   "property": "C15",
   "status": "partial",
   "theorems": [
    "Ouro.Tpm.C15_current",
    "Ouro.Tpm.C15_stopped",
    "Ouro.Tpm.C15_counters_partial",
    "Ouro.Tpm.C15_enough_partial",
    "Ouro.Tpm.C15_exit_idle",
    "Ouro.Tpm.C15_underflow_violated",
    "Ouro.Tpm.C15_small_step_violated",
    "Ouro.Tpm.C15_restart_violated"
   ],
   "note": "The count of live threads and the end of all threads hold for every history. The working count and enough idle threads are proved when no worker starts a command after it was told to exit, the pool is not restarted, and it grows by at least its minimum; refuted otherwise."
  },
  {
   "property": "C16",
   "status": "partial",
   "theorems": [
    "C16_reads_partial",
    "C16_prefix_partial",
    "C16_violated",
    "C16_two_readers_violated",
    "C16_short_packet_violated"
   ],
   "note": "Every history: whole datagrams are delivered in order; the remainder of a truncated datagram is lost (line 1432), proved as a violation. Not covered: several threads in flow_read (violated), FRCT flows, encryption."
  },
  {
   "property": "C17",
   "status": "partial",
   "theorems": [
    "C17_no_leak_partial",
    "C17_write_queued_partial",
    "C17_failure_no_effect",
    "C17_fifo_partial",
    "C17_payload_of_wire",
    "C17_full_violated",
    "C17_down_violated",
    "C17_timeout_violated",
    "C17_leak_violated",
    "C17_peer_leak_violated",
    "C17_null_violated"
   ],
   "note": "Ownership of packets and FIFO delivery over every interleaving; success is reported although the ring refused the packet (violations). Raw flows without encryption."
  },
  {
   "property": "C18",
   "status": "partial",
   "theorems": [
    "C18_settings",
    "C18_write_mode_partial",
    "C18_down_partial",
    "C18_errors_partial",
    "C18_descriptors_partial",
    "C18_queue_lengths",
    "C18_read_wronly_violated",
    "C18_wronly_sticks_violated",
    "C18_wronly_twice_violated",
    "C18_fd_violated",
    "C18_null_len_violated",
    "C18_frct_flags_violated"
   ],
   "note": "Settings read back for every history; the access mode is not enforced on flow_read and other deviations are proved as violations."
  },
  {
   "property": "C19",
   "status": "partial",
   "theorems": [
    "C19_has_partial",
    "C19_add_partial",
    "C19_one_set",
    "C19_calls_partial",
    "C19_closed_flow_violated",
    "C19_closed_reliable_flow_violated",
    "C19_descriptor_range_violated",
    "C19_zero_reliable_flow_orphaned"
   ],
   "note": "Proved for every history of valid calls (raw and reliable flows). Violated for flow ids of flows closed while in a set and for descriptors from PROG_MAX_FLOWS to SYS_MAX_FLOWS - 1 (out of bounds)."
  },
  {
   "property": "C20",
   "status": "partial",
   "theorems": [
    "C20_stream_partial",
    "C20_exact_partial",
    "C20_next_reports",
    "C20_removed_flow_violated",
    "C20_closed_flow_violated",
    "C20_reliable_flow_violated",
    "C20_reliable_flow_stuck_violated",
    "C20_overflow_violated",
    "C20_overflow_reachable"
   ],
   "note": "Exactly-once in-order delivery proved for processes without reliable flows and queues below SHM_BUFFER_SIZE. Violated: removal keeps undelivered events, full queues overwrite the next set's events, one event of a reliable flow can lose or block the events behind it."
  },
  {
   "property": "C21",
   "status": "partial",
   "theorems": [
    "Ouro.Registry.C21_new_id",
    "Ouro.Registry.C21_distinct_ids",
    "Ouro.Registry.C21_refused_only_when_full",
    "Ouro.Registry.C21_life_cycle",
    "Ouro.Registry.C21_never_back",
    "Ouro.Registry.C21_rings_present",
    "Ouro.Registry.C21_rings_partial",
    "Ouro.Registry.C21_rings_violated",
    "Ouro.Registry.C21_timeout_violated",
    "Ouro.Registry.C21_bad_id_violated"
   ],
   "note": "Ids and the life cycle are proved for every history of registry calls; the rings exist exactly when needed in histories without process ends. A cancelled flow keeps its rings, a timeout can race with the allocation, and a bad id crashes the daemon: these are refuted with witnesses."
  },
  {
   "property": "C22",
   "status": "partial",
   "theorems": [
    "Ouro.Registry.C22_flows",
    "Ouro.Registry.C22_names",
    "Ouro.Registry.C22_procs_partial",
    "Ouro.Registry.C22_progs",
    "Ouro.Registry.C22_ipcps",
    "Ouro.Registry.C22_destroy_proc_violated",
    "Ouro.Registry.C22_update_ipcp_violated",
    "Ouro.Registry.C22_spawned_twice_violated"
   ],
   "note": "Flows, names, programs and IPCPs are finite maps with correct counters. Destroying a missing process succeeds, updating an IPCP crashes, a spawned IPCP is recorded twice."
  },
  {
   "property": "C23",
   "status": "partial",
   "theorems": [
    "Ouro.Registry.C23_policy_partial",
    "Ouro.Registry.C23_never_unbound",
    "Ouro.Registry.C23_crash_violated",
    "Ouro.Registry.C23_same_flow_violated",
    "Ouro.Registry.C23_bound_while_preparing_violated"
   ],
   "note": "The policy order is proved for histories in which each process accepts one flow at a time and is not bound while accepting. Requests that arrive before the chosen process has woken up crash the daemon."
  },
  {
   "property": "C24",
   "status": "partial",
   "theorems": [
    "Ouro.Registry.C24_bound",
    "Ouro.Registry.C24_started_later",
    "Ouro.Registry.C24_accepts",
    "Ouro.Registry.C24_only_bound",
    "Ouro.Registry.C24_unbind",
    "Ouro.Registry.C24_bind",
    "Ouro.Registry.C24_unbind_prog",
    "Ouro.Registry.C24_destroy_partial",
    "Ouro.Registry.C24_destroy_bound_violated",
    "Ouro.Registry.C24_unbind_auto_violated"
   ],
   "note": "Bindings follow the log of calls. A name with a bound process cannot be destroyed (assertion), and unbinding an automatically started program given by its path leaves its entry."
  },
  {
   "property": "C25",
   "status": "partial",
   "theorems": [
    "Ouro.Registry.C25_exit",
    "Ouro.Registry.C25_released",
    "Ouro.Registry.C25_leak_violated",
    "Ouro.Registry.C25_race_violated"
   ],
   "note": "Cancelling of pending flows, release of waiters, unbinding and reuse of ids are proved. Flows in use leak, and a request in progress for the process crashes the daemon."
  },
  {
   "property": "C26",
   "status": "proved",
   "theorems": [
    "Ouro.Pft.C26_table_is_a_map",
    "Ouro.Pft.C26_bucket_count"
   ],
   "note": "tables of at most 2^63 buckets"
  },
  {
   "property": "C27",
   "status": "partial",
   "theorems": [
    "Ouro.Pff.C27_simple",
    "Ouro.Pff.C27_multipath_partial",
    "Ouro.Pff.C27_multipath_fair",
    "Ouro.Pff.C27_multipath_update_violated",
    "Ouro.Pff.C27_alternate_configured",
    "Ouro.Pff.C27_alternate_switch_partial",
    "Ouro.Pff.C27_alternate_primary",
    "Ouro.Pff.C27_alternate_violated"
   ],
   "note": "simple in full; multipath except update with several next hops (undefined behaviour in the code); alternate per report, the global claim is false of the code"
  },
  {
   "property": "C28",
   "status": "proved",
   "theorems": [
    "Ouro.Graph.C28_shortest_paths",
    "Ouro.Graph.C28_edges",
    "Ouro.Graph.C28_self_link_violated"
   ],
   "note": "Simple policy, for all histories of at most 2^28 calls without a link from a node to itself (deleting such a link uses freed memory)."
  },
  {
   "property": "C29",
   "status": "proved",
   "theorems": [
    "Ouro.Graph.C29_simple_delivers",
    "Ouro.Graph.C29_ecmp_delivers",
    "Ouro.Graph.C29_ecmp_exact"
   ],
   "note": "Equal-cost next hops may be neighbours over a link confirmed by one end only (C30_unconfirmed_neighbour_violated)."
  },
  {
   "property": "C30",
   "status": "partial",
   "theorems": [
    "Ouro.Graph.C30_alternates",
    "Ouro.Graph.C30_alternates_partial",
    "Ouro.Graph.C30_unconfirmed_neighbour_violated",
    "Ouro.Graph.C30_primary_repeated",
    "Ouro.Graph.C30_many_neighbours_violated"
   ],
   "note": "Loop-free condition proved for all; the neighbour is over a usable link only if no link of the source is announced by one end only: refuted otherwise."
  },
  {
   "property": "C31",
   "status": "proved",
   "theorems": [
    "C31_mirror",
    "C31_once",
    "C31_self_link_violated",
    "C31_timeout_unnoticed_violated"
   ],
   "note": "Histories without announcements of a link from a node to itself (such an announcement is accepted from the network and its removal is undefined behaviour, C31_self_link_violated)."
  },
  {
   "property": "C32",
   "status": "proved",
   "theorems": [
    "C32_newest",
    "C32_forwards",
    "C32_once",
    "C32_refresh",
    "C32_flooding_stops",
    "C32_wire",
    "C32_restart_violated"
   ],
   "note": "Atomic handling of one announcement; flows deliver or lose announcements in any order for C32_flooding_stops."
  },
  {
   "property": "C33",
   "status": "proved",
   "theorems": [
    "Ouro.Dt.C33_header_roundtrip",
    "Ouro.Dt.C33_delivered_as_sent",
    "Ouro.Dt.C33_short_packet_violated"
   ],
   "note": "Header fields and payload for all address sizes up to 8. C33_short_packet_violated records that packets shorter than the header (only possible from a faulty peer) are read out of bounds."
  },
  {
   "property": "C34",
   "status": "partial",
   "theorems": [
    "Ouro.Dt.C34_relays_bounded",
    "Ouro.Dt.C34_sent_packet_partial",
    "Ouro.Dt.C34_relay_decision",
    "Ouro.Dt.C34_zero_ttl_violated"
   ],
   "note": "Relays are bounded for every packet and any network; the initial TTL bounds them for packets sent with a nonzero TTL. Missing because false: with max TTL 0 configured (or TTL 0 on the wire) the TTL wraps (C34_zero_ttl_violated)."
  },
  {
   "property": "C35",
   "status": "partial",
   "theorems": [
    "Ouro.Fa.C35_endpoints_partial",
    "Ouro.Fa.C35_update_for_id_zero_violated",
    "Ouro.Fa.C35_reply_for_id_zero_violated",
    "Ouro.Fa.C35_same_id_violated",
    "Ouro.Fa.C35_early_reply_violated"
   ],
   "note": "Refinement to a map from live ids to flows for histories without id 0 and with working random generator; the violated theorems are the exceptions."
  },
  {
   "property": "C36",
   "status": "partial",
   "theorems": [
    "Ouro.MbEcn.C36_receiver_level",
    "Ouro.MbEcn.C36_receiver_reports",
    "Ouro.MbEcn.C36_sender_partial",
    "Ouro.MbEcn.C36_report_lowers_rate",
    "Ouro.MbEcn.C36_marks",
    "Ouro.MbEcn.C36_large_report_violated",
    "Ouro.MbEcn.C36_packet_rate_violated"
   ],
   "note": "Receiver proved for all histories. Sender proved for packets at least 16 ns apart and reports up to 8191 (all a receiver makes); without these the claim is false (violated theorems). Wrap-around of the window limit above 2^64 bytes is not excluded."
  },
  {
   "property": "C37",
   "status": "partial",
   "theorems": [
    "Ouro.Local.C37_isolated_partial",
    "Ouro.Local.C37_once",
    "Ouro.Local.C37_delivers_partial",
    "Ouro.Local.C37_reply_partial",
    "Ouro.Local.C37_reuse_violated",
    "Ouro.Local.C37_race_violated",
    "Ouro.Local.C37_early_dealloc_violated",
    "Ouro.Local.C37_reject_violated"
   ],
   "note": "Isolation and delivery are proved for histories in which a descriptor is reused only after both ends of its flow are deallocated and no packet of it is in the loop, and a flow is not deallocated during its allocation. Without that, packets reach a foreign flow."
  },
  {
   "property": "C38",
   "status": "proved",
   "theorems": [
    "Ouro.Broadcast.C38_forwards",
    "Ouro.Broadcast.C38_silent",
    "Ouro.Broadcast.C38_at_most_once",
    "Ouro.Broadcast.C38_exactly_once",
    "Ouro.Broadcast.C38_dies_out",
    "Ouro.Broadcast.C38_progress"
   ],
   "note": "One process for every history of neighbours and packets; a tree of processes of any size for every order of reading. Flows are taken to deliver what is written."
  },
  {
   "property": "C39",
   "status": "partial",
   "theorems": [
    "Ouro.ShimData.C39_registered",
    "Ouro.ShimData.C39_register_twice",
    "Ouro.ShimData.C39_register",
    "Ouro.ShimData.C39_directory_has",
    "Ouro.ShimData.C39_directory_get",
    "Ouro.ShimData.C39_directory_add",
    "Ouro.ShimData.C39_answered_once",
    "Ouro.ShimData.C39_wait_result",
    "Ouro.ShimData.C39_answers_partial",
    "Ouro.ShimData.C39_responder_returns_partial",
    "Ouro.ShimData.C39_destroyer_returns_partial",
    "Ouro.ShimData.C39_no_use_after_free",
    "Ouro.ShimData.C39_sleeper_keeps_query",
    "Ouro.ShimData.C39_early_answer_violated",
    "Ouro.ShimData.C39_second_query_violated",
    "Ouro.ShimData.C39_timeout_violated",
    "Ouro.ShimData.C39_cancel_violated"
   ],
   "note": "Registry and directory in full. Queries: an answer before the wait is dropped, only the newest query for a name is answered, a timeout may hide an answer, and a cancelled waiter blocks everybody; the partial theorems exclude these cases."
  },
  {
   "property": "C40",
   "status": "partial",
   "theorems": [
    "Ouro.AllocId.C40_one_at_a_time",
    "Ouro.AllocId.C40_one_call",
    "Ouro.AllocId.C40_response_for",
    "Ouro.AllocId.C40_next_proceeds",
    "Ouro.AllocId.C40_response_proceeds",
    "Ouro.AllocId.C40_stopped",
    "Ouro.AllocId.C40_unblocks_partial",
    "Ouro.AllocId.C40_negative_violated",
    "Ouro.AllocId.C40_spurious_violated"
   ],
   "note": "One flow at a time and matching of responses hold for every interleaving. That a response unblocks the next request is proved for positive responses; a negative one waits for descriptor -1, so the hand-over of later flows stops."
  },
  {
   "property": "C41",
   "status": "partial",
   "theorems": [
    "Ouro.Ipcp.C41_reply",
    "Ouro.Ipcp.C41_unknown",
    "Ouro.Ipcp.C41_refused",
    "Ouro.Ipcp.C41_invoked",
    "Ouro.Ipcp.C41_np1",
    "Ouro.Ipcp.C41_life_partial",
    "Ouro.Ipcp.C41_twice_violated",
    "Ouro.Ipcp.C41_restart_violated",
    "Ouro.Ipcp.C41_revived_violated",
    "Ouro.Ipcp.C41_overwritten_violated"
   ],
   "note": "The replies and the refusals hold for every interleaving. The life cycle (one bootstrap, then operational, then shut down) is proved when bootstrap and enroll commands do not overlap each other or the signal; without that it fails, because the test and the change of the state are not one atomic step."
  },
  {
   "property": "C42",
   "status": "partial",
   "theorems": [
    "Ouro.DhtStore.C42_refines",
    "Ouro.DhtStore.C42_no_duplicates",
    "Ouro.DhtStore.C42_total",
    "Ouro.DhtStore.C42_retrieve_partial",
    "Ouro.DhtStore.C42_query",
    "Ouro.DhtStore.C42_unreg",
    "Ouro.DhtStore.C42_pass",
    "Ouro.DhtStore.C42_store",
    "Ouro.DhtStore.C42_published",
    "Ouro.DhtStore.C42_message",
    "Ouro.DhtStore.C42_lifetime_always",
    "Ouro.DhtStore.C42_retrieve_violated",
    "Ouro.DhtStore.C42_leak_violated",
    "Ouro.DhtStore.C42_expired_violated",
    "Ouro.DhtStore.C42_lifetime_violated",
    "Ouro.DhtStore.C42_message_violated"
   ],
   "note": "Storage refines a map from keys and addresses to expiry times, for all histories of stores, unregistrations and passes of the worker; lookups return what the map has. Violated: after expiry of the last address the entry stays with its count and a request returns uninitialised memory; an address is returned after it expired until the next pass; replication publishes with the clock as the time to live; a message with two contacts or a short key reads out of bounds."
  },
  {
   "property": "C43",
   "status": "partial",
   "theorems": [
    "Ouro.DhtLookup.C43_distance",
    "Ouro.DhtLookup.C43_contacts_partial",
    "Ouro.DhtLookup.C43_sorted",
    "Ouro.DhtLookup.C43_create",
    "Ouro.DhtLookup.C43_asked_once",
    "Ouro.DhtLookup.C43_ask",
    "Ouro.DhtLookup.C43_find",
    "Ouro.DhtLookup.C43_response",
    "Ouro.DhtLookup.C43_value",
    "Ouro.DhtLookup.C43_query",
    "Ouro.DhtLookup.C43_query_none",
    "Ouro.DhtLookup.C43_closest_violated",
    "Ouro.DhtLookup.C43_distinct_violated",
    "Ouro.DhtLookup.C43_zero_violated",
    "Ouro.DhtLookup.C43_unasked_violated",
    "Ouro.DhtLookup.C43_short_id_violated",
    "Ouro.DhtLookup.C43_overflow_violated",
    "Ouro.DhtBuckets.C43_bucket_size",
    "Ouro.DhtBuckets.C43_bucket_addrs_partial",
    "Ouro.DhtBuckets.C43_bucket_addrs_violated",
    "Ouro.DhtBuckets.C43_stored_partial",
    "Ouro.DhtBuckets.C43_found_violated",
    "Ouro.DhtBuckets.C43_split_iff",
    "Ouro.DhtBuckets.C43_split_keeps",
    "Ouro.DhtBuckets.C43_same_id_violated",
    "Ouro.DhtBuckets.C43_same_id",
    "Ouro.DhtBuckets.C43_contact_list",
    "Ouro.DhtBuckets.C43_no_contacts_violated",
    "Ouro.DhtBuckets.C43_dead",
    "Ouro.DhtBuckets.C43_dead_violated",
    "Ouro.DhtBuckets.C43_dead_count_violated"
   ],
   "note": "At most k distinct contacts in all histories, but they are the k farthest of those seen, not the closest (the list is sorted the wrong way). Buckets never exceed k contacts; contacts are moved by the second byte of the id and looked up by the first, so that after a split a contact is found just if they are equal; ids that agree after the first byte make a split read out of bounds."
  },
  {
   "property": "C44",
   "status": "partial",
   "theorems": [
    "Ouro.TimerWheel.C44_examined_on_time_partial",
    "Ouro.TimerWheel.C44_lateness_partial",
    "Ouro.TimerWheel.C44_not_missed_partial",
    "Ouro.TimerWheel.C44_only_unacknowledged_resent",
    "Ouro.TimerWheel.C44_not_forgotten",
    "Ouro.TimerWheel.C44_no_earlier_violated",
    "Ouro.TimerWheel.C44_lagging_violated",
    "Ouro.TimerWheel.C44_missed_violated"
   ],
   "note": "Entries are examined within one slot of their timeout in the first turn after it, provided the wheel is turned within 256 slots and lag plus timeout stay below one revolution; retransmissions are justified and nothing is forgotten in every execution. 'No earlier than its timeout' is false (up to one slot early, C44_no_earlier_violated), and a lagging or stalled wheel examines entries a revolution early or late (violated theorems)."
  },
  {
   "property": "C45",
   "status": "proved",
   "theorems": [
    "Ouro.CmdQueue.C45_in_order",
    "Ouro.CmdQueue.C45_nothing_lost",
    "Ouro.CmdQueue.C45_takes",
    "Ouro.CmdQueue.C45_no_lost_wakeup"
   ],
   "note": "Any number of workers, any interleaving, spurious wake-ups and cancelled workers included; the three queues have the same code."
  },
  {
   "property": "C46",
   "status": "partial",
   "theorems": [
    "Ouro.Qoscube.C46_thresholds",
    "Ouro.Qoscube.C46_monotone_partial",
    "Ouro.Qoscube.C46_monotone_violated",
    "Ouro.Qoscube.C46_as_good_violated",
    "Ouro.Qoscube.C46_bandwidth_partial",
    "Ouro.Qoscube.C46_predefined"
   ],
   "note": "thresholds and totality proved; monotonicity only at equal bandwidth (refuted otherwise); 'at least as good' refuted"
  },
  {
   "property": "C47",
   "status": "partial",
   "theorems": [
    "Ouro.Protobuf.C47_qos",
    "Ouro.Protobuf.C47_layer",
    "Ouro.Protobuf.C47_ipcp",
    "Ouro.Protobuf.C47_config",
    "Ouro.Protobuf.C47_timespec",
    "Ouro.Protobuf.C47_flow_partial",
    "Ouro.Protobuf.C47_flow_violated",
    "Ouro.Protobuf.C47_req",
    "Ouro.Protobuf.C47_ack",
    "Ouro.Protobuf.C47_resp",
    "Ouro.Protobuf.C47_missing_violated",
    "Ouro.Protobuf.C47_truncated_violated",
    "Ouro.Protobuf.C47_long_violated"
   ],
   "note": "QoS, layer information, IPCP information, configurations of every type, times and enrolment messages round-trip in full. Flow information round-trips if the lifetime fits 32 bits; refuted otherwise. Received messages with missing parts or long names are undefined, sizes are cut off."
  },
  {
   "property": "C48",
   "status": "proved",
   "theorems": [
    "Ouro.Utils.C48_n_digits",
    "Ouro.Utils.C48_path_strip",
    "Ouro.Utils.C48_argvdup",
    "Ouro.Utils.C48_argvfree"
   ],
   "note": ""
  },
  {
   "property": "C49",
   "status": "partial",
   "theorems": [
    "Ouro.Connmgr.C49_once",
    "Ouro.Connmgr.C49_all",
    "Ouro.Connmgr.C49_found",
    "Ouro.Connmgr.C49_found_partial",
    "Ouro.Connmgr.C49_agreed",
    "Ouro.Connmgr.C49_refused",
    "Ouro.Connmgr.C49_unknown_partial",
    "Ouro.Connmgr.C49_incoming",
    "Ouro.Connmgr.C49_refused_violated",
    "Ouro.Connmgr.C49_empty_name_violated",
    "Ouro.Connmgr.C49_disconnect_twice_violated",
    "Ouro.Connmgr.C49_uninitialised_violated",
    "Ouro.Connmgr.C49_long_violated",
    "Ouro.Connmgr.C49_event_violated"
   ],
   "note": "Hand-over exactly once, lookup by descriptor and the checks of a connect are proved for every history without a crash. Refuted: incoming connections are not checked for protocol, version and syntax; an empty component name, a second disconnect and a disconnect next to an incoming connection are undefined; long destinations cannot be disconnected; events before the insertion find nothing."
  },
  {
   "property": "C50",
   "status": "partial",
   "theorems": [
    "Ouro.Psched.C50_once",
    "Ouro.Psched.C50_order_partial",
    "Ouro.Psched.C50_class",
    "Ouro.Psched.C50_all_partial",
    "Ouro.Psched.C50_order_violated",
    "Ouro.Psched.C50_stranded_violated"
   ],
   "note": "Conservation and the right descriptor and class hold for every history and any number of readers. Order is proved for one reader per class and refuted for the default of two. Delivery of all packets is proved if packets arrive only after the flow is added, and refuted otherwise."
  },
  {
   "property": "C51",
   "status": "partial",
   "theorems": [
    "Ouro.Rbuff.C51_no_lost_wakeup",
    "Ouro.Rbuff.C51_fini_partial",
    "Ouro.Rbuff.C51_fini_violated"
   ],
   "note": "Readers and writers proved without exception; shm_rbuff_fini refuted (consequence of the overflow in write_b) and proved when the ring is never marked down."
  },
  {
   "property": "C52",
   "status": "proved",
   "theorems": [
    "Ouro.FaMsg.C52_request_roundtrip",
    "Ouro.FaMsg.C52_reply_roundtrip",
    "Ouro.FaMsg.C52_update_roundtrip",
    "Ouro.FaMsg.C52_any_bytes_safe",
    "Ouro.FaMsg.C52_large_request_violated"
   ],
   "note": "C52_large_request_violated: larger messages are silently ignored."
  },
  {
   "property": "C53",
   "status": "proved",
   "theorems": [
    "C53_converges",
    "C53_same_links",
    "C53_delivers",
    "C53_withdrawal_violated"
   ],
   "note": "As stated: no withdrawals, no time-outs, no loss on management flows, own sequence numbers below 2^64."
  },
  {
   "property": "C54",
   "status": "partial",
   "theorems": [
    "Ouro.Lsdb.C54_forwarding_partial",
    "Ouro.Lsdb.C54_stale_violated",
    "Ouro.Lsdb.C54_multipath_partial",
    "Ouro.Lsdb.C54_alternate_partial",
    "Ouro.Lsdb.C54_multipath_stale_violated",
    "Ouro.Lsdb.C54_alternate_down_violated"
   ],
   "note": "All three pairs of routing and forwarding policy (simple, equal-cost with multipath, loop-free alternates with alternate), for databases that are not empty. With an empty database, or with multipath when the node has no announced link, the old table stays (stale theorems); a recalculation forgets which flows are down (C54_alternate_down_violated)."
  },
  {
   "property": "C55",
   "status": "partial",
   "theorems": [
    "C55_no_silent_loss_partial",
    "C55_no_silent_loss_steady_partial",
    "C55_no_silent_loss_violated"
   ],
   "note": "As C09; packets whose timer could not be armed (timerwheel_rxm failing, ignored by the code) are listed separately in the statement."
  },
  {
   "property": "C56",
   "status": "proved",
   "theorems": [
    "C56_header_round_trip",
    "C56_header_injective",
    "C56_short_packet_violated"
   ],
   "note": "Round trip proved for every packet; a packet shorter than the header is read beyond its end."
  },
  {
   "property": "C57",
   "status": "partial",
   "theorems": [
    "C57_writer_waits_partial",
    "C57_writer_waits_violated",
    "C57_reset_violated"
   ],
   "note": "Proved under in-order windows; refuted without (a window of an earlier run), and the reset is reported before any rendez-vous."
  },
  {
   "property": "C58",
   "status": "partial",
   "theorems": [
    "Ouro.TimerWheel.C58_due",
    "Ouro.TimerWheel.C58_answered_partial",
    "Ouro.TimerWheel.C58_not_missed_partial",
    "Ouro.TimerWheel.C58_only_requested_partial",
    "Ouro.TimerWheel.C58_reused_descriptor_violated"
   ],
   "note": "Proved when the wheel is turned regularly and no descriptor passes to another flow while an acknowledgement is pending on it; without the latter a request is lost (C58_reused_descriptor_violated)."
  },
  {
   "property": "C59",
   "status": "partial",
   "theorems": [
    "Ouro.Protobuf.C59_same",
    "Ouro.Protobuf.C59_only",
    "Ouro.Protobuf.C59_any_request",
    "Ouro.Protobuf.C59_reply_violated",
    "Ouro.Protobuf.C59_no_config_violated",
    "Ouro.Protobuf.C59_ack_violated"
   ],
   "note": "Hand-over and the checks are proved, for any wire format whose unpack inverts pack. A request cannot crash the member; refuted for replies and acknowledgements with a short identifier and for replies without a configuration."
  },
  {
   "property": "C60",
   "status": "partial",
   "theorems": [
    "Ouro.Sha3.C60_sha3_is_fips202_partial",
    "Ouro.Sha3.C60_big_endian_violated",
    "Ouro.Md5.C60_md5_is_rfc1321_partial",
    "Ouro.Md5.C60_md5_one_piece"
   ],
   "note": "SHA-3: refinement of the lane code to the bit-level algorithms of FIPS 202 for all messages; false for SHA3-224 on big endian hosts (witness). MD5: refinement to RFC 1321 for messages in one piece whose rounded up number of bytes is readable, and for pieces that fit the word-wise copies; little endian hosts."
  },
  {
   "property": "C61",
   "status": "partial",
   "theorems": [
    "Ouro.IrmdFlow.C61_no_leak",
    "Ouro.IrmdFlow.C61_ids",
    "Ouro.IrmdFlow.C61_kept",
    "Ouro.IrmdFlow.C61_grant",
    "Ouro.IrmdFlow.C61_ownership_violated",
    "Ouro.IrmdFlow.C61_accept_key",
    "Ouro.IrmdFlow.C61_alloc_key",
    "Ouro.IrmdFlow.C61_same_key",
    "Ouro.IrmdFlow.C61_one_answer",
    "Ouro.IrmdFlow.C61_no_timeout",
    "Ouro.IrmdFlow.C61_answered_partial",
    "Ouro.IrmdFlow.C61_answered_violated",
    "Ouro.IrmdFlow.C61_timeout_violated",
    "Ouro.IrmdFlow.C61_late_reply_violated",
    "Ouro.IrmdFlow.C61_double_match_violated",
    "Ouro.IrmdFlow.C61_early_match_violated",
    "Ouro.IrmdFlow.C61_handed",
    "Ouro.IrmdFlow.C61_alloc_msg",
    "Ouro.IrmdFlow.C61_dealloc_msg",
    "Ouro.IrmdFlow.C61_ipcp",
    "Ouro.IrmdFlow.C61_preference_violated",
    "Ouro.IrmdFlow.C61_join_violated"
   ],
   "note": "All interleavings of the handlers over the registry. Proved for processes that deallocate only flows they hold: no leaks, ids returned, ownership, grants, equal keys, one answer, no timeout without a limit, origin of messages. The code violates the rest: a match racing with the timeout of an accept is never answered (proved if accepts have no limit), a timed out allocation is not taken back at the IPCP and its late reply is taken for a newer request, two requests can be matched to one accept, a match before the wait and every join stop the daemon at an assertion, any process can deallocate any flow."
  },
  {
   "property": "C62",
   "status": "partial",
   "theorems": [
    "Ouro.Udp.C62_request_roundtrip",
    "Ouro.Udp.C62_reply_roundtrip",
    "Ouro.Udp.C62_response_violated",
    "Ouro.Udp.C62_no_crash_partial",
    "Ouro.Udp.C62_delivery_partial",
    "Ouro.Udp.C62_offer_partial",
    "Ouro.Udp.C62_reply_partial",
    "Ouro.Udp.C62_one_request_partial",
    "Ouro.Udp.C62_one_flow_partial",
    "Ouro.Udp.C62_one_peer_partial",
    "Ouro.Udp.C62_established",
    "Ouro.Udp.C62_cut_violated",
    "Ouro.Udp.C62_early_reply_violated",
    "Ouro.Udp.C62_early_response_violated",
    "Ouro.Udp.C62_refusal_violated",
    "Ouro.Udp.C62_long_request_violated",
    "Ouro.Udp.C62_any_sender_crash_violated",
    "Ouro.Udp.C62_short_request_violated",
    "Ouro.Udp.C62_spoof_violated",
    "Ouro.Udp.C62_duplicate_violated",
    "Ouro.Udp.C62_late_packet_violated",
    "Ouro.Udp.C62_wrong_peer_violated",
    "Ouro.Udp.C62_leak_violated"
   ],
   "note": "Safety in every interleaving with loss, duplication and reordering, for histories in which descriptors are not used again, nobody else sends, messages fit and nothing is refused; each restriction is shown to be needed by a _violated theorem."
  },
  {
   "property": "C63",
   "status": "partial",
   "theorems": [
    "Ouro.EthLlc.C63_request_roundtrip",
    "Ouro.EthLlc.C63_reply_roundtrip",
    "Ouro.EthLlc.C63_query_roundtrip",
    "Ouro.EthLlc.C63_bits",
    "Ouro.EthLlc.C63_frame",
    "Ouro.EthLlc.C63_isolation_partial",
    "Ouro.EthLlc.C63_sent_partial",
    "Ouro.EthLlc.C63_registered_partial",
    "Ouro.EthLlc.C63_destination_partial",
    "Ouro.EthLlc.C63_no_crash_partial",
    "Ouro.EthLlc.C63_saps_partial",
    "Ouro.EthLlc.C63_delivery_partial",
    "Ouro.EthLlc.C63_send_partial",
    "Ouro.EthLlc.C63_response_partial",
    "Ouro.EthLlc.C63_request_partial",
    "Ouro.EthLlc.C63_established",
    "Ouro.EthLlc.C63_sap_crash_violated",
    "Ouro.EthLlc.C63_short_crash_violated",
    "Ouro.EthLlc.C63_stale_violated",
    "Ouro.EthLlc.C63_released_violated",
    "Ouro.EthLlc.C63_short_message_violated",
    "Ouro.EthLlc.C63_hijack_violated",
    "Ouro.EthLlc.C63_poison_violated",
    "Ouro.EthLlc.C63_many_flows_violated",
    "Ouro.EthLlc.C63_refusal_violated",
    "Ouro.EthLlc.C63_failed_reply_violated",
    "Ouro.EthLlc.C63_dealloc_crash_violated",
    "Ouro.EthLlc.C63_refuse_violated",
    "Ouro.EthLlc.C63_early_response_violated",
    "Ouro.EthLlc.C63_reuse_violated",
    "Ouro.EthLlc.C63_leak_violated",
    "Ouro.EthDix.C63_dix_request_roundtrip",
    "Ouro.EthDix.C63_dix_reply_roundtrip",
    "Ouro.EthDix.C63_dix_delivery",
    "Ouro.EthDix.C63_dix_isolation_violated",
    "Ouro.EthDix.C63_dix_crash_violated",
    "Ouro.EthDix.C63_dix_hijack_violated"
   ],
   "note": "Isolation holds for all received frames if no flow is deallocated while its request is still being worked on; delivery, distinct SAPs and absence of crashes need honest frames, fewer than 62 flows and no refusals. Each condition is shown to be needed by a _violated theorem. Without LLC only messages and the decision of the reader are modelled."
  },
  {
   "property": "C64",
   "status": "partial",
   "theorems": [
    "Ouro.Crypt.C64_wire",
    "Ouro.Crypt.C64_receive_partial",
    "Ouro.Crypt.C64_round_trip",
    "Ouro.Crypt.C64_corruption",
    "Ouro.Crypt.C64_encrypt_fails",
    "Ouro.Crypt.C64_short_violated",
    "Ouro.Crypt.C64_resend_partial",
    "Ouro.Crypt.C64_resend_violated",
    "Ouro.Crypt.C64_resend_shortened_violated",
    "Ouro.Crypt.C64_heap_plaintext_violated",
    "Ouro.Crypt.C64_control_partial",
    "Ouro.Crypt.C64_control_violated",
    "Ouro.Crypt.C64_control_dropped_violated",
    "Ouro.Frct.C64_one_way_unacknowledged_violated",
    "Ouro.Frct.C64_one_way_down_violated"
   ],
   "note": "Proved for packets written: wire format, what a receiver takes, round trip, corruption dropped, failed encryption. Refuted for packets sent again, for control packets on flows with a CRC (so that a one-way reliable flow goes down) and for packets of 1 to 3 bytes. AES-CBC is a parameter with its algebraic laws."
  },
  {
   "property": "C65",
   "status": "partial",
   "theorems": [
    "Ouro.DhtReq.C65_cookie",
    "Ouro.DhtReq.C65_distinct_partial",
    "Ouro.DhtReq.C65_ask",
    "Ouro.DhtReq.C65_answer_partial",
    "Ouro.DhtReq.C65_given_partial",
    "Ouro.DhtReq.C65_found_partial",
    "Ouro.DhtReq.C65_query_partial",
    "Ouro.DhtReq.C65_late_violated",
    "Ouro.DhtReq.C65_quick_violated",
    "Ouro.DhtReq.C65_expired_violated",
    "Ouro.DhtReq.C65_released_violated",
    "Ouro.DhtReq.C65_resp_fail_violated",
    "Ouro.DhtReq.C65_resp_fail_crash_violated",
    "Ouro.DhtReq.C65_forged_violated",
    "Ouro.DhtReq.C65_lost_violated"
   ],
   "note": "Proved for runs in which responses come from the asked member, after the question was recorded and before its cookie was reused or expired, and no response fails to be sent; refuted without each of these conditions."
  },
  {
   "property": "C66",
   "status": "partial",
   "theorems": [
    "Ouro.DhtJoin.C66_success",
    "Ouro.DhtJoin.C66_safe_partial",
    "Ouro.DhtJoin.C66_once_partial",
    "Ouro.DhtJoin.C66_released_partial",
    "Ouro.DhtJoin.C66_accept_partial",
    "Ouro.DhtJoin.C66_join_partial",
    "Ouro.DhtJoin.C66_quick_violated",
    "Ouro.DhtJoin.C66_overwritten_violated",
    "Ouro.DhtJoin.C66_late_violated",
    "Ouro.DhtJoin.C66_workers_violated",
    "Ouro.DhtJoin.C66_freed_violated"
   ],
   "note": "Success only after acceptance holds for every interleaving; the rest is proved if responses arrive while the member waits, and refuted for responses that are quicker or come when the time is up."
  },
  {
   "property": "C67",
   "status": "partial",
   "theorems": [
    "Ouro.DhtPacket.C67_ignored",
    "Ouro.DhtPacket.C67_response",
    "Ouro.DhtPacket.C67_join",
    "Ouro.DhtPacket.C67_history_partial",
    "Ouro.DhtPacket.C67_value_partial",
    "Ouro.DhtPacket.C67_node_partial",
    "Ouro.DhtPacket.C67_registered_partial",
    "Ouro.DhtPacket.C67_no_id_violated",
    "Ouro.DhtPacket.C67_no_key_violated",
    "Ouro.DhtPacket.C67_short_id_violated",
    "Ouro.DhtPacket.C67_contacts_violated"
   ],
   "note": "Ignored messages, responses and joins hold for all members and messages. What is stored, known and answered, and the end-to-end result of a registration, hold for directories of at most eight members that send complete messages. They fail for a message without an id, a question without a key, an id that is too short beside a b, and a store message with two contacts (general statements)."
  },
  {
   "property": "C68",
   "status": "partial",
   "theorems": [
    "Ouro.IrmdAdmin.C68_bind_process",
    "Ouro.IrmdAdmin.C68_bind_program",
    "Ouro.IrmdAdmin.C68_name_create_partial",
    "Ouro.IrmdAdmin.C68_name_reg",
    "Ouro.IrmdAdmin.C68_name_unreg",
    "Ouro.IrmdAdmin.C68_connect",
    "Ouro.IrmdAdmin.C68_bootstrap_partial",
    "Ouro.IrmdAdmin.C68_enroll_partial",
    "Ouro.IrmdAdmin.C68_destroy_ipcp",
    "Ouro.IrmdAdmin.C68_bind_process_done",
    "Ouro.IrmdAdmin.C68_bind_program_done",
    "Ouro.IrmdAdmin.C68_unbind_done",
    "Ouro.IrmdAdmin.C68_name_reg_done",
    "Ouro.IrmdAdmin.C68_connect_done",
    "Ouro.IrmdAdmin.C68_bootstrap_done",
    "Ouro.IrmdAdmin.C68_enroll_done",
    "Ouro.IrmdAdmin.C68_destroy_done",
    "Ouro.IrmdAdmin.C68_create_done",
    "Ouro.IrmdAdmin.C68_bind_program_race_violated",
    "Ouro.IrmdAdmin.C68_bind_process_race_violated",
    "Ouro.IrmdAdmin.C68_name_policy_violated",
    "Ouro.IrmdAdmin.C68_terminates_any_violated",
    "Ouro.IrmdAdmin.C68_early_answer_violated",
    "Ouro.IrmdAdmin.C68_vanished_violated",
    "Ouro.IrmdAdmin.C68_late_answer_violated",
    "Ouro.IrmdAdmin.C68_enroll_positive_violated",
    "Ouro.IrmdAdmin.C68_rebind_violated",
    "Ouro.IrmdAdmin.C68_history",
    "Ouro.IrmdAdmin.C68_client",
    "Ouro.IrmdAdmin.C68_alone"
   ],
   "note": "Results and effects of every administrative command when nobody interferes; for any interleaving with other threads: success is only reported after the decisive step. Violated: concurrent binds undo each other or crash, an existing name keeps its policy, any process can be terminated as an IPCP, IPCPs that answer too early or too late, positive enrolment results, binding again after unbinding an auto-started program."
  },
  {
   "property": "C69",
   "status": "partial",
   "theorems": [
    "Ouro.ProgPath.C69_search",
    "Ouro.ProgPath.C69_direct",
    "Ouro.ProgPath.C69_bind_request",
    "Ouro.ProgPath.C69_bind_invalid",
    "Ouro.ProgPath.C69_unset_violated",
    "Ouro.ProgPath.C69_path_cut_violated",
    "Ouro.ProgPath.C69_second_lookup_violated",
    "Ouro.ProgPath.C69_history_partial"
   ],
   "note": "The lookup itself is proved, memory included. It fails over histories: every lookup cuts PATH to its first directory (C69_path_cut_violated), so the next one misses programs in the others (C69_second_lookup_violated). Without PATH not even absolute paths are accepted (C69_unset_violated)."
  },
  {
   "property": "C70",
   "status": "partial",
   "theorems": [
    "Ouro.FlowTable.C70_history_partial",
    "Ouro.FlowTable.C70_distinct",
    "Ouro.FlowTable.C70_new_descriptor",
    "Ouro.FlowTable.C70_stable",
    "Ouro.FlowTable.C70_exit",
    "Ouro.FlowTable.C70_failed_call_violated",
    "Ouro.FlowTable.C70_range_violated",
    "Ouro.FlowTable.C70_double_dealloc_violated",
    "Ouro.FlowTable.C70_double_dealloc_other_violated",
    "Ouro.FlowTable.C70_late_waiter_violated",
    "Ouro.FlowTable.C70_unknown_flow_violated",
    "Ouro.FlowTable.C70_join_violated"
   ],
   "note": "Proved for every history of any number of threads under proper use (one deallocation per descriptor at a time, no resource failure inside of a call). Outside of that the code violates the property: failed calls leave the flow's fields set, concurrent deallocations of one descriptor crash or destroy another flow, deallocation checks the wrong bound, flow_join sends an allocation."
  },
  {
   "property": "C71",
   "status": "partial",
   "theorems": [
    "Ouro.Keepalive.C71_alive_partial",
    "Ouro.Keepalive.C71_detects",
    "Ouro.Keepalive.C71_sound",
    "Ouro.Keepalive.C71_once",
    "Ouro.Keepalive.C71_no_timeout",
    "Ouro.Keepalive.C71_rate",
    "Ouro.Keepalive.C71_sparing",
    "Ouro.Keepalive.C71_idle_reader_violated",
    "Ouro.Keepalive.C71_idle_reader_spreads_violated",
    "Ouro.Keepalive.C71_full_ring_violated",
    "Ouro.Keepalive.C71_busy_violated"
   ],
   "note": "Healthy flows stay open and silent peers are found out, for every history of the two ends. The code takes the application's reads for the peer's activity, so an idle reader closes a live flow; a refused packet counts as sent; a busy monitor makes no passes."
  },
  {
   "property": "C72",
   "status": "partial",
   "theorems": [
    "Ouro.Lockfile.C72_one_partial",
    "Ouro.Lockfile.C72_purge",
    "Ouro.Lockfile.C72_starts",
    "Ouro.Lockfile.C72_takes_over",
    "Ouro.Lockfile.C72_refuses",
    "Ouro.Lockfile.C72_race_violated",
    "Ouro.Lockfile.C72_restart_race_violated",
    "Ouro.Lockfile.C72_open_failure_violated",
    "Ouro.Lockfile.C72_orphan_violated",
    "Ouro.Lockfile.C72_pid_reuse_violated",
    "Ouro.Lockfile.C72_umask_violated"
   ],
   "note": "At most one daemon has the lock in every history of starts, stops and deaths at any point, with process ids reused, provided start-ups do not overlap and no daemon fails to map a lock file it opened; the packet buffer is then purged only without a running daemon. Proved violated without those conditions: two starts after a crash (or one around a normal restart) leave two daemons; a failed mmap removes the lock of the running daemon; a crash between creating and writing the lock file locks out every later daemon for ever; a reused process id does so while that process lives; a daemon that takes over runs with umask 0."
  },
  {
   "property": "C73",
   "status": "partial",
   "theorems": [
    "Ouro.Rib.C73_results",
    "Ouro.Rib.C73_root",
    "Ouro.Rib.C73_read",
    "Ouro.Rib.C73_read_unknown",
    "Ouro.Rib.C73_directories",
    "Ouro.Rib.C73_offset_violated",
    "Ouro.Rib.C73_missing_violated",
    "Ouro.Rib.C73_long_name_violated",
    "Ouro.Rib.C73_unmounted_violated"
   ],
   "note": "Refinement of registering and unregistering to a finite map, sorted listing of the root, dispatch of reads and listings to the registered operations, proved for every history. Proved violated: the offset of a read is ignored; missing files are reported as not permitted and unknown directories list as empty; files below names of 299 or 300 bytes cannot be read; a registration without a mount point succeeds without effect."
  },
  {
   "property": "C74",
   "status": "partial",
   "theorems": [
    "Ouro.RibDocs.C74_dt_partial",
    "Ouro.RibDocs.C74_dt_size_violated",
    "Ouro.RibDocs.C74_dt_address_violated",
    "Ouro.RibDocs.C74_dt_range_violated",
    "Ouro.RibDocs.C74_dt_list_partial",
    "Ouro.RibDocs.C74_dt_list_violated",
    "Ouro.RibDocs.C74_dt_list_race_violated",
    "Ouro.RibDocs.C74_fa_partial",
    "Ouro.RibDocs.C74_fa_failed_violated",
    "Ouro.RibDocs.C74_fa_nop_violated",
    "Ouro.RibDocs.C74_fa_attributes_violated",
    "Ouro.RibDocs.C74_ls_partial",
    "Ouro.RibDocs.C74_ls_size_violated",
    "Ouro.RibDocs.C74_ls_seqno_violated",
    "Ouro.RibDocs.C74_ls_neighbours_violated",
    "Ouro.RibDocs.C74_frct_partial",
    "Ouro.RibDocs.C74_frct_size_violated",
    "Ouro.RibDocs.C74_info_partial",
    "Ouro.RibDocs.C74_info_layer_violated",
    "Ouro.RibDocs.C74_info_unknown_violated"
   ],
   "note": "Documents of dt, fa, link-state, FRCT and info: contents, sizes and buffers proved; the full statement fails (buffers of the announced size, long addresses and sequence numbers, unchecked file names, a missing flow in the listing, a wrong counter, uninitialised text), each shown."
  },
  {
   "property": "C75",
   "status": "partial",
   "theorems": [
    "Ouro.Locks.C75_no_deadlock_partial",
    "Ouro.Locks.C75_independent_partial",
    "Ouro.Locks.C75_waits_without_locks_partial",
    "Ouro.Locks.C75_statistics_violated",
    "Ouro.Locks.C75_full_flow_violated",
    "Ouro.Locks.C75_forwarding_violated",
    "Ouro.Locks.C75_nonblocking_write_violated",
    "Ouro.Locks.C75_nonblocking_read_violated",
    "Ouro.Locks.C75_dealloc_violated"
   ],
   "note": "Proved for any number of threads, any calls of the library and any schedule: without reads of the statistics of FRCT flows every unfinished thread can go on, waits for another process, or waits (through a chain of locks) for a thread that does; and calls that send nothing while they hold a lock are never held up by the waits of other threads. Violated: reading the statistics of an FRCT flow can deadlock with the allocation of a flow; a full flow, a retransmission, an acknowledgement or a deallocation stops all other flows of the process."
  },
  {
   "property": "C76",
   "status": "partial",
   "theorems": [
    "Ouro.Unicast.C76_isolation_partial",
    "Ouro.Unicast.C76_one_peer_partial",
    "Ouro.Unicast.C76_one_sender_partial",
    "Ouro.Unicast.C76_no_crash_partial",
    "Ouro.Unicast.C76_told_partial",
    "Ouro.Unicast.C76_awaited_partial",
    "Ouro.Unicast.C76_late_write_violated",
    "Ouro.Unicast.C76_late_send_violated",
    "Ouro.Unicast.C76_crash_violated",
    "Ouro.Unicast.C76_repeated_id_violated",
    "Ouro.Unicast.C76_quick_reply_violated",
    "Ouro.Unicast.C76_quick_response_violated",
    "Ouro.Unicast.C76_duplicate_violated",
    "Ouro.Unicast.C76_failed_alloc_violated"
   ],
   "note": "Proved for all members, next hops, losses, duplicates and interleavings when endpoint ids are not drawn twice and flows are not deallocated under the hands of the threads that serve them; without these conditions the code violates the property (runs given). Names, QoS and piggybacked data of requests are not modelled."
  },
  {
   "property": "C77",
   "status": "partial",
   "theorems": [
    "Ouro.Startup.C77_components_partial",
    "Ouro.Startup.C77_array",
    "Ouro.Startup.C77_bootstrap_partial",
    "Ouro.Startup.C77_enrol_partial",
    "Ouro.Startup.C77_once_partial",
    "Ouro.Startup.C77_retry_violated",
    "Ouro.Startup.C77_listener_violated",
    "Ouro.Startup.C77_directory_violated",
    "Ouro.Startup.C77_directory_partial",
    "Ouro.Startup.C77_directory_start",
    "Ouro.Startup.C77_allocator_violated",
    "Ouro.Startup.C77_allocator_partial",
    "Ouro.Startup.C77_transfer_violated",
    "Ouro.Startup.C77_transfer_partial",
    "Ouro.Startup.C77_life_partial",
    "Ouro.Startup.C77_idle",
    "Ouro.Startup.C77_ipcp_partial",
    "Ouro.Startup.C77_socket_violated",
    "Ouro.Startup.C77_pool_violated",
    "Ouro.Startup.C77_broadcast_violated",
    "Ouro.Startup.C77_broadcast_partial",
    "Ouro.Startup.C77_daemon_violated",
    "Ouro.Startup.C77_daemon_partial",
    "Ouro.Startup.C77_library_partial",
    "Ouro.Startup.C77_library_violated",
    "Ouro.Startup.C77_flow_partial"
   ],
   "note": "All or nothing proved for nineteen components and for arrays of every length, for every pattern of failing calls and every surrounding state. The bootstrap, enrolment, IPCP, daemon and library starts leave at most the resources listed; the violated theorems show those do stay, that a failed bootstrap can make every later one fail, and that a failed ipcp_start ends its thread pool twice. Missing: full all-or-nothing of those starts (false of the code), what running threads do meanwhile."
  },
  {
   "property": "C78",
   "status": "partial",
   "theorems": [
    "Ouro.Cep.C78_roundtrip_partial",
    "Ouro.Cep.C78_fits",
    "Ouro.Cep.C78_extend",
    "Ouro.Cep.C78_safe",
    "Ouro.Cep.C78_received",
    "Ouro.Cep.C78_unchecked_violated",
    "Ouro.Cep.C78_long_violated",
    "Ouro.Cep.C78_connect_partial",
    "Ouro.Cep.C78_agree_violated",
    "Ouro.Cep.C78_refusal_violated"
   ],
   "note": "Exchange, lookup and comparison proved for all information that fits the receiver's buffer and for all packets; violated: longer information is refused, the acceptor ignores the protocol, and a broadcast layer takes a refusal for an answer."
  },
  {
   "property": "C79",
   "status": "partial",
   "theorems": [
    "Ouro.IrmTool.C79_pattern_sound",
    "Ouro.IrmTool.C79_pattern_partial",
    "Ouro.IrmTool.C79_pattern_violated",
    "Ouro.IrmTool.C79_abbreviation",
    "Ouro.IrmTool.C79_full",
    "Ouro.IrmTool.C79_ambiguous_violated",
    "Ouro.IrmTool.C79_list_violated",
    "Ouro.IrmTool.C79_register_partial",
    "Ouro.IrmTool.C79_register_only",
    "Ouro.IrmTool.C79_twice_violated",
    "Ouro.IrmTool.C79_many_violated",
    "Ouro.IrmTool.C79_free_violated",
    "Ouro.IrmTool.C79_missing_violated",
    "Ouro.IrmTool.C79_unregister_partial",
    "Ouro.IrmTool.C79_unregister_violated",
    "Ouro.IrmTool.C79_destroy_partial",
    "Ouro.IrmTool.C79_nobody_violated",
    "Ouro.IrmTool.C79_bind_partial",
    "Ouro.IrmTool.C79_connect_partial",
    "Ouro.IrmTool.C79_filter_violated"
   ],
   "note": "Patterns, abbreviations and the calls made by register, unregister, destroy, bind ipcp, connect and disconnect are proved for every command line and every list. Partial: patterns with two stars in a row, unregistering by pattern, ambiguous abbreviations, more than 128 words, names of 255 characters, a name that cannot be created and names that nobody has do not behave as documented; each is proved as a violation. Not modelled: bootstrap and enroll beyond their option tables, and the output."
  },
  {
   "property": "C80",
   "status": "partial",
   "theorems": [
    "Ouro.Config.C80_keys",
    "Ouro.Config.C80_words",
    "Ouro.Config.C80_congestion_violated",
    "Ouro.Config.C80_unicast_partial",
    "Ouro.Config.C80_cut_violated",
    "Ouro.Config.C80_ethertype_partial",
    "Ouro.Config.C80_ethertype_violated",
    "Ouro.Config.C80_udp_partial",
    "Ouro.Config.C80_dns_violated",
    "Ouro.Config.C80_hash_violated",
    "Ouro.Config.C80_others",
    "Ouro.Config.C80_argv",
    "Ouro.Config.C80_split",
    "Ouro.Config.C80_load_partial",
    "Ouro.Config.C80_stop",
    "Ouro.Config.C80_prefix",
    "Ouro.Config.C80_safe_partial",
    "Ouro.Config.C80_null_violated",
    "Ouro.Config.C80_long_violated",
    "Ouro.Config.C80_autobind_violated",
    "Ouro.Config.C80_conn_violated",
    "Ouro.Config.C80_unknown",
    "Ouro.Config.C80_udp_violated",
    "Ouro.Config.C80_policy_violated"
   ],
   "note": "Options, words of arguments, the calls made for a file, stopping at the first failure and safety are proved for every table. Partial: congestion, numbers that do not fit, invalid DNS servers, the hash of UDP and broadcast IPCPs, autobind=false, conn of bootstrapped IPCPs, eth-udp, the policy of names registered before, values that are not tables and long names do not behave as documented; each is proved as a violation. Not modelled: the TOML parser, inet_pton."
  },
  {
   "property": "C81",
   "status": "partial",
   "theorems": [
    "Ouro.RbuffLl.C81_fifo_partial",
    "Ouro.RbuffLl.C81_bounded",
    "Ouro.RbuffLl.C81_read",
    "Ouro.RbuffLl.C81_write",
    "Ouro.RbuffLl.C81_full",
    "Ouro.RbuffLl.C81_empty",
    "Ouro.RbuffLl.C81_two_writers_violated",
    "Ouro.RbuffLl.C81_two_readers_violated",
    "Ouro.RbuffLl.C81_wakeup_violated"
   ],
   "note": "Proved for one writer and one reader in every schedule and for every size: FIFO, nothing lost or made up, refused only when full, empty only when all was read. Violated with two writers (a value lost, a stale one read), with two readers (more read than written, the ring then counts as full), and for blocking reads (sleep for ever beside a value). Not modelled: access rights, shm_rbuff_write_b, weak memory."
  },
  {
   "property": "C82",
   "status": "partial",
   "theorems": [
    "Ouro.SerdesIrm.C82_wire",
    "Ouro.SerdesIrm.C82_request_partial",
    "Ouro.SerdesIrm.C82_outcome",
    "Ouro.SerdesIrm.C82_fits",
    "Ouro.SerdesIrm.C82_caller_memory_partial",
    "Ouro.SerdesIrm.C82_caller_memory_violated",
    "Ouro.SerdesIrm.C82_result",
    "Ouro.SerdesIrm.C82_plain_result",
    "Ouro.SerdesIrm.C82_garbage",
    "Ouro.SerdesIrm.C82_exchange_partial",
    "Ouro.SerdesIrm.C82_socket",
    "Ouro.SerdesIrm.C82_overflow_violated",
    "Ouro.SerdesIrm.C82_irm_partial"
   ],
   "note": "Proved on the bytes of the wire format: round trip of all messages, all ten requests, all answers, the whole exchange, bounds of the buffers. Missing: an MPL that does not fit 32 bits is changed (C47); answers of more than 10240 bytes are cut. Violated: two requests free memory of their caller when they do not fit, and send_recv_irm_msg packs outside its array."
  },
  {
   "property": "C83",
   "status": "partial",
   "theorems": [
    "Ouro.Oping.C83_counts",
    "Ouro.Oping.C83_mean",
    "Ouro.Oping.C83_extremes",
    "Ouro.Oping.C83_rtt",
    "Ouro.Oping.C83_received_partial",
    "Ouro.Oping.C83_received_violated",
    "Ouro.Oping.C83_loss_partial",
    "Ouro.Oping.C83_loss_violated",
    "Ouro.Oping.C83_sent_partial",
    "Ouro.Oping.C83_sent_violated",
    "Ouro.Oping.C83_size",
    "Ouro.Oping.C83_duration_partial",
    "Ouro.Oping.C83_duration_violated",
    "Ouro.Oping.C83_echo_partial",
    "Ouro.Oping.C83_flows_violated"
   ],
   "note": "The counts, mean, deviation, extremes, packet sizes and echo are proved for every sequence of events, in rational arithmetic. Violated: duplicates count as received, the loss is rounded up to 100 %, a failed write counts as sent, the duration with an interval over 10 s, and a server with more than 192 flows writes outside its array. Not covered: floating point rounding, the cleaner thread."
  },
  {
   "property": "C84",
   "status": "partial",
   "theorems": [
    "Ouro.Ocbr.C84_once",
    "Ouro.Ocbr.C84_limit",
    "Ouro.Ocbr.C84_handed_over",
    "Ouro.Ocbr.C84_served_partial",
    "Ouro.Ocbr.C84_served_violated",
    "Ouro.Ocbr.C84_progress_partial",
    "Ouro.Ocbr.C84_progress_violated",
    "Ouro.Ocbr.C84_report",
    "Ouro.Ocbr.C84_interval",
    "Ouro.Ocbr.C84_timeout"
   ],
   "note": "For all interleavings: at most once, at most ten, hand-over, and the reports, their times and the end of a test. That every accepted flow is handled and that the server keeps accepting is proved for runs in which a worker takes each flow before the next is accepted; otherwise it is violated: a flow is lost for good, and the server can deadlock."
  },
  {
   "property": "C85",
   "status": "partial",
   "theorems": [
    "Ouro.IrmEnroll.C85_only",
    "Ouro.IrmEnroll.C85_enroll_partial",
    "Ouro.IrmEnroll.C85_create_partial",
    "Ouro.IrmEnroll.C85_pattern_violated",
    "Ouro.IrmEnroll.C85_layer_violated",
    "Ouro.IrmEnroll.C85_same_name_violated",
    "Ouro.IrmEnroll.C85_undo_partial",
    "Ouro.IrmEnroll.C85_undo_violated",
    "Ouro.IrmEnroll.C85_bootstrap"
   ],
   "note": "For all daemons with plain, distinct IPCP names: only the IPCP meant is touched, success means it is enrolled in the layer asked for and bound, a missing one is created, a failed bootstrap is undone. Violated: patterns (swapped arguments), a wrong layer is noticed after enrolment, two IPCPs of one name, and undoing removes earlier bindings."
  },
  {
   "property": "C86",
   "status": "partial",
   "theorems": [
    "Ouro.Operf.C86_received",
    "Ouro.Operf.C86_sent",
    "Ouro.Operf.C86_loss_partial",
    "Ouro.Operf.C86_loss_violated",
    "Ouro.Operf.C86_served_partial",
    "Ouro.Operf.C86_served_violated",
    "Ouro.Operf.C86_length_violated",
    "Ouro.Operf.C86_flows_violated"
   ],
   "note": "Counting and the loss of the client are proved; that every well-behaved client below descriptor 256 is served is proved. Violated: one silent or short client ends accepting, the length check never fails on a longer message, descriptors from 256 on are out of bounds, duplicated replies give a negative loss. Timing, the cleaner and the echoing thread are not modelled."
  },
  {
   "property": "C87",
   "status": "partial",
   "theorems": [
    "Ouro.Operf.C87_mask_partial",
    "Ouro.Operf.C87_mask_violated"
   ],
   "note": "For all 2^32 masks: exactly the prefixes of ones are taken, except the one of length 32, which stands for no mask given."
  }
 ]
}