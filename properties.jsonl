{"id": "C01", "title": "Identifier allocator never hands out an id twice", "statement": "bmp_allocate returns the smallest identifier of [offset, offset+size) that is not currently held, and returns offset-1 exactly when every identifier is held; an id that was returned is held until it is passed to bmp_release, and bmp_is_id_used agrees with the set of held ids. bmp_release of an id outside the range fails and changes nothing.", "quantifier": "every table size and offset, every history of create/allocate/release/is_used calls", "why_tests_cant": "Flow ids, flow descriptors and message cookies all come from this allocator; the unit test fills one fixed-size table once, whereas double allocation depends on word boundaries and arbitrary release orders.", "anchors": ["src/lib/bitmap.c: bmp_create, bmp_allocate, bmp_release, bmp_is_id_valid, bmp_is_id_used"]}
{"id": "C02", "title": "The packet ring is a bounded FIFO queue", "statement": "Packets indices written to a flow's ring are read back in the order they were written, each exactly once, with none invented; a write fails with -EAGAIN exactly when size-1 indices are queued, a read fails when none is queued, and queued() reports the number of unread writes.", "quantifier": "every ring size that is a power of two, every history of non-blocking writes and reads, any head/tail position including wrap-around", "why_tests_cant": "The unit test writes and drains a few patterns; FIFO order and conservation must hold for all interleavings and all positions of the wrap point.", "anchors": ["src/lib/shm_rbuff.c", "src/lib/shm_rbuff_pthr.c: shm_rbuff_write, shm_rbuff_read, shm_rbuff_queued"]}
{"id": "C03", "title": "A successful ring write is never lost, whatever access changes happen meanwhile", "statement": "If shm_rbuff_write or shm_rbuff_write_b returns 0 the index is in the queue behind all indices already queued; if it returns an error the queue is unchanged; already queued indices are never dropped by a write. Errors are -ENOTALLOC for a read-only ring, -EFLOWDOWN for a ring marked down.", "quantifier": "every ring state, every access-control word, every sequence of set_acl/read calls that other processes perform while a writer is blocked", "why_tests_cant": "Depends on what happens while the writer sleeps on the condition variable, which a test does not control.", "anchors": ["src/lib/shm_rbuff_pthr.c: shm_rbuff_write, shm_rbuff_write_b, shm_rbuff_set_acl, shm_rbuff_get_acl"]}
{"id": "C04", "title": "Shared packet memory: live buffers never overlap", "statement": "Two packet buffers that are both allocated and not yet released occupy disjoint memory, each lies inside the pool, its payload area has at least the requested length plus head and tail space, and get(idx) on a live buffer returns that buffer until it is released by all its holders.", "quantifier": "every pool size, every request size, every history of alloc/read/release/reference operations", "why_tests_cant": "Overlap needs particular fill levels and release orders around the end of the ring; the shared pool is used by all processes of the machine.", "anchors": ["src/lib/shm_rdrbuff.c: shm_rdrbuff_alloc, shm_rdrbuff_remove, garbage_collect, shm_rdrbuff_get, shm_du_buff_ref_inc"]}
{"id": "C05", "title": "Header push/pop on a packet buffer preserves the payload and stays in bounds", "statement": "shm_du_buff_head_alloc(n) followed by head_release(n) (same for tail) restores the buffer; the visible bytes between head and tail are never altered by head/tail moves; an allocation that would leave the reserved space fails and changes nothing; head never passes tail.", "quantifier": "every buffer geometry and every sequence of head/tail alloc/release/truncate calls within their preconditions", "why_tests_cant": "Protocol layers push and pop headers in arbitrary nesting; bound errors corrupt neighbouring packets.", "anchors": ["src/lib/shm_rdrbuff.c: shm_du_buff_head, shm_du_buff_tail, shm_du_buff_len, shm_du_buff_head_alloc, shm_du_buff_tail_alloc, shm_du_buff_head_release, shm_du_buff_tail_release, shm_du_buff_truncate"]}
{"id": "C06", "title": "CRC-32 is the standard CRC, composes over chunks and detects burst errors", "statement": "crc32 computes the reflected 0xEDB88320 CRC of its input bit by bit; feeding the data in any chunking gives the same value; two equally long messages that differ only within a window of at most 32 consecutive bits always have different checksums.", "quantifier": "every byte string, every chunking, every pair of messages", "why_tests_cant": "The test vectors are four fixed strings; error detection is a statement about all pairs of messages.", "anchors": ["src/lib/crc32.c: crc32, crc32_table", "src/lib/dev.c: add_crc, chk_crc"]}
{"id": "C07", "title": "Hashing in pieces equals hashing at once", "statement": "The SHA-3 and MD5 digests of a message do not depend on how the message is split over successive update calls.", "quantifier": "every message and every chunking", "why_tests_cant": "Chunk boundaries interact with the internal block buffer in ways a few test strings cannot exhaust.", "anchors": ["src/lib/sha3.c: rhash_sha3_update, rhash_sha3_final", "src/lib/md5.c: rhash_md5_update, rhash_md5_final"]}
{"id": "C08", "title": "Linked list primitives implement sequences", "statement": "list_add inserts directly after the given node, list_add_tail directly before it, list_del removes exactly that node and leaves the rest in order, list_move moves exactly one node, list_is_empty is true exactly for an empty list; no primitive disturbs any other list.", "quantifier": "every well-formed circular list of any length, every node position, and other disjoint lists in the same heap", "why_tests_cant": "Everything in the code base is stored in these intrusive lists; pointer updates have to be right for all aliasing patterns.", "anchors": ["src/lib/list.c: list_add, list_add_tail, list_del, list_move, list_is_empty, list_head_init"]}
{"id": "C09", "title": "Reliable flow: delivered packets are the sent packets, in order, without duplicates", "statement": "On a flow with retransmission, the sequence of packets handed to the reading application is always a prefix of the sequence accepted from the writing application, whatever the network drops, duplicates or reorders within its packet lifetime.", "quantifier": "every sequence of sends, every network behaviour (loss, duplication, reordering bounded by the receive queue), every length of run including sequence number wrap-around", "why_tests_cant": "Requires reasoning about all interleavings of loss, reordering and retransmission, and about the 32-bit wrap.", "anchors": ["src/lib/frct.c: __frcti_snd, __frcti_rcv, __frcti_queued_pdu, __frcti_pdu_ready"]}
{"id": "C10", "title": "Sequence numbers compare correctly across wrap-around", "statement": "before(a,b) holds exactly when b is ahead of a by less than half the sequence number space; it is irreflexive and asymmetric, total except at the antipode, shift invariant, and transitive within half a window.", "quantifier": "all 2^32 x 2^32 pairs", "why_tests_cant": "2^64 pairs cannot be enumerated.", "anchors": ["src/lib/frct.c: before, after"]}
{"id": "C11", "title": "Flow control: a sender never has more packets in flight than the window allows", "statement": "is_window_open is true exactly when the next sequence number lies before the right window edge (or flow control is off); the right window edge announced by the receiver only moves forward while the connection lives, and a packet outside the receive window is not queued.", "quantifier": "every state of the sender and receiver windows, every acknowledgement sequence", "why_tests_cant": "Window arithmetic is modulo 2^32 with 24-bit truncation on the wire.", "anchors": ["src/lib/frct.c: __frcti_is_window_open, __frcti_window_wait, __frcti_rcv"]}
{"id": "C12", "title": "The B-tree behaves as an ordered map", "statement": "btree_insert, btree_remove and btree_search implement a finite map from 32-bit keys to values: search returns the value most recently inserted under the key and not removed since, inserting an existing key fails, removing a missing key fails.", "quantifier": "every order k, every key set, every history of inserts, removes and searches", "why_tests_cant": "The unit test inserts random keys and searches them; rebalancing bugs need specific node shapes.", "anchors": ["src/lib/btree.c: btree_insert, btree_remove, btree_search"]}
{"id": "C13", "title": "Time arithmetic keeps timestamps normalised and exact", "statement": "ts_add and ts_diff return a normalised timestamp whose nanosecond value is the exact sum or difference; ts_diff_ns/us/ms agree with the exact difference truncated to the unit; the tv_* variants agree likewise.", "quantifier": "all normalised timestamps", "why_tests_cant": "Carry and borrow cases over an infinite range; timeouts in every component rely on it.", "anchors": ["include/ouroboros/time.h: ts_add, ts_diff, tv_add, tv_diff, ts_diff_ns, ts_diff_us, ts_diff_ms, tv_diff_us, tv_diff_ms"]}
{"id": "C14", "title": "Event notifier calls every registered handler exactly once, in registration order", "statement": "notifier_event invokes each currently registered callback exactly once with the given event, in registration order; registering a callback twice fails and changes nothing; after unregistering it is not called.", "quantifier": "every history of register/unregister/event calls", "why_tests_cant": "Routing, forwarding and connection state are all synchronised through this notifier; must hold for every registration history.", "anchors": ["src/lib/notifier.c: notifier_event, notifier_reg, notifier_unreg"]}
{"id": "C15", "title": "Thread pool keeps enough idle workers and accounts for every thread", "statement": "The pool's counters satisfy current = number of live threads and working <= current; after each management round at least the configured minimum of threads is idle or creation failed; a worker is told to exit only when more than the minimum are idle.", "quantifier": "every interleaving of worker start/finish and manager rounds", "why_tests_cant": "Schedules of an arbitrary number of threads cannot be enumerated by tests.", "anchors": ["src/lib/tpm.c: tpm_dec, tpm_inc, tpm_join, tpm_kill, tpmgr"]}
{"id": "C16", "title": "flow_read returns datagrams piecewise and completely", "statement": "Successive flow_read calls return the bytes of one datagram in order and completely before any byte of the next datagram; with partial reads enabled a datagram longer than the buffer is delivered over several calls, ended by a call returning fewer bytes than asked (possibly 0); with partial reads disabled a too long datagram yields -EMSGSIZE.", "quantifier": "every sequence of datagrams and every sequence of buffer sizes and flags", "why_tests_cant": "The man page promises this for all lengths; there is no unit test for it.", "anchors": ["src/lib/dev.c: flow_read", "doc/man/flow_read.3"]}
{"id": "C17", "title": "flow_write reports success only for packets that were queued", "statement": "flow_write returns a positive count only if the packet was put in the flow's transmit ring (or handed to the reliability layer); it returns -EFLOWDOWN/-ENOTALLOC/-EAGAIN/-EPERM otherwise, and no packet memory is leaked on any path.", "quantifier": "every flow state, flags and ring state", "why_tests_cant": "Error paths depend on ring and access state at the moment of the write.", "anchors": ["src/lib/dev.c: flow_write, flow_tx_sdb"]}
{"id": "C18", "title": "fccntl gets back what it set", "statement": "After a successful FLOWSFLAGS the flags read by FLOWGFLAGS are those set (modulo the peer state bit); the access mode governs flow_read and flow_write (-EPERM); timeouts set are the timeouts read; unknown commands return -ENOTSUP; invalid descriptors -EBADF.", "quantifier": "every flag word, every fd value, every history of fccntl calls", "why_tests_cant": "2^32 flag words times histories.", "anchors": ["src/lib/dev.c: fccntl, flow_read, flow_write", "doc/man/fccntl.3"]}
{"id": "C19", "title": "A flow descriptor is in at most one flow set; membership is what was added", "statement": "fset_has(set, fd) is true exactly if fd was added to set and neither removed, zeroed nor deallocated since; fset_add of an fd that is in another set returns -EPERM and changes nothing; invalid descriptors are rejected.", "quantifier": "every history of fset_create/add/del/zero/destroy and all fd values", "why_tests_cant": "Histories over many sets and descriptors.", "anchors": ["src/lib/dev.c: fset_add, fset_del, fset_has, fset_zero", "src/lib/shm_flow_set.c: shm_flow_set_add, shm_flow_set_del, shm_flow_set_has, shm_flow_set_zero"]}
{"id": "C20", "title": "Events are delivered to the set that holds the flow, in order, none lost", "statement": "Each notification for a flow in a set appears exactly once in the event queue returned by a later fevent on that set, in notification order; notifications for flows that are in no set are discarded; removing a flow from a set removes its undelivered events.", "quantifier": "every history of add/del/notify/fevent operations", "why_tests_cant": "Depends on interleavings of notifying processes and waiting threads.", "anchors": ["src/lib/shm_flow_set.c: shm_flow_set_notify, shm_flow_set_wait, shm_flow_set_del", "src/lib/dev.c: fevent, fqueue_next, fqueue_type"]}
{"id": "C21", "title": "Flow identifiers are unique and every flow follows the legal life cycle", "statement": "Two flows that exist in the daemon at the same time have different ids in [1, SYS_MAX_FLOWS); a flow goes from created to accept-pending or alloc-pending, then to allocated, then deallocated, never backwards, and its packet rings exist exactly while it is alloc-pending or allocated.", "quantifier": "every history of registry operations by any number of client processes", "why_tests_cant": "Needs an invariant over all operation histories of the daemon.", "anchors": ["src/irmd/reg/flow.c: reg_flow_update", "src/irmd/reg/reg.c: reg_create_flow, reg_destroy_flow, reg_prepare_flow_alloc, reg_respond_alloc, reg_prepare_flow_accept, reg_respond_accept, reg_dealloc_flow, reg_dealloc_flow_resp"]}
{"id": "C22", "title": "Registry containers behave like finite maps keyed by name, pid and id", "statement": "After create_X(key) and until destroy_X(key), has_X(key) is true and lookups return that entry and no other; creating an existing key fails (or is a no-op where documented) without altering anything; destroying a missing key fails; counters equal the number of entries.", "quantifier": "every history of create/destroy/lookup on flows, processes, programs, names and IPCPs", "why_tests_cant": "Histories of unbounded length and arbitrary key orders.", "anchors": ["src/irmd/reg/reg.c: reg_create_*, reg_destroy_*, reg_has_*, reg_get_ipcp, reg_list_names, reg_list_ipcps"]}
{"id": "C23", "title": "Incoming flows are balanced over accepting processes by the name's policy", "statement": "For a round-robin name requests are handed to accepting processes in the order in which they started accepting; for a spill-over name to the one that started last; a process that is not accepting or was unbound is never selected.", "quantifier": "every history of accept/leave/unbind events on a name", "why_tests_cant": "Fairness is a statement about all histories.", "anchors": ["src/irmd/reg/name.c: reg_name_add_active, reg_name_del_active, reg_name_get_active, reg_name_add_proc, reg_name_del_proc"]}
{"id": "C24", "title": "Binding is what the administrator configured", "statement": "After bind(program, name) a process of that program started later accepts flows for the name; unbind removes exactly that association; binding a process or program twice is harmless; destroying a name removes all its bindings.", "quantifier": "every history of bind/unbind/create/destroy of names, programs and processes", "why_tests_cant": "The relation has to stay symmetric in three tables under all operation orders.", "anchors": ["src/irmd/reg/reg.c: reg_bind_prog, reg_unbind_prog, reg_bind_proc, reg_unbind_proc, reg_create_proc, reg_destroy_proc, reg_destroy_name", "src/irmd/reg/proc.c", "src/irmd/reg/prog.c", "src/irmd/reg/name.c"]}
{"id": "C25", "title": "A dying process leaves no pending flow behind", "statement": "When a process exits, every flow it had pending is cancelled and its waiting counterpart is released; flows of other processes are untouched; its resources (ids, rings) become reusable.", "quantifier": "every registry state and every crash point of a client process", "why_tests_cant": "Crash points cannot be enumerated.", "anchors": ["src/irmd/reg/reg.c: reg_destroy_proc, __reg_cancel_flows_for_proc", "src/irmd/main.c: proc_exit, irm_sanitize"]}
{"id": "C26", "title": "The forwarding table is a finite map", "statement": "pft_lookup(dst) returns the next hops most recently inserted for dst and not deleted or flushed since; inserting an existing destination fails with -EPERM; deleting a missing one fails; the bucket count is the least power of two not below the request.", "quantifier": "every requested bucket count, hash/direct keying, every history of insert/delete/lookup/flush and every address", "why_tests_cant": "Collision chains depend on all addresses inserted.", "anchors": ["src/ipcpd/unicast/pff/pft.c: pft_create, pft_insert, pft_lookup, pft_delete, pft_flush, calc_key"]}
{"id": "C27", "title": "Forwarding functions return a configured next hop", "statement": "pff_nhop(dst) returns -1 exactly if no next hop is configured for dst; simple returns the configured one; multipath cycles through all configured next hops fairly; alternate returns the primary while it is up, else the first alternate that is up.", "quantifier": "every history of add/update/del/flush/flow-state-change and lookups", "why_tests_cant": "Round-robin fairness and failover are statements about all histories.", "anchors": ["src/ipcpd/unicast/pff/simple.c", "src/ipcpd/unicast/pff/multipath.c", "src/ipcpd/unicast/pff/alternate.c"]}
{"id": "C28", "title": "Routing computes shortest paths and next hops lie on them", "statement": "The routing table gives, for every node reachable over links confirmed by both ends, a next hop that is a neighbour of the source on a shortest path to it, and no entry for unreachable nodes.", "quantifier": "every topology, every source, every history of link updates and deletions", "why_tests_cant": "All graphs of all sizes.", "anchors": ["src/ipcpd/unicast/routing/graph.c: graph_update_edge, graph_del_edge, dijkstra, graph_routing_table_simple, graph_routing_table"]}
{"id": "C29", "title": "Hop-by-hop forwarding with consistent tables reaches the destination without loops", "statement": "If every node computes its table from the same topology, a packet forwarded hop by hop to a reachable destination arrives after exactly the shortest-path number of hops, for the simple and for the equal-cost multipath policy (any of the listed next hops).", "quantifier": "every topology, source, destination, and every choice among the equal cost next hops", "why_tests_cant": "Loop freedom is a global property of all tables.", "anchors": ["src/ipcpd/unicast/routing/graph.c: dijkstra, graph_routing_table_simple, graph_routing_table_ecmp"]}
{"id": "C30", "title": "Loop-free alternates do not loop back", "statement": "Each alternate next hop n listed for destination d at source s satisfies dist(n,d) < dist(n,s) + dist(s,d) over usable links and is a neighbour of s over a usable link.", "quantifier": "every topology, source and destination", "why_tests_cant": "All graphs.", "anchors": ["src/ipcpd/unicast/routing/graph.c: graph_routing_table_lfa"]}
{"id": "C31", "title": "The routing graph mirrors the link-state database", "statement": "At any time the graph contains an edge between two nodes exactly if the link-state database holds an announcement from at least one side, and the edge is usable exactly if both sides announced it.", "quantifier": "every history of received updates, local link events and expirations", "why_tests_cant": "Two data structures have to stay in step over all histories.", "anchors": ["src/ipcpd/unicast/routing/link-state.c: lsdb_add_link, lsdb_del_link, lsupdate", "src/ipcpd/unicast/routing/graph.c: graph_update_edge, graph_del_edge"]}
{"id": "C32", "title": "Link-state flooding terminates and the newest announcement wins", "statement": "A node forwards a given announcement (source, destination, sequence number) at most once while it is stored, so flooding over any topology stops; after any arrival order the stored sequence number is the largest received since the entry was created.", "quantifier": "every arrival order, duplication and loss of announcements", "why_tests_cant": "All arrival orders in all topologies.", "anchors": ["src/ipcpd/unicast/routing/link-state.c: lsdb_add_link, lsreader, forward_lsm"]}
{"id": "C33", "title": "Data transfer header round-trips", "statement": "Deserialising a serialised data-transfer header yields the same destination address, QoS cube, ECN mark and endpoint id and a TTL one lower, leaves the payload untouched, for every address that fits the configured address size.", "quantifier": "all header field values, all supported address sizes", "why_tests_cant": "Field value space is 2^100.", "anchors": ["src/ipcpd/unicast/dt.c: dt_pci_ser, dt_pci_des, dt_pci_shrink"]}
{"id": "C34", "title": "Packets cannot circulate forever", "statement": "A packet sent with TTL m is relayed by at most m-1 nodes whatever the forwarding tables are (including loops), and is dropped at the hop where its TTL reaches zero.", "quantifier": "every set of forwarding tables and every TTL", "why_tests_cant": "All loop shapes.", "anchors": ["src/ipcpd/unicast/dt.c: dt_pci_des, packet_handler"]}
{"id": "C35", "title": "Flow endpoints are not confused", "statement": "Endpoint ids of simultaneously allocated flows differ; a packet carrying an endpoint id is delivered to the flow that owns it and to no other; a packet for an id whose flow was deallocated is dropped.", "quantifier": "every history of flow allocations and deallocations, every 64-bit endpoint id received from the network", "why_tests_cant": "Adversarial/late packets with arbitrary ids.", "anchors": ["src/ipcpd/unicast/fa.c: gen_eid, eid_to_fd, fa_flow_init, fa_flow_fini, fa_np1_rcv, fa_handle_flow_reply, fa_handle_flow_update"]}
{"id": "C36", "title": "Congestion control state stays within its range", "statement": "The receiver's congestion estimate never overflows its 16-bit field; the sender's window arithmetic never wraps below zero, and the scaling loops terminate.", "quantifier": "every sequence of packets, marks and received congestion updates", "why_tests_cant": "All input sequences; arithmetic in fixed width.", "anchors": ["src/ipcpd/unicast/ca/mb-ecn.c: mb_ecn_ctx_update_snd, mb_ecn_ctx_update_rcv, mb_ecn_ctx_update_ece, mb_ecn_calc_ecn"]}
{"id": "C37", "title": "Local flows are isolated", "statement": "A packet written on one end of a local flow is delivered to the other end of the same flow and to nobody else; after an end is deallocated nothing written by the former peer reaches a flow allocated later.", "quantifier": "every history of local flow allocations, responses, deallocations and packets, including descriptor reuse", "why_tests_cant": "Needs descriptor reuse histories.", "anchors": ["src/ipcpd/local/main.c: local_ipcp_flow_alloc, local_ipcp_flow_alloc_resp, local_ipcp_flow_dealloc, local_ipcp_packet_loop"]}
{"id": "C38", "title": "Broadcast layer forwards to every other neighbour exactly once", "statement": "A packet arriving from one neighbour is written once to every other neighbour and never back; on a tree of broadcast processes every member receives exactly one copy.", "quantifier": "every history of neighbour additions and deletions; every tree", "why_tests_cant": "All neighbour sets and tree shapes.", "anchors": ["src/ipcpd/broadcast/dt.c: dt_add_nb, dt_del_nb, dt_packet"]}
{"id": "C39", "title": "Layer registry and directory of shim processes behave as sets", "statement": "A name is registered exactly if it was registered and not unregistered since; registering twice equals registering once; the directory maps a name to an address that was added and not deleted; a pending query is answered at most once and never blocks the responder forever.", "quantifier": "every history of registry/directory operations and every interleaving of a querier, a responder and a destroyer", "why_tests_cant": "Interleavings of the three parties.", "anchors": ["src/ipcpd/shim-data.c"]}
{"id": "C40", "title": "One pending incoming flow at a time, and every response unblocks the next", "statement": "Between an incoming flow request and the response for it no other incoming request is handed to the daemon by the same IPCP; after a response (positive or negative) the next request can proceed.", "quantifier": "every interleaving of request-arrival and response threads", "why_tests_cant": "Thread schedules.", "anchors": ["src/ipcpd/ipcp.c: ipcp_wait_flow_req_arr, ipcp_wait_flow_resp, do_flow_alloc_resp"]}
{"id": "C41", "title": "An IPCP obeys its life cycle", "statement": "Bootstrap and enrolment are accepted only in the initial state and make the process operational exactly on success; flow operations are accepted only while operational; other commands are answered with -EIPCPSTATE or -ENOTSUP and have no effect.", "quantifier": "every sequence of commands and every outcome of the underlying operations", "why_tests_cant": "All command sequences.", "anchors": ["src/ipcpd/ipcp.c: do_bootstrap, do_enroll, do_query, do_flow_alloc, do_flow_join, do_flow_alloc_resp, do_flow_dealloc, mainloop"]}
{"id": "C42", "title": "Directory (DHT) storage returns only addresses that were stored and have not expired", "statement": "A lookup in a node's local DHT storage returns an address that was stored for that key, not deleted and not expired; storing twice does not duplicate; unregistering removes the own address and only that.", "quantifier": "every history of store/delete/expire/lookup", "why_tests_cant": "Expiry histories.", "anchors": ["src/ipcpd/unicast/dir/dht.c: kad_add, dht_entry_add_addr, dht_entry_del_addr, dht_del, dht_retrieve, work"]}
{"id": "C43", "title": "DHT lookups converge on the nodes closest to the key", "statement": "The contact list of a lookup holds at most k distinct contacts and after merging a response these are the k closest among those seen; a contact is stored in the bucket in which it is looked up.", "quantifier": "every sequence of responses, all ids", "why_tests_cant": "All id distributions.", "anchors": ["src/ipcpd/unicast/dir/dht.c: list_add_sorted, lookup_update, iter_bucket, bucket_has_id, split_bucket, dht_update_bucket"]}
{"id": "C44", "title": "Retransmission timers fire, and not early", "statement": "An unacknowledged packet scheduled on the timer wheel is examined no earlier than its timeout and, if the wheel is turned regularly, within one slot resolution of the level it was stored on; acknowledged packets are never retransmitted.", "quantifier": "every insertion time, timeout and wheel position", "why_tests_cant": "Wheel positions and levels interact modulo the wheel size.", "anchors": ["src/lib/timerwheel.c: timerwheel_move, timerwheel_rxm"]}
{"id": "C45", "title": "Commands are processed in arrival order and exactly once", "statement": "Commands posted to the daemon, an IPCP or the flow allocator are taken by worker threads in arrival order, each by exactly one worker.", "quantifier": "every interleaving of posting and worker threads", "why_tests_cant": "Thread schedules.", "anchors": ["src/irmd/main.c: acceptloop, mainloop", "src/ipcpd/ipcp.c: acceptloop, mainloop", "src/ipcpd/unicast/fa.c: fa_post_packet, fa_handle_packet"]}
{"id": "C46", "title": "QoS is mapped to a class that is at least as good", "statement": "The QoS cube chosen for a QoS specification is determined by the documented thresholds, the mapping is monotone, and qos_to_cube is defined for every specification.", "quantifier": "all QoS specifications", "why_tests_cant": "Unbounded numeric ranges.", "anchors": ["src/lib/qoscube.c: qos_spec_to_cube", "include/ouroboros/qos.h"]}
{"id": "C47", "title": "Configuration and message conversion round-trips", "statement": "Converting a QoS specification, layer information or IPCP configuration to its message form and back yields the same value, for every IPCP type.", "quantifier": "all configuration values", "why_tests_cant": "Field value space; a forgotten field is only visible for non-default values.", "anchors": ["src/lib/protobuf.c"]}
{"id": "C48", "title": "Command line and path helpers", "statement": "path_strip returns the part after the last '/', argvdup produces an equal, independent vector, n_digits returns the number of decimal digits.", "quantifier": "all strings, vectors and numbers", "why_tests_cant": "All inputs.", "anchors": ["src/lib/utils.c: n_digits, path_strip, argvlen, argvdup"]}
{"id": "C49", "title": "Connections are handed over once and found while they live", "statement": "Each accepted connection for a component is returned by exactly one connmgr_wait call, and from then until disconnection it is found by its descriptor; a connection whose protocol, version or syntax differs is refused.", "quantifier": "every history of incoming connections, waits, connects and disconnects", "why_tests_cant": "Histories and schedules.", "anchors": ["src/ipcpd/common/connmgr.c"]}
{"id": "C50", "title": "Packets of one flow keep their order through a relay", "statement": "Within one flow and QoS class packets leave the packet scheduler in the order they were queued, each exactly once, and are handed to the callback with the descriptor they were read from.", "quantifier": "every interleaving of arrivals on any number of flows", "why_tests_cant": "Schedules.", "anchors": ["src/ipcpd/unicast/psched.c"]}
{"id": "C51", "title": "No lost wake-ups on a flow's ring", "statement": "A thread blocked in shm_rbuff_read_b (flow_read) is never left asleep without a pending wake-up while packets are queued or the flow is marked down, and a thread blocked in shm_rbuff_write_b (flow_write) is never left asleep without one while there is room or the flow is down; a thread in shm_rbuff_fini is not left asleep when the ring is empty.", "quantifier": "every ring size that is a power of two, every interleaving of any number of blocking and non-blocking readers, writers, access changes, timeouts and spurious wake-ups", "why_tests_cant": "a lost wake-up needs one particular interleaving of check, wait and broadcast; a test exercises a handful of schedules", "anchors": ["src/lib/shm_rbuff_pthr.c:shm_rbuff_write", "src/lib/shm_rbuff_pthr.c:shm_rbuff_write_b", "src/lib/shm_rbuff_pthr.c:shm_rbuff_read_b", "src/lib/shm_rbuff_pthr.c:shm_rbuff_set_acl", "src/lib/shm_rbuff_pthr.c:shm_rbuff_fini"]}
{"id": "C52", "title": "Flow allocation messages are understood as they were meant", "statement": "A flow request, reply or congestion update sent by a unicast IPCP is understood by the receiving IPCP with the same addresses, endpoint ids, QoS parameters, destination name hash, response and piggybacked application data, provided it fits the message buffer; and no sequence of bytes received as such a message makes the receiver read outside it.", "quantifier": "all 64-bit addresses and endpoint ids, all QoS specifications, hashes and data of any length, and all received byte strings", "why_tests_cant": "Byte layouts and length checks must hold for every value and every length, including hostile ones.", "anchors": ["src/ipcpd/unicast/fa.c: struct fa_msg, fa_alloc, fa_alloc_resp, fa_update_remote, fa_wait_for_fa_msg, fa_handle_flow_req, fa_handle_flow_reply, fa_handle_flow_update"]}
{"id": "C53", "title": "Link-state databases converge", "statement": "In a network of link-state routing components whose management flows lose nothing, whatever links and management flows are added and in whatever order announcements arrive and refreshes happen (no link withdrawn or timed out): once no announcement is on its way, all nodes joined by a chain of management flows hold the same announcements with the same sequence numbers, compute their routes over the same confirmed links, and with the simple policy packets sent hop by hop arrive.", "quantifier": "every number of nodes, every topology of management flows, every interleaving of events and deliveries (with reordering)", "why_tests_cant": "Convergence depends on all delivery orders in all topologies; a test sees a few schedules on a few nodes.", "anchors": ["src/ipcpd/unicast/routing/link-state.c: lsreader, forward_lsm, lsdb_add_link, lsdb_replicate, send_lsm, lsupdate, handle_event", "src/ipcpd/unicast/routing/graph.c: graph_routing_table"]}
{"id": "C54", "title": "The forwarding table follows the link-state database", "statement": "After the forwarding table is calculated, a packet for a node that cannot be reached over links announced by both ends has no next hop, and a packet for a reachable node is sent on the data transfer flow to a neighbour one hop nearer to it, whatever the table held before.", "quantifier": "every history of announcements, flows and time-outs, every previous table, every destination", "why_tests_cant": "The composition of database, graph, shortest paths, neighbour lookup and table must hold for every history and topology.", "anchors": ["src/ipcpd/unicast/routing/link-state.c: calculate_pff, nbr_to_fd, set_pff_modified", "src/ipcpd/unicast/pff/simple.c", "src/ipcpd/unicast/routing/graph.c: graph_routing_table_simple"]}
{"id": "C55", "title": "A reliable flow loses nothing silently", "statement": "On a flow with retransmission, every packet accepted from the writing application has been handed to the reader, or will be sent again by a timer, or the writer's end has marked the flow as down.", "quantifier": "all interleavings of writes, reads, deliveries (lost, duplicated, reordered), acknowledgements and timer expiries at both ends", "why_tests_cant": "the loss needs particular sequence numbers and an acknowledgement that precedes the first data; a test draws one random number per run", "anchors": ["src/lib/frct.c:__frcti_rcv", "src/lib/frct.c:__frcti_snd", "src/lib/timerwheel.c:timerwheel_move"]}
{"id": "C56", "title": "The FRCT header survives the wire", "statement": "Flags, receive window, sequence number, acknowledgement and payload of a packet are read by the peer exactly as they were written, and different packets differ on the wire.", "quantifier": "all flags, 24 bit windows, 32 bit numbers and payloads", "why_tests_cant": "2^93 headers; the window is split over two fields", "anchors": ["src/lib/frct.c:struct frct_pci", "src/lib/frct.c:__frcti_snd", "src/lib/frct.c:__frcti_rcv"]}
{"id": "C57", "title": "A blocking writer waits exactly while the window is closed", "statement": "A blocking write on a flow with flow control goes ahead exactly when a non-blocking write would find the window open, and reports a reset connection only after the peer failed to answer a rendez-vous.", "quantifier": "all reachable states of both endpoints, all clock values", "why_tests_cant": "the two paths test different conditions that differ only after particular histories", "anchors": ["src/lib/frct.c:__frcti_window_wait", "src/lib/frct.c:__frcti_is_window_open"]}
{"id": "C58", "title": "Delayed acknowledgements are sent in time", "statement": "When a reliable flow asks for a delayed acknowledgement, an acknowledgement packet of that flow is attempted in the first turn of the timer wheel at or after 10 ms (plus at most one 0.26 ms slot) from the request, requests of the same flow that fall in the same slot share one acknowledgement, and no acknowledgement is attempted that was not asked for.", "quantifier": "every sequence of requests, wheel turns and flow openings/closings on any number of descriptors", "why_tests_cant": "depends on when requests, turns and descriptor reuse interleave; a test sees a few schedules on one clock", "anchors": ["src/lib/timerwheel.c: timerwheel_delayed_ack, timerwheel_move, timerwheel_init"]}
{"id": "C59", "title": "Enrolment hands over the configuration of the layer", "statement": "If an IPCP enrols with a member of a layer, it ends up with the configuration of that member; a reply with another identifier, a denial, or a configuration for another type of IPCP makes enrolment fail. No message of a peer can crash either side.", "quantifier": "all configurations, identifiers, clocks and messages of the peer", "why_tests_cant": "All configurations and all messages a peer can send.", "anchors": ["src/ipcpd/common/enroll.c:enroll_handle,enroll_boot", "src/lib/serdes-oep.c", "src/lib/protobuf.c"]}
{"id": "C60", "title": "SHA-3 and MD5 digests are the standard ones", "statement": "When the library is built without libgcrypt, the digest that mem_hash and str_hash return for SHA3-224, -256, -384, -512 and MD5 is, for every message, the one defined by FIPS 202 and RFC 1321. The names of applications and layers are looked up by these digests, so that two implementations, or two builds, find each other's names only if this holds.", "quantifier": "all messages of any length, all ways to split them in updates, all alignments, any contents of the memory of the context", "why_tests_cant": "Test vectors cover a handful of messages; the digests must be right for every length relative to the block size and for every content.", "anchors": ["src/lib/sha3.c: rhash_sha3_update", "src/lib/sha3.c: rhash_sha3_final", "src/lib/sha3.c: rhash_sha3_permutation", "src/lib/md5.c: rhash_md5_update", "src/lib/md5.c: rhash_md5_final", "src/lib/hash.c: mem_hash"]}
{"id": "C61", "title": "Flow requests handled concurrently by the IRM daemon", "statement": "Whatever the interleaving of the threads that handle commands: once no request is being handled, the flows of the daemon (and the flow ids in use) are exactly those that were given to a process and not released since, and at all times a flow that was given to a process stays there with that process until it is released. A flow is given only to a process that asked for it, when it is established over an IPCP and no process has it. Both ends of an encrypted flow are given the same key. Every request is answered once, a request without a time limit is never told that it timed out, and an IPCP whose request was matched to a process is told what became of it. The messages sent to an IPCP carry what was asked for, by the process that asked for it.", "quantifier": "all sequences and interleavings of flow_accept, flow_alloc, flow_join, flow_dealloc, requests and replies of IPCPs, other commands, deaths of processes, timeouts at any moment, failures of the IPCPs and of the key exchange", "why_tests_cant": "The number of interleavings of the handlers is unbounded; the failures need a timeout or a second request at one particular point between two calls on the registry.", "anchors": ["src/irmd/main.c: flow_accept", "src/irmd/main.c: flow_alloc", "src/irmd/main.c: flow_join", "src/irmd/main.c: flow_req_arr", "src/irmd/main.c: wait_for_accept", "src/irmd/main.c: flow_alloc_reply", "src/irmd/main.c: flow_dealloc", "src/irmd/main.c: flow_dealloc_resp", "src/irmd/main.c: get_ipcp_by_dst", "src/irmd/main.c: do_command_msg"]}
{"id": "C62", "title": "Flows over UDP connect the two ends of a request", "statement": "In a layer over UDP, a packet that is delivered on a flow was written, before, to the other end of that flow, and arrives as it was written. A host offers a flow only for a request of another host, with the name, QoS and data of that request, and a requester is told that its flow is allocated only after the other side responded for it. A request becomes one flow, nothing the network delivers makes a process crash, and a flow whose request, response and reply are all received is established.", "quantifier": "all interleavings of the threads of any number of hosts, all orders, losses and repetitions of datagrams, all contents of requests, replies and packets", "why_tests_cant": "The races are between four kinds of threads on two hosts and the network; a test sees one order of datagrams and one interleaving, and no forged ones.", "anchors": ["src/ipcpd/udp/main.c: udp_ipcp_packet_reader, udp_ipcp_packet_writer, udp_ipcp_mgmt_frame, udp_ipcp_port_req, udp_ipcp_port_alloc_reply, udp_ipcp_flow_alloc, udp_ipcp_flow_alloc_resp, udp_ipcp_flow_dealloc", "src/ipcpd/ipcp.c: do_flow_alloc_resp, ipcp_wait_flow_req_arr", "src/lib/dev.c: np1_flow_write, ipcp_flow_alloc_reply"]}
{"id": "C63", "title": "Flows over Ethernet stay with their peers", "statement": "Whatever frames arrive at a host of a layer over Ethernet, a packet is delivered on a flow only if it came from the address and SAP that asked for the flow or replied to its request; what is written to a flow is sent to that peer only; flows are offered, and questions for names answered, for registered names only; requests go to a host that announced the name; SAPs of flows are distinct; packets of the peer are delivered as they were sent; no frame crashes the host; two hosts that exchange a request and a reply get a pair of flows over which packets arrive in both directions as written.", "quantifier": "all received frames (any bytes), all interleavings of readers, the management handler, writers and commands, all requests, QoS, data and packets", "why_tests_cant": "Hosts on an Ethernet segment can send any bytes at any time, and the places where a flow loses its peer or where tables are written out of bounds depend on the interleaving of four kinds of threads with frames nobody tested.", "anchors": ["src/ipcpd/eth/eth.c: reverse_bits, eth_ipcp_send_frame, eth_ipcp_alloc, eth_ipcp_alloc_resp, eth_ipcp_req, eth_ipcp_alloc_reply, eth_ipcp_name_query_req, eth_ipcp_name_query_reply, eth_ipcp_mgmt_frame, eth_ipcp_mgmt_handler, eth_ipcp_packet_reader, eth_ipcp_packet_writer, eth_ipcp_flow_alloc, eth_ipcp_flow_alloc_resp, eth_ipcp_flow_dealloc"]}
{"id": "C64", "title": "Encryption and CRC of a flow protect every packet and lose none", "statement": "On a flow with encryption, with a CRC, or both, every packet an application writes goes out as fresh initialisation vector, encrypted header and data, CRC; the other end takes from those bytes exactly what was written; bytes changed within any 32 consecutive bits are dropped; a packet that cannot be encrypted is left as it was; packets sent again and acknowledgements, window updates and rendez-vous are protected in the same way and taken by the other end, so that reliable flows stay reliable.", "quantifier": "all packets, headers, initialisation vectors, keys, corruptions, buffers with the usual head and tail space; for reliable flows all schedules, losses and times", "why_tests_cant": "The order of header, encryption and CRC and the lifetime of the bytes kept for retransmission matter for every packet length and every corruption, and the missing protection of packets sent again shows only when a packet is lost.", "anchors": ["src/lib/dev.c: add_crc, chk_crc, flow_tx_sdb, flow_rx_sdb, invalid_pkt", "src/lib/crypt.c: crypt_encrypt, crypt_decrypt", "src/lib/crypt/openssl.c: openssl_encrypt, openssl_decrypt", "src/lib/frct.c: __frcti_snd, __send_frct_pkt, __send_rdv", "src/lib/timerwheel.c: timerwheel_move, timerwheel_rxm"]}
{"id": "C65", "title": "An answer of the directory goes to the query that asked", "statement": "Questions a member of a directory sends to other members in parallel have different cookies while they are outstanding; every answer is given to the lookup of the key it answers, in the order the members responded, exactly once; a query returns only addresses that some asked member gave for the queried name; an answer from a member that was asked in time is not lost.", "quantifier": "all interleavings of any number of lookups, questions, responses, time-outs and failures to send", "why_tests_cant": "Cookies are reused, and whether a response meets the right lookup depends on the order of sending, recording, expiry and response of several threads.", "anchors": ["src/ipcpd/unicast/dir/dht.c: send_msg, kad_req_create, dht_find_request, kad_handle_response, kad_handle_find_resp, dht_find_lookup, lookup_set_state, lookup_new_addrs, work"]}
{"id": "C66", "title": "Joining a directory succeeds exactly if a member accepts", "statement": "A member that joins a directory runs only after another member accepted it; if it is accepted within the time it waits, the join succeeds; it is set up once, with one worker; the thread that handles the response is done in bounded time and nothing is used after it was freed.", "quantifier": "all interleavings of the joining thread, the thread handling the response and the worker that expires requests, for all attempts", "why_tests_cant": "The joining thread looks for its request only after the question was sent, so what happens depends on how fast the response is compared to a few instructions.", "anchors": ["src/ipcpd/unicast/dir/dht.c: join_thr, kad_join, wait_resp, kad_req_wait, kad_req_respond, kad_req_destroy, kad_handle_response, kad_handle_join_resp"]}
{"id": "C67", "title": "Members of a directory answer with what they were told, and a registered name is found by every member", "statement": "A member of a directory ignores questions before it runs and messages with keys or ids of the wrong length; a question gets exactly one response, with its cookie and the member's address; a join is accepted, with the parameters of the directory, exactly if the constants agree; asked for a value a member returns an address that was stored for the key if there is one, and otherwise the members it knows; and after a member registers a name in a directory whose members know each other, every member holds its address for at least the expiry time and a query of any other member returns it.", "quantifier": "all sequences of messages to a member; all directories of at most eight members; all orders of responses and time-outs of the lookup of a registration; all keys and ids", "why_tests_cant": "What a member answers depends on the whole history of messages it got, and the end-to-end result on the order of responses in the lookup at another member.", "anchors": ["src/ipcpd/unicast/dir/dht.c:dht_handle_packet", "src/ipcpd/unicast/dir/dht.c:dht_get_contacts", "src/ipcpd/unicast/dir/dht.c:dht_retrieve", "src/ipcpd/unicast/dir/dht.c:kad_publish", "src/ipcpd/unicast/dir/dht.c:dht_reg", "src/ipcpd/unicast/dir/dht.c:dht_query"]}
{"id": "C68", "title": "Administrative commands do what they report", "statement": "When an administrative command (create, destroy, bootstrap, enroll, connect or disconnect an IPCP; bind or unbind a program or process; create, destroy, register or unregister a name) returns 0, what it was asked for has been done, with the arguments given and nothing else changed; when it returns an error, nothing has changed. The caller gets 0 exactly if the daemon carried the command out. This holds whatever other commands run at the same time.", "quantifier": "every reachable state of the daemon, every command and arguments, every answer of IPCPs and of the operating system, and every interleaving with calls of other threads", "why_tests_cant": "each command is a sequence of separately locked steps with roll-back; the failing cases are interleavings of several commands, and answers of IPCPs at particular moments", "anchors": ["src/irmd/main.c: create_ipcp, destroy_ipcp, bootstrap_ipcp, enroll_ipcp, connect_ipcp, disconnect_ipcp, bind_program, bind_process, unbind_program, unbind_process, name_create, name_destroy, name_reg, name_unreg", "src/irmd/ipcp.c: ipcp_bootstrap, ipcp_enroll, ipcp_connect, ipcp_reg", "src/irmd/reg/reg.c: reg_wait_ipcp_boot", "src/lib/irm.c"]}
{"id": "C69", "title": "Programs are found along PATH", "statement": "Binding a program to a name looks for it as a shell would: a name without a slash is searched along PATH and the first directory in which it can be executed is used; a name with a slash is used as it is. The request that is sent to the daemon has the path that was found and all arguments in order. The lookup stays within its buffers and leaves the environment of the process as it was, so the same lookup gives the same answer each time.", "quantifier": "every value of PATH, every program name, every state of the file system, and every sequence of lookups in one process", "why_tests_cant": "The buffers are sized from the lengths of PATH and of the name, and the environment is overwritten in place: a test with one lookup sees neither a bad size for other lengths nor the damage that the next lookup suffers.", "anchors": ["src/lib/irm.c:check_prog_path", "src/lib/irm.c:check_prog", "src/lib/irm.c:irm_bind_program", "src/irmd/main.c:do_command_msg"]}
{"id": "C70", "title": "Flow descriptors of a process", "statement": "A call that opens a flow returns the lowest descriptor from 64 up that is not in use, or -EBADF when all 4032 are in use, or the error that the daemon's answer calls for; until it is deallocated the descriptor stands for that flow and no other, and any other number gives -ENOTALLOC, -EBADF or -EINVAL. A deallocation tells the daemon the id of the descriptor's flow and then frees the descriptor; the descriptor of a flow can be found from the flow id; failed calls change nothing; leaving the process releases every flow.", "quantifier": "all histories of opening, using, looking up, awaiting and deallocating flows by any number of threads, all interleavings of the locked parts of the calls, all answers of the daemon", "why_tests_cant": "The property is about every interleaving of calls in a process and every state of the table of flows; tests run a few calls in one order.", "anchors": ["src/lib/dev.c:flow_init", "src/lib/dev.c:__flow_fini", "src/lib/dev.c:flow_dealloc", "src/lib/dev.c:ipcp_flow_dealloc", "src/lib/dev.c:flow_alloc", "src/lib/dev.c:flow_accept", "src/lib/dev.c:flow_join", "src/lib/dev.c:np1_flow_alloc", "src/lib/dev.c:np1_flow_resp", "src/lib/dev.c:np1_flow_dealloc", "src/lib/dev.c:fini", "src/lib/serdes-irm.c:flow__irm_result_des"]}
{"id": "C71", "title": "Keepalives find out a lost peer and only a lost peer", "statement": "On a flow with a timeout T, an end that hears nothing for longer than T is marked as having lost its peer at the next pass of the monitor, and the application gets exactly one FLOW_PEER event; a flow without a timeout is left alone. While both processes are alive and packets get through, neither end is ever marked, because each end sends at least one packet in every quarter of T, and not more keepalives than that.", "quantifier": "all timeouts, all timed histories of monitor passes, writes, reads and losses at both ends, all delays that fit in the timeout", "why_tests_cant": "It is a statement about all timings of two processes; a test sees one timing, and a false alarm needs an unlucky one.", "anchors": ["src/lib/dev.c:_flow_keepalive", "src/lib/dev.c:flow_send_keepalive", "src/lib/dev.c:handle_keepalives", "src/lib/dev.c:flow_rx", "src/lib/dev.c:flow_tx_sdb", "src/lib/dev.c:flow_rx_sdb"]}
{"id": "C72", "title": "One IRM daemon at a time", "statement": "Whatever the order in which IRM daemons are started, stopped and die, at most one daemon at a time has the lock; a daemon that starts while another runs ends without disturbing it; the shared packet buffer is never purged under a running daemon; and when no daemon runs a new one can start.", "quantifier": "all histories of any number of processes that start, take a system call, stop or die at any point, with process ids reused, and all results of the calls on the lock file", "why_tests_cant": "the failures need two daemons between particular system calls, or a death between two of them; tests start one daemon at a time", "anchors": ["src/lib/lockfile.c: lockfile_create, lockfile_open, lockfile_destroy, lockfile_owner", "src/irmd/main.c: irm_init, irm_fini, ouroboros_reset"]}
{"id": "C73", "title": "The resource information base is a faithful tree", "statement": "The components that registered with the resource information base, and only they, appear as directories, each once and in order; reading or listing below a directory reaches the operations registered for it and no others; a file read in pieces gives its contents; and what is not there is reported as missing.", "quantifier": "all histories of mounting, registering, unregistering and unmounting, all names, paths, sizes and offsets, and all operations of the components", "why_tests_cant": "the tree depends on the whole history of registrations, and paths, sizes and offsets come from any program that looks at the file system", "anchors": ["src/lib/rib.c: rib_init, rib_fini, rib_reg, rib_unreg, rib_read, rib_readdir, rib_getattr, __getattr", "include/ouroboros/rib.h: struct rib_ops"]}
{"id": "C74", "title": "Statistics documents show the counters and stay within their buffers", "statement": "For every document in the resource information base - the statistics of the data transfer component, of the flow allocator, of the link-state database, of FRCT, and the general information - reading it into a buffer that can hold it gives a document of the size announced by its attributes, in which every number stands under its label, without touching memory outside the buffer; looking at the attributes or reading a file that does not exist is harmless; the listing of the data transfer component lists exactly the flow descriptors in use.", "quantifier": "all counter values, addresses, names, file names, buffer sizes, and histories of flows that come and go", "why_tests_cant": "The widths of the printed numbers, off-by-one buffer sizes and the file names cannot be enumerated; tests print small counters into large buffers.", "anchors": ["src/ipcpd/unicast/dt.c: dt_rib_read, dt_rib_readdir, dt_rib_getattr, stat_used", "src/ipcpd/unicast/fa.c: fa_rib_read, fa_rib_getattr", "src/ipcpd/unicast/ca/mb-ecn.c: mb_ecn_print_stats", "src/ipcpd/unicast/routing/link-state.c: lsdb_rib_read, lsdb_rib_getattr, lsdb_rib_readdir, str_adj", "src/lib/frct.c: frct_rib_read, frct_rib_getattr", "src/ipcpd/ipcp.c: ipcp_rib_read"]}
{"id": "C75", "title": "Threads of a process do not block each other for ever", "statement": "Threads of a process that use flows (allocate, write, read, wait for events, deallocate, set options, read statistics), together with the timer and keepalive threads of the library, never wait for each other in a circle; and a thread that waits for a peer (for room, a packet or memory) does not keep the others, which use other flows or ask for non-blocking operation, from going on.", "quantifier": "every number of threads, every program of calls per thread, every schedule, every behaviour of the other processes", "why_tests_cant": "a deadlock needs one particular interleaving of lock operations out of exponentially many, or a peer that stops reading at one particular moment", "anchors": ["src/lib/dev.c: flow_write, flow_read, flow_tx_sdb, flow_rx_sdb, flow_init, __flow_fini, flow_dealloc, fccntl, fevent, flow_tx, flow_rx", "src/lib/frct.c: frcti_snd, __frcti_rcv, __frcti_window_wait, frct_rib_read", "src/lib/timerwheel.c: timerwheel_move, timerwheel_rxm, timerwheel_delayed_ack", "src/lib/rib.c: rib_read, rib_reg, rib_unreg", "src/lib/shm_rbuff_pthr.c", "src/lib/shm_rdrbuff.c"]}
{"id": "C76", "title": "Flows over a unicast layer are isolated", "statement": "A packet that an application reads from a flow over a unicast layer was written by the application at the other end of that flow: the flow for whose request it was set up, or that was set up for its request. A flow has one other end. An allocation succeeds only if the other side accepted it. No sequence of allocations, deallocations and packets, whatever is lost, delayed or duplicated on the way, makes a packet come out of another flow or a member crash.", "quantifier": "all numbers of members, addresses, next hops, sequences of allocations, responses, deallocations, writes and reads by all applications, losses, delays and duplications, and all interleavings of the threads of all members", "why_tests_cant": "whether a stale packet finds a foreign flow depends on the re-use of descriptors and endpoint ids across members and on where threads are interrupted; tests see a few orders on two members", "anchors": ["src/ipcpd/unicast/fa.c:eid_to_fd", "src/ipcpd/unicast/fa.c:gen_eid", "src/ipcpd/unicast/fa.c:packet_handler", "src/ipcpd/unicast/fa.c:fa_handle_flow_req", "src/ipcpd/unicast/fa.c:fa_handle_flow_reply", "src/ipcpd/unicast/fa.c:fa_alloc", "src/ipcpd/unicast/fa.c:fa_alloc_resp", "src/ipcpd/unicast/fa.c:fa_dealloc", "src/ipcpd/unicast/fa.c:fa_np1_rcv", "src/ipcpd/unicast/dt.c:dt_write_packet"]}
{"id": "C77", "title": "A failed start leaves nothing behind", "statement": "When a component, a layer (bootstrap or enrolment), an IPCP, the IRM daemon or the library of a program cannot start because any call on the way fails, everything it had taken (memory, locks, threads, files, registrations) is given back, so that a later attempt finds the situation of the first. What started gives everything back when it stops. Nothing is given back twice.", "quantifier": "every function that sets up a component, every pattern of calls that fail, every state of the rest of the process, arrays of every length, every sequence of later attempts", "why_tests_cant": "each of the calls may fail, in any combination, and tests do not make malloc, pthread_create, mkdir or a registration fail at each point; leaks and double frees show only on those paths", "anchors": ["src/ipcpd/unicast/main.c:unicast_ipcp_bootstrap", "src/ipcpd/unicast/main.c:initialize_components", "src/ipcpd/unicast/dt.c:dt_init", "src/ipcpd/unicast/fa.c:fa_init", "src/ipcpd/unicast/dir/dht.c:dht_create", "src/ipcpd/unicast/psched.c:psched_create", "src/ipcpd/unicast/routing/link-state.c:link_state_init", "src/ipcpd/ipcp.c:ipcp_init", "src/ipcpd/ipcp.c:ipcp_start", "src/ipcpd/broadcast/dt.c:dt_init", "src/irmd/main.c:irm_init", "src/lib/dev.c:init", "src/lib/dev.c:flow_init"]}
{"id": "C78", "title": "Connecting IPCPs tell each other who they are", "statement": "When two IPCPs connect, what each end knows of the other (component, protocol, version, syntax, address) is exactly what the other sent. The connecting end has a connection exactly if the other has a component of that name with the same protocol, version and syntax, and then both ends have it. Fields of later versions of the exchange are ignored, and no packet, whatever its length and contents, makes either end write outside its memory.", "quantifier": "all component descriptions, all sets of components at the other end, all packets that may arrive instead", "why_tests_cant": "The packet can be any bytes from any peer, the numbers and strings are unbounded in combination, and the peers' sets of components differ per layer type.", "anchors": ["src/lib/cep.c: read_msg, send_msg, cep_snd, cep_rcv", "src/lib/pb/cep.proto: cep_msg", "src/ipcpd/common/connmgr.c: flow_acceptor, connmgr_alloc, get_id_by_name", "src/ipcpd/broadcast/dt.c: dt_init"]}
{"id": "C79", "title": "The irm tool acts on exactly what its command line means", "statement": "A pattern given to the irm tool matches a name exactly if the name is the pattern with each * replaced by some string. An abbreviated command or option means the command it is a prefix of; an ambiguous or unknown one is refused. Registering a name creates it if needed and registers it with exactly the IPCPs that one of the layer or ipcp patterns means, once each; unregistering undoes exactly that. Destroying, binding, connecting and disconnecting act on exactly the IPCP of the name given, with the components and destination given, and report failure if there is none or a call fails. No command line and no list of IPCPs makes the tool access memory outside its objects.", "quantifier": "all patterns and strings, all command lines, all lists of IPCPs and names, and all outcomes of the calls", "why_tests_cant": "the patterns, the names and the command lines are unbounded, and the failing calls can be at any position", "anchors": ["src/tools/irm/irm_utils.c: matches, wildcard_match", "src/tools/irm/irm_name_reg.c: do_reg_name", "src/tools/irm/irm_name_unreg.c: do_unreg_name", "src/tools/irm/irm_ipcp_destroy.c: do_destroy_ipcp", "src/tools/irm/irm_bind_ipcp.c: do_bind_ipcp", "src/tools/irm/irm_ipcp_connect.c: do_connect_ipcp", "src/tools/irm/irm_ipcp_disconnect.c: do_disconnect_ipcp", "src/lib/irm.c: irm_list_ipcps"]}
{"id": "C80", "title": "The daemon does what its configuration file says", "statement": "Every option of the configuration file is read as irmd.conf.in documents it, with the documented default if it is missing, and a value that is not documented is refused. Loading a file creates exactly its IPCPs, bootstraps or enrols them with exactly their configuration, binds, registers and connects them, and creates exactly its names with their policies and programs, in the order of the file. The arguments of a program are the words of its string. Nothing is done after a call that failed, and the daemon is told. No file leads to undefined behaviour.", "quantifier": "all tables a file can contain, all strings and numbers in them, and all outcomes of the calls", "why_tests_cant": "files are unbounded, values of every type can be at every key, and any call may fail", "anchors": ["src/irmd/configfile.c: toml_load, toml_toplevel, toml_ipcp_list, toml_ipcp, toml_name, toml_prog_list, args_to_argv, toml_register, toml_connect, toml_autobind, toml_unicast, toml_udp, toml_eth_dix, toml_eth_llc, toml_local", "irmd.conf.in", "include/ouroboros/ipcp.h: default configurations"]}
{"id": "C81", "title": "The lockless ring loses and invents nothing", "statement": "Also with SHM_RBUFF_LOCKLESS, the ring between two processes returns exactly the packets that were accepted, each once and in order, for any number of threads that read and write; a write is refused only when the ring is full, a read finds it empty only when all that was accepted before has been read, and a blocking read returns when there is a packet.", "quantifier": "all ring sizes from two, all interleavings of the atomic steps of the calls, all values", "why_tests_cant": "the failures are interleavings of single loads, stores and compare-and-swaps; tests run a few of them", "anchors": ["src/lib/shm_rbuff_ll.c: shm_rbuff_write, shm_rbuff_read, shm_rbuff_read_b", "src/lib/shm_rbuff.c: shm_rbuff_free, shm_rbuff_empty, shm_rbuff_create"]}
{"id": "C82", "title": "The library and the IRM daemon understand each other", "statement": "A request that a program or IPCP makes of the IRM daemon arrives at the daemon with exactly its arguments, and the program is told exactly what the daemon answered: its error, or the flow and, for an encrypted flow, its key. A request that does not fit or cannot be allocated is refused and leaves the buffer and the memory of the caller alone; no request and no answer is written outside its buffer; an answer that is missing or malformed is an error.", "quantifier": "all requests, arguments of any length, all messages and answers, all failures of allocations and sockets", "why_tests_cant": "messages are unbounded and any allocation may fail; the encoding has to be inverted for all values of all fields", "anchors": ["src/lib/serdes-irm.c: flow_accept__irm_req_ser, flow_alloc__irm_req_ser, flow_join__irm_req_ser, flow_dealloc__irm_req_ser, ipcp_flow_req_arr__irm_req_ser, ipcp_flow_alloc_reply__irm_msg_ser, flow__irm_result_des, irm__irm_result_des", "src/lib/sockets.c: send_recv_msg, send_recv_irm_msg", "src/lib/pb/irm.proto", "src/lib/pb/model.proto"]}
{"id": "C83", "title": "oping reports what happened", "statement": "The client sends as many numbered packets as asked, of a size between 64 and 1500 bytes, for as long as asked. Its report gives the packets sent, the replies received, those out of order, the loss, and the minimum, average, maximum and deviation of exactly the round trip times of the replies it received. The server sends every request back unchanged but for being marked as a reply, answers nothing else, and does so for as many flows as a process can have.", "quantifier": "all options, all sequences of replies, errors and time-outs, with loss, reordering, duplication and foreign messages, all packets and flow descriptors", "why_tests_cant": "The statistics are computed incrementally over a sequence of replies of any length and order; a test sees one network. The failures need duplication, a failed write or hundreds of concurrent flows.", "anchors": ["src/tools/oping/oping_client.c: reader, writer, client_init, client_main", "src/tools/oping/oping_server.c: server_thread, accept_thread", "src/tools/oping/oping.c: main", "src/tools/time_utils.h: ts_diff_us"]}
{"id": "C84", "title": "The ocbr server handles every flow it accepts and reports what it received", "statement": "Every flow that the constant bit rate server accepts is handled by exactly one of its ten workers, at most ten flows are open at a time, and the server goes on accepting whenever fewer are open. For each flow the lines it prints add up to the packets and bytes received, are printed once per interval, and the test ends when and only when nothing was received for the time-out.", "quantifier": "all interleavings of the listener and the workers, all choices of which thread a signal wakes, all sequences of flows and of reads", "why_tests_cant": "Flows are lost only if two are accepted before a worker runs, and the server hangs only if a signal wakes a worker in place of the listener; a test sees the schedules of one machine.", "anchors": ["src/tools/ocbr/ocbr_server.c: listener, worker, handle_flow, server_main", "src/tools/time_utils.h: ts_diff_us, ts_diff_ms, ts_add"]}
{"id": "C85", "title": "Enrolling and bootstrapping by name act on the IPCPs meant", "statement": "irm ipcp enroll enrolls exactly the IPCPs of the given type whose names match the name or pattern given, creating one if there is none, and succeeds only if each of them is then in the layer asked for and, with autobind, bound to its name and to that of the layer. A failing command leaves no IPCP in a layer that was not asked for. If an IPCP cannot be bootstrapped, the bindings are as they were before.", "quantifier": "all lists of IPCPs and bindings, names, patterns, layers and destinations, and all answers of the daemon to each call", "why_tests_cant": "It depends on the IPCPs that exist, on names and on which of several calls fails; a test tries a few, and the swapped arguments of the match show only with patterns.", "anchors": ["src/tools/irm/irm_ipcp_enroll.c: do_enroll_ipcp, get_layer_name", "src/tools/irm/irm_ipcp_bootstrap.c: do_bootstrap_ipcp", "src/tools/irm/irm_utils.c: wildcard_match"]}
{"id": "C86", "title": "operf counts what it sends and gets, and its server serves every client", "statement": "operf numbers its packets from 0 without gaps and reports as sent exactly those that were written, as received exactly the packets of the size it sends that arrive before a time-out, and as loss the percentage lost, 0 only if nothing was lost. Its server serves every client that sends a test configuration as that client asked, whatever other clients do, and refuses a configuration of the wrong length.", "quantifier": "all sequences of results of writing and reading, all numbers of packets, all lists of clients with any descriptors and any messages", "why_tests_cant": "A test has few, well-behaved clients and a network without duplicates; the statement is about every list of clients and every sequence of results.", "anchors": ["src/tools/operf/operf_client.c: reader, writer, client_main", "src/tools/operf/operf_server.c: accept_thread", "src/lib/dev.c: flow_read"]}
{"id": "C87", "title": "ovpn takes exactly the valid subnet masks", "statement": "ovpn takes a subnet mask if and only if it consists of n ones followed by 32 - n zeros, for some n from 0 to 32.", "quantifier": "all 32-bit masks", "why_tests_cant": "There are 2^32 masks; tests try a few.", "anchors": ["src/tools/ovpn/ovpn.c: check_mask, main"]}
