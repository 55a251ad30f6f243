# Formal model of Ouroboros in Lean 4

## Layout

* `lean/Verif/Model/*.lean` — the model: executable, total functions, one per modelled C function. Every definition
  carries a comment with the file and lines of `/repo` it models and the simplifications made.
* `lean/Verif/Spec/*.lean` — small independent specifications (a set, a queue, a map, bit-serial CRC, walks in a graph,
  ...). They do not import the model.
* `lean/Verif/Proof/*.lean` — helper lemmas and invariants.
* `lean/Verif/Props/*.lean` — the property theorems (named `C<nn>_...`), each with an `example` that a concrete,
  non-trivial case meets its hypotheses, and, where the code violates the property, the refutation with a concrete
  witness (`C<nn>_..._violated`) next to the theorem for the part that does hold (`..._partial`).
* `properties.jsonl` — the properties in English. `MANIFEST.json` — status and theorem names per property.
* `seeded/LOG.jsonl` — the log of deliberate model bugs and the theorems that caught them.

## Trusted base

* Lean 4.33.0's kernel, and the axioms `propext`, `Classical.choice`, `Quot.sound` (checked with `#print axioms`).
  No axiom is added, no `sorry`, no `native_decide`, no `bv_decide`.
* The reading of the C code: nothing ties the model to the code except the citations.
* General abstractions (specific ones are in the comment of each definition):
  * memory allocation succeeds unless the failure path matters for the property; then the outcome is a parameter;
  * code between lock and unlock is one atomic step; blocking on a condition variable is a guard, and "what other threads
    do meanwhile" is an arbitrary interleaved step sequence;
  * `assert()` failing, out-of-bounds access, use after free, and signed overflow are a distinct outcome (`ub`), not
    assumed away;
  * C integers are `Nat`/`Int` where overflow is irrelevant and `BitVec`/`UInt` where wrap-around matters;
  * strings are Lean `String`/`List UInt8`; hashes and addresses are abstract values with decidable equality where only
    equality matters.

## Plan per property

| id | what is modelled | how it is proved |
|----|------------------|------------------|
| C01 | `bitmap.c` word array, bit operations | refinement to a set of held ids, induction over histories |
| C02 | `shm_rbuff*.c` ring with head/tail modulo size | refinement to a bounded FIFO list |
| C03 | write/write_b with ACL word and interleaved other-party steps | case analysis; refutations for the two lost-packet paths |
| C04 | `shm_rdrbuff.c` block ring: head, tail, per-block size/refs | invariant: the region between tail and head is tiled by blocks |
| C05 | `shm_du_buff` geometry and byte contents | algebraic laws and bounds |
| C06 | `crc32.c` table and loop | table = bit-serial step for all 256 entries; linearity; invertibility of the bit step |
| C07 | `sha3.c`, `md5.c` update/final buffering | invariant: state = fold of blocks of the prefix, buffer = rest |
| C08 | `list.c` on a heap of next/prev pointers | pointer-level refinement to `List` with frame |
| C09 | `frct.c` send/receive windows, reorder queue, on a lossy/duplicating/reordering channel | transition system, inductive invariant on the message history |
| C10 | `before`/`after` on 32-bit words | `BitVec 32` arithmetic |
| C11 | window checks of `frct.c` | arithmetic + invariant |
| C12 | `btree.c` nodes | refinement to a map on the operations that preserve the invariants; refutation for stale keys |
| C13 | `time.h` macros/functions | integer arithmetic |
| C14 | `notifier.c` list | refinement to a list without duplicates |
| C15 | `tpm.c` counters | invariant over interleavings |
| C16 | `flow_read` partial-read state | refinement to byte stream with datagram ends; refutation for the discarded remainder |
| C17 | `flow_write`/`flow_tx_sdb` decision logic | case analysis; refutation |
| C18 | `fccntl`, access checks | case analysis |
| C19 | fset functions over the flow-set mapping table | refinement to `fd -> Option set` |
| C20 | notify/wait/del | refinement to one event list per set |
| C21 | registry flow life cycle | invariant over registry histories |
| C22 | registry containers | refinement to finite maps |
| C23 | `name.c` active list | refinement to queue/stack |
| C24 | bind/unbind | invariant: symmetric relation |
| C25 | process exit | frame + cancellation theorem; refutation for allocated flows |
| C26 | `pft.c` | refinement to a finite map |
| C27 | `pff/*.c` | refinement/fairness; refutations for alternate policy |
| C28 | `graph.c` | Dijkstra correctness by invariant, any graph |
| C29 | hop-by-hop walk over all nodes' tables | induction on distance |
| C30 | LFA table | inequality from the code's check, refutation over unconfirmed links |
| C31 | LSDB and graph together | refinement invariant over histories |
| C32 | LSDB acceptance and flooding | monotone measure over message histories |
| C33 | header bytes | round-trip |
| C34 | relay with arbitrary forwarding functions | induction on TTL; refutation for TTL 0 |
| C35 | eid table | invariant; refutation for eid 0 |
| C36 | `mb-ecn.c` | invariant on fixed width fields; refutation for hostile updates |
| C37 | local IPCP tables | invariant; refutation for descriptor reuse |
| C38 | broadcast forwarding | exact output; induction on trees |
| C39 | `shim-data.c` | refinement; query protocol as a transition system |
| C40 | `alloc_id` handshake | transition system; refutation for negative responses |
| C41 | IPCP command state machine | invariant and case analysis |
| C42 | DHT storage | refinement; refutation for expiry |
| C43 | DHT lookup list and buckets | refutation + partial |
| C44 | timer wheel | slot arithmetic |
| C45 | command queues | FIFO refinement over interleavings |
| C46 | `qos_spec_to_cube` | decision logic |
| C47 | `protobuf.c` conversions | round-trip |
| C48 | `utils.c` | functional correctness |
| C49 | `connmgr.c` | refinement |
| C50 | `psched.c` | refinement to per-flow queues |
| C51 | ring sleepers and wake-ups | invariant over interleavings |
| C52 | flow allocator messages | round-trip, hostile messages |
| C53 | several link-state databases and a network | convergence of every history to the same database |
| C54 | forwarding table of a node, for the three pairs of routing and forwarding policy | composition of C26, C27, C28, C30, C31 |
| C55 | flow reader and writer over a ring | composition of C02, C16, C17 |
| C56 | FRCT header bytes | round-trip |
| C57 | blocking writer and reader | interleavings |
| C58 | delayed acknowledgements | arithmetic + invariant |
| C59 | enrolment exchange | round-trip over any codec |
| C60 | `sha3.c`, `md5.c` in full | refinement to FIPS 202 and RFC 1321 |
| C61 | flow commands of `irmd/main.c` as threads over the registry model | invariant over all interleavings, ownership of flows by threads and processes |
| C62 | flows over UDP | hosts and datagrams, any delivery; invariants over log, datagrams and hosts; refutations for reuse of descriptors, forged datagrams, early replies and refusals |
| C63 | flows over Ethernet | one host, any frames, interleaved threads; invariants over tables and log; two hosts composed; refutations for forged frames, refusals, many flows and reuse |
| C64 | encryption and CRC | packets as memory with head and tail, cipher as a sound parameter; wire format as a list, composition of both ends; refutations for retransmissions and control packets; invariant of the FRCT model for one-way flows |
| C65 | directory requests | questions, cookies, lookups and responses as a transition system with ghost fields for who answered what; invariants over all runs, refutations by reachable witnesses |
| C66 | joining a directory | three threads of an attempt as a finite transition system checked over its whole state space, attempts as an unbounded list with an invariant |
| C67 | packets of the directory | `dht_handle_packet` as a function of the member and the message, on top of the storage (C42), the buckets and lookups (C43); a directory as a map from addresses to members. Decision logic outright for what is ignored, joins and responses; induction over the messages a member got for what it stores and knows (at most eight members, so that the root bucket is not split); the end-to-end theorem combines it with the lookup (any order of responses and time-outs) and the publication. Witnesses for malformed messages. |
| C68 | Administrative commands do what they report | each command as a program of registry calls, messages to IPCPs and process operations; exact effects from every reachable registry when alone; a weakest-precondition style induction over executions with arbitrary calls of other threads in between; races as concrete schedules of two commands |
| C69 | `check_prog_path` and `irm_bind_program` over memory: PATH and the scratch buffer are lists of characters with terminators, copies are bounds-checked byte by byte, the file system is an arbitrary function | induction over the directories: the loop computes the search; uniqueness of the declarative answer; induction over sequences of lookups |
| C70 | `Model/FlowTable`: `flow_init`, `__flow_fini`, the calls that open and deallocate flows split at the library's lock, the id map with its waiters, the loop of `fini`, the decoding of the daemon's answer | Simulation of a ledger (descriptor ↦ flow, deallocations under way, waiting threads) by induction over the history; the exit loop by induction over the table; violations by general statements where the code is wrong in every state, else by concrete interleavings |
| C71 | `Model/Keepalive`: `_flow_keepalive`, `flow_send_keepalive` and the places that set the activity times, at both ends of a flow with a clock; the loop of `flow_rx` | Invariants over timed histories (activity time = newest read / newest packet), no false alarm by induction over the history for both ends at once; violations in general form |
| C72 | The lock file at the granularity of system calls: name, shared memory objects, mappings of processes, process table; processes start, step, fail a call and die in any order (`Model/Lockfile.lean`) | Invariant over all histories whose start-ups do not overlap; witnesses and a general lock-out theorem for the rest |
| C73 | src/lib/rib.c with FUSE: the sorted list of components, and the file system operations on paths as byte strings (`Model/Rib.lean`) | Refinement of the list to a finite map for every history; dispatch of every path; negations for offsets, missing files, long names |
| C74 | The texts built by the RIB handlers of dt, fa, link-state, FRCT and the IPCP, character by character, with `sprintf`/`strcat` into buffers of given sizes (too long is undefined behaviour) | Lines and numbers are read back from the text by a small specification; lengths by arithmetic on padded rows; the listing by induction over its loop and over histories of flows |
| C75 | Every lock and condition of `dev.c`, `frct.c`, `timerwheel.c`, `rib.c` and the shared memory code; each call as the sequence of its lock operations, per branch; threads that interleave without bound | A rank on locks that every call respects (blocks compose), hence by induction a thread with the highest wanted lock can go on; runs to the stuck states, and an invariant of those states, for the violations |
| C76 | Any number of members of a unicast layer with their flow allocators (`fa.c`, with `eid_to_fd` and `gen_eid`), the forwarding of `dt.c`, descriptors that are used again; a step per point where other threads can come in between | An invariant by induction over all steps (every table entry, message and packet points to the peer or nowhere), a count of requests for `one peer`; concrete runs for the violations |
| C77 | The functions that set up and end components as trees of their executions, with a branch for every call that may fail (`Model/Startup.lean`); resources in use as the state. | A function enumerating all ends of a tree is proved sound for every state and pattern of failures; the kernel evaluates it for each function. Loops over arrays by induction on the length. That later attempts fail is an invariant over all sequences of attempts. Violations by runs. |
| C78 | `Verif/Model/Cep.lean`: the packet of connection establishment (wire format of protocol buffers), `read_msg`, `send_msg`, the flow acceptor's answer, the comparison in `connmgr_alloc` | Round trip by lemmas per field, with unknown fields after; every packet bounded by the buffer gives strings that fit; the outcome of a connection computed from the components; violations by concrete runs. |
| C79 | The pattern matcher, the tables of commands and the commands of the irm tool as functions from a command line, the lists of the daemon and the outcomes of the calls to the calls made (`Model/IrmTool.lean`). | The matcher against an inductive definition of patterns, by induction over the pattern; the calls as set equalities from closed forms of the loops; the exceptions as violations. |
| C80 | The loader of the configuration file as a function from the table the TOML library has read to a list of steps (call of the daemon, failure, undefined behaviour), executed against an environment that decides which calls succeed (`Model/Config.lean`). | Option by option against the words of irmd.conf.in; the whole file by relating tables to an abstract configuration; stopping and safety by induction over the steps; the splitting of arguments against an inductive definition of words. |
| C81 | The lockless ring as threads that take one atomic load, store or compare-and-swap at a time, in any order (`Model/RbuffLl.lean`). | An invariant over all schedules of a writer and a reader that counts values without wrapping and relates the indices to the counts by remainders; counter-examples for more threads; an invariant that keeps a reader asleep. |
| C82 | The ten requests and two answers of serdes-irm.c, the sockets, and the wire format of the messages down to bytes (`Model/SerdesIrm.lean`). | Decoding inverts encoding by induction over varints and fields; the size of messages by adding up bounds of fields; requests and answers against an inductive specification of what must be told. |
| C83 | The reader, writer and statistics of the client of oping, its options, and the echo of its server (`Model/Oping.lean`). | The reader is a fold over the replies that count; counts, extremes and moments of the fold by induction on the last reply, against the textbook mean and sum of squares; the server outright. |
| C84 | The listener and the ten workers of the ocbr server with their slots, lock and condition variable, as steps in any order, and the report of a flow (`Model/Ocbr.lean`). | Invariants by induction over runs of any length; a lost flow stays lost by the same induction; the deadlock by a run; the reports by induction over the reads. |
| C85 | `irm ipcp enroll` after its options are read, and the binding, bootstrapping and undoing for an IPCP in `irm ipcp bootstrap`, with the IPCPs and bindings of the daemon (`Model/IrmEnroll.lean`). | Induction over the list of IPCPs with the names and pids as invariant; the rest by cases on the answers of the daemon. |
| C86 | Counting in `reader` and `writer` of the operf client, the loss it prints, and `accept_thread` of the server with `flow_read` (`Model/Operf.lean`). | Induction over the results of reading and writing and over the list of clients; integer division for the loss. |
| C87 | `check_mask` of ovpn and the test for a missing mask, on 32-bit words (`Model/Operf.lean`). | The trick `x & (x + 1) = 0` is proved to mean that `x + 1` is a power of two, for words of any value; the bits of the mask are then read off. |

Not expressible here (no property claimed): OpenSSL encryption (`crypt.c`), FUSE (`rib.c`), real-time behaviour,
hardware memory ordering, the protobuf wire encoding library, DNS, sockets as such (UDP datagrams are modelled for C62, Ethernet frames for C63).

## Findings (code that violates a property a user would expect)

Filled in per module below as the model grows.

### Bitmap (C01)
* `bmp_release` accepts `offset + size` (`>` instead of `>=`): an id one past the range; out-of-bounds word access when the
  size is a multiple of 64.

### Packet ring (C02, C03, C51)
* A non-blocking write with only `ACL_FLOWPEER` set returns 0 without enqueuing.
* A blocking writer asleep on a full ring that is woken by `ACL_FLOWDOWN` writes anyway: the ring then looks empty, all
  queued packets are lost, and the call returns 0.
* A blocking writer woken with `EOWNERDEAD` queues the packet but reports `-EOWNERDEAD`.
* `fini` can sleep forever on an empty ring.
* The lockless variant (`SHM_RBUFF_LOCKLESS`, off by default) is C81.

### Sequence numbers (C10)
* At distance exactly 2^31 both `before(a, b)` and `before(b, a)` hold.

### Time (C13)
* `ts_diff_us`/`ts_diff_ms` are off by one unit when the second and nanosecond differences have different signs.
* `tv_diff_us`/`tv_diff_ms` divide the microsecond part by 1000 (resp. 10^6) too much.

### QoS classes (C46)
* More requested bandwidth can lower the class (voice to video); the class need not be as good as requested;
  `qos_cube_to_spec` is declared but not defined.

### Forwarding table and policies (Pft, Pff)

* A table of more than 2^63 buckets wraps to 0 buckets (pft.c:59-66); the theorem is stated for at most 2^63.
* `multipath_pff_update` allocates one descriptor and copies `len` (multipath.c:136-140): undefined behaviour for more than one
  next hop (`C27_multipath_update_violated`).
* The alternate policy only reconsiders a destination when the next hop *in use* goes down or its primary comes up: with primary P and
  alternate A, "down A, down P, up A" leaves the destination on P, and configuring a destination while P is down uses P
  (`C27_alternate_violated`). `flush` also forgets which descriptors are down.

### Data transfer header (C33, C34)

- The TTL is decremented before it is compared with 0: a packet that arrives (or is sent) with TTL 0 wraps to 255 and is relayed up to
  255 times (`C34_zero_ttl_violated`).
- `packet_handler` does not check that a packet is at least as long as the header (`C33_short_packet_violated`).

### Flow allocator (C35, C52)

- The table is zero-initialised, so endpoint id 0 matches the never-used slot 0, whose congestion context is a null pointer
  (`C35_update_for_id_zero_violated`, `C35_reply_for_id_zero_violated`).
- When the random generator fails every flow gets the same id (`C35_same_id_violated`).
- The request is sent before its endpoint is registered; a reply that arrives in between is lost (`C35_early_reply_violated`).
- A message with an invalid length is ignored without releasing its packet buffer (fa.c:458-462); a request with more than 2048 bytes in
  total is ignored without an answer (`C52_large_request_violated`).

### Congestion avoidance (C36)

- The receiver never reports more than 8191, but the sender does not check the reported level: a report above 8192 makes the
  window wrap below zero to almost 2^64 bytes (`C36_large_report_violated`).
- The slot exponent is decreased without a check; a burst of 2^32 packets in a slot makes it wrap (`C36_packet_rate_violated`), at
  realistic rates it stays between 8 and 61 (`C36_sender_partial`).

### Routing graph and tables (C28, C29, C30)

`Model/Graph.lean` models src/ipcpd/unicast/routing/graph.c function by function; the lists of vertices and edges are Lean lists, an
edge refers to its neighbour by address (looked up when dereferenced), distances are natural numbers with the addition of two `int`s
wrapping to 32 bits. Not modelled: allocation failure, the QoS argument (unused by the code), the mutex (every call holds it).

* Links that only one end has announced are skipped by Dijkstra but not when the neighbours of the source are listed: both the
  equal-cost and the loop-free-alternate policy list such neighbours as next hops (`C30_unconfirmed_neighbour_violated`).
* The primary next hop is listed again as its own alternate (`C30_primary_repeated`).
* For unreachable nodes `INT_MAX + 1` is computed (graph.c:680, 750), which is undefined in C; the model wraps, as compilers do, and the
  theorems show the result is then harmless.
* More than PROG_MAX_FLOWS neighbours overflow three arrays on the stack (`C30_many_neighbours_violated`).
* `graph_del_edge` with equal source and destination frees an edge and uses it (`C28_self_link_violated`).
* The equal-cost table has entries without next hops for unreachable nodes.

### Link-state database

Model `Verif/Model/Lsdb.lean` (database, neighbours, announcements, refresh, flooding) and `Verif/Model/LsdbPff.lean` (`calculate_pff`);
networks of such nodes in `Verif/Proof/LsdbFlood.lean` and `Verif/Proof/LsdbConverge.lean`. Not modelled: allocation failures, the
release of the lock between storing and forwarding an announcement, loss on management flows (for C53).

- An announcement of a link from a node to itself is accepted from any neighbour; when it times out `graph_del_edge` dereferences a
  missing edge (`C31_self_link_violated`).
- The time-out path neither decrements `db_len` nor marks the forwarding tables for recalculation
  (`C31_timeout_unnoticed_violated`), so a dead link stays in use.
- `calculate_pff` returns before flushing when the graph has fewer than two nodes, so stale next hops stay (`C54_stale_violated`). With equal-cost routing it also returns when the node itself has no announced link, whatever else is in the database (`C54_multipath_stale_violated`). The flush of the alternate policy drops the list of flows that are down, so a recalculation sends packets back to a flow that was reported down (`C54_alternate_down_violated`).
- After a restart a node announces from sequence number 0 and is ignored until its old entries have timed out (`C32_restart_violated`).
- A data transfer flow that goes away is not announced; other nodes find out by time-out (`C53_withdrawal_violated`).
- `lsupdate` checks the age of its own entries before refreshing them, so a machine suspended for more than 60 seconds drops its own
  links and never announces them again.
- `lsdb_del_nb` ignores the type of the neighbour; `db_len` and `nbs_len` are set to 0 after the threads are started.

### Packet pool (C04, C05)

Model: `Model/Rdrbuff.lean`, `Model/DuBuff.lean`; one call is one step (everything happens under the pool lock), `alloc_b` is
split at its wait, crashes inside critical sections are steps. Header words of later blocks are arbitrary. Not modelled:
payload bytes in the pool proofs, creation/opening of the shared memory file, the purge on IRMd start.

* `alloc_b` recomputes its padding after a wait only if padding is needed; an old non-zero count survives and the packet is
  placed over a live one (`C04_blocking_overlap_violated`).
* `shm_rdrbuff_remove` by the reader is ignored while the retransmission timer holds the packet, and the timer's release is
  `ack` + `remove`, which frees the packet even if the reader still uses it (`C04_early_release_violated`).
* A request for about `2^63` bytes reserves no block (`C04_huge_request_violated`).
* Padding written when the ring is empty sits at the tail with no owner; nothing ever collects it, and the pool is
  permanently exhausted once it has filled up (`C04_reclaim_violated`).
* `truncate` checks against the whole size, not the space behind the head; `tail_alloc` can wrap around and refuses an exact
  fit, so a 32 byte trailer never fits the 32 bytes of tail space.

### Flow sets and events (C19, C20)

Model: `Model/FlowSet.lean` (all of `shm_flow_set.c` that runs under its lock, `fset_*`, `fevent`, `fqueue_*`, the parts of
`flow_init`/`__flow_fini` that touch sets). The bookkeeping that the theorems compare with is in `Spec/FlowSets.lean` and
`Spec/FlowSetHistory.lean`. Sleeping and condition variables are not modelled: `fevent` is one iteration of its loop.

- `__flow_fini` (`src/lib/dev.c:392-399`) takes a flow out of set 0 only. A flow closed while in a user's set stays in
  `mtable` under its id. If the id is used again, the new descriptor is in that set (`C19_closed_flow_violated`); a reliable
  flow with that id cannot be opened at all (`C19_closed_reliable_flow_violated`).
- `fset_add/del/has` check the descriptor against `SYS_MAX_FLOWS` (10240), the table has `PROG_MAX_FLOWS` (4096) entries
  (`C19_descriptor_range_violated`).
- `fset_zero` does not put reliable flows back in set 0 (`C19_zero_reliable_flow_orphaned`).
- `shm_flow_set_notify` has no bound: event 16385 of a set overwrites the first event of the next set, past the last set the
  mutex (`C20_overflow_violated`, `C20_overflow_reachable`).
- `shm_flow_set_del` keeps queued events (`C20_removed_flow_violated`).
- `fqueue_filter` returns 0 without advancing when `flow_rx_sdb` fails (`src/lib/dev.c:1632-1634`), e.g. for a keepalive.
  `fevent` then overwrites its copy of the queue: later events are lost (`C20_reliable_flow_violated`). In `fqueue_next` the
  queue object is stuck instead (`C20_reliable_flow_stuck_violated`).
- Read, not modelled: `ai.id_to_fd[].fd` is not initialised by `init` (`src/lib/dev.c:615-616`); `ai.flow_list` is initialised
  after the monitor thread started (`src/lib/dev.c:659-664`).

### Reading, writing and configuring flows (C16, C17, C18)

Model `FlowIo`: one raw, unencrypted flow, any number of threads in `flow_write`, threads in `flow_read`, `fccntl`, the
keepalive timer and the other end, over the ring model of C02/C03 and an abstract packet pool (C04). Invariant: every packet
in use is in exactly one place. `flow_read` is simulated by `Spec.Datagrams`; `fccntl` by `Spec.FlowSettings`.

Findings (each a theorem in `Props/FlowIo.lean`):
- `flow_read` with partial reads releases the whole packet instead of the bytes delivered (dev.c:1432): the rest of a long
  datagram is lost and the next call returns 0 (`C16_violated`).
- Two threads in `flow_read` after a partial read use the same packet; one uses it after it is removed
  (`C16_two_readers_violated`).
- A packet of 1-3 bytes on a flow with CRC makes the CRC check leave the packet (`C16_short_packet_violated`).
- `flow_write` returns the byte count although the ring was full, closed, or the deadline passed (dev.c:1224).
- After a keepalive timeout packets leak: the ring write returns 0 without queueing (`C17_leak_violated`, `C17_peer_leak_violated`).
- `flow_read` ignores the access mode; write-only can never be undone; setting the flags twice stops the own writes, because
  the transmit access word is computed from the receive ring (dev.c:1084).
- `fccntl` accepts descriptors 4096..10239 (out of bounds), dereferences `NULL` for queue lengths, and setting its FRCT flags
  always switches flow control and lingering off (frct.c:463-477).

### Reliable flows: FRCT (C09, C11, C55, C56, C57)

Model: `Model/Frct.lean` is `frct.c` (one endpoint: header, create, flags, window tests, send, receive, RTT estimator) and what
`timerwheel_move` does with an expired entry. `Model/FrctNet.lean` puts two endpoints on a network that may lose, duplicate and
reorder packets; both directions are active at once. Every operation carries its own time. Retransmission timers may expire at
any time and in any order, so nothing depends on the timer wheel. Bookkeeping (packet numbers, runs) is carried along and read
by no modelled function. Not modelled: locks, statistics, the ACK wheel, `ring write` failures beyond a lost packet.

Proof: `View` (Proof/Frct.lean) is the invariant of one direction; `Inv` holds it for both. `InvW` adds flow control, `Inv1`
shows that steady histories (one run per end) satisfy the general assumptions `Ok`.

A *run* is what a sender sends between two choices of a random sequence number. Findings:
- The receiver's inactivity timer is refreshed by any packet, the sender's by sent data only. If one application falls silent
  while the other goes on, the silent sender's next run is not recognised: its packets are dropped, possibly as duplicates that
  are acknowledged (`C09_reliable_violated`, default timers, no packet lost or delayed).
- A pure acknowledgement that arrives before any data activates the receiver with the window `[0, 0)`. Every packet with data is
  then refused (`C09_first_packet_violated`, all sequence numbers). With numbers in the upper half the refused packet is even
  acknowledged (`C55_no_silent_loss_violated`).
- `assert(snd_cr->seqno == snd_cr->lwe)` (frct.c:724) fails when an application writes again after the flow went down
  (`C09_assertion_violated`); `flow_write` does not look at the state of the flow before it calls `frcti_snd`.
- A packet sent again gets a new acknowledgement (timerwheel.c:235-245) but its old window: the sender's edge moves backward
  (`C11_edge_announced_violated`) or, across a multiple of 2^24, forward by 2^24 (`C11_edge_jump_violated`).
- Without retransmission the right edge is not tested (`C11_outside_not_queued_violated`) and an occupied slot is overwritten.
- The blocking path tests `seqno == rwe` only (`C57_writer_waits_violated`). `open` is false and `t_wnd` 0 after creation, so the
  first timeout reports a reset without a rendez-vous (`C57_reset_violated`).
- Packets sent again and control packets carry no CRC even if the flow has one (C64). Read, not modelled: `frcti_snd` ignores that
  `timerwheel_rxm` failed; a reader that does not read for `r` seconds brings the flow down, because acknowledgements follow
  consumption.

### Timer wheel (C44, C58; `Model/TimerWheel`, `Spec/TimerHistory`, `Proof/TimerWheel`, `Proof/AckWheel`, `Props/TimerWheel`)

Modelled: `timerwheel_init`, `timerwheel_move` (retransmission levels and acknowledgement slots), `timerwheel_rxm`,
`timerwheel_delayed_ack` of `src/lib/timerwheel.c`; times are unbounded natural numbers of nanoseconds. Not modelled: memory
allocation failure, reference counts of the packets kept by the wheel, `timerwheel_fini`, and the sending of the packets itself
(`Model/Frct`, `Model/FrctNet`). The flows of the process may change arbitrarily between operations.

Proof: an invariant on absolute slot numbers (`slot index = due % 256`, `processed < due <= processed + 256` for each level) carried
through every visit of every slot of every level of a turn; a second one over all executions for what is retransmitted or given up.

Findings:
* A packet is examined up to one slot before its timeout; with a timeout below one slot (the minimum is 0.25 ms, a slot is 1.05 ms) it
  may be retransmitted 1 ns after it was written.
* If the wheel lags by one slot, an entry with a timeout of 255 slots is put on the slot that is visited next: it is retransmitted at once.
* A turn after exactly 256 slots without one visits nothing (`j_max_slot == j`).
* `rw.map` is keyed by descriptor: a request of a new flow on a reused descriptor is dropped when the old flow left a mark.
* When no buffer can be had (timerwheel.c:232) the entry is scheduled again after its packet was unpinned (178) and not pinned again.

### B-tree (C12)

Modelled: all of `src/lib/btree.c` (search, insert with splits, delete with feeding, merging, predecessor and successor, root collapse), on a node whose key
array keeps the cells beyond `used`, because `btnode_search` reads one of them. Not modelled: failing allocation, freeing.
Proof: in-order contents and an occupancy invariant by induction on height; the root invariant by induction on histories. Findings:
- `btnode_search` compares `keyvals[i]` without checking `i < used`: a removed key is still found (`C12_removed_violated`), and a key that was removed and
  inserted again may give its old value (`C12_stale_violated`).
- `btree_create` accepts orders 1, 2 and 3, for which inserts or removes run out of bounds (`C12_order_violated`).
- `btree_remove` of a missing key may leave a root without keys (only a successful remove collapses the root), after which `fill` calls `merge(node, -1)`
  (`C12_missing_violated`).
- `btree_remove` on an empty tree returns 0 (`C12_empty_violated`).

### Registry of the IRM daemon (C21–C25; `Model/Registry`, `Spec/Registry`, `Proof/Registry*`, `Props/Registry`, `Props/RegistryNames`)

Modelled: the public functions of `src/irmd/reg/{reg,flow,name,proc,prog,ipcp}.c`. A call that waits on a condition variable is split into the part up to
the wait and the part after it, so any other call may come in between; a history is any interleaving of these steps. An assertion that fails is an undefined
outcome. Simplifications: allocation succeeds, timestamps are left out, the counters of names are lengths of their lists. Not modelled: the handlers of
`src/irmd/main.c` that call these functions (for the flow commands see C61). Proof: an invariant over all steps (flow table keyed and backed by the id pool, rings by state, bindings between
names, programs and processes), and a refinement of each table to a finite map. Findings:
- A flow that is cancelled keeps its rings until it is destroyed (`C21_rings_violated`).
- A timeout that races with the allocation deallocates an allocated flow and the peer is not told (`C21_timeout_violated`).
- A client that passes a flow id that does not exist makes an assertion of the daemon fail (`C21_bad_id_violated`).
- Destroying a process that does not exist returns 0 (`C22_destroy_proc_violated`).
- `reg_update_ipcp` runs into an assertion whenever the IPCP exists (`C22_update_ipcp_violated`).
- `reg_create_ipcp` adds a second entry for the spawned process; it stays when the process is destroyed (`C22_spawned_twice_violated`).
- Destroying a name that still has something bound to it runs into an assertion (`C24_destroy_bound_violated`).
- `bind` with autostart and a path, followed by `unbind`, leaves the entry to be started (`C24_unbind_auto_violated`).
- After a flow is answered the accepting process stays at the head of the queue until it wakes: the next request crashes (`C23_crash_violated`); two requests
  may pick the same pending flow (`C23_same_flow_violated`); binding between prepare and wait leads to a duplicate entry (`C23_bound_while_preparing_violated`).
- A request in progress when the process exits runs into an assertion (`C25_race_violated`); allocated flows of a dead process are not freed
  (`C25_leak_violated`).
- Read, not modelled: `flow_join` never sets `n_1_pid`; a client may choose an invalid load-balancing policy, which fails an assertion; `bind_program`
  compares a full path with a stripped name.

### Broadcast layer (C38; `Model/Broadcast`, `Spec/Broadcast`, `Proof/Broadcast`, `Props/Broadcast`)

Modelled: `dt_add_nb`, `dt_del_nb`, `dt_packet` and the events of `src/ipcpd/broadcast/dt.c`, and a layer of such processes whose flows form a tree.
Proof: an invariant over histories for one process; for the layer, an invariant that the packets on their way and the members reached partition the tree by
distance from the sender. Findings (read, outside the property): in a layer with a cycle a packet loops forever, there is no duplicate suppression; the result
of `flow_write` is ignored; if `malloc` fails in `dt_add_nb` the flow is still added to the set, so its packets are forwarded but it gets none; `nbs_len` is
set to 0 after the threads were started; the protocol name is never set (`comp_name` is copied twice, dt.c:252-253).

### Shim data (C39; `Model/ShimData`, `Spec/ShimData`, `Proof/ShimData`, `Proof/ShimQuery`, `Props/ShimData`)

Modelled: registry, directory and directory queries of `src/ipcpd/shim-data.c`; a call that sleeps is split at its sleep, any interleaving is a history, and the
use of a freed query is undefined. Proof: refinement of registry and directory to the set of events; an invariant on queries and on the holder of the lock.
Findings:
- An answer that comes after the query was created and before the wait starts is dropped (`C39_early_answer_violated`; `eth_ipcp_query` sends its request in
  between).
- Only the newest query for a name is answered (`C39_second_query_violated`).
- An answer that races with the timeout is reported as `-ETIMEDOUT` (`C39_timeout_violated`).
- A waiter that is cancelled (thread pool stopped) keeps the lock of the query: destroyer and responder hang (`C39_cancel_violated`).

### Command queues (C45; `Model/CmdQueue`, `Proof/CmdQueue`, `Props/CmdQueue`)

Modelled: posting and taking of commands as in `src/irmd/main.c`, `src/ipcpd/ipcp.c` and `src/ipcpd/unicast/fa.c`, with the condition variable (arbitrary choice
of the woken thread, spurious wake-ups, cancellation). Proof: a list invariant for the order; for wake-ups, while a worker sleeps without a signal the number
of woken workers is at least the number of commands. Findings (read, not modelled): `cmd->len` is unsigned, so a failing `read` is taken for a huge command
(`ipcp.c`, `irmd/main.c`); a message of invalid length in `fa_handle_packet` leaks its packet buffer.

### Life cycle of an IPCP (C41; `Model/Ipcp`, `Spec/Ipcp`, `Proof/Ipcp`, `Props/Ipcp`)

Modelled: the commands of `src/ipcpd/ipcp.c` (tests, `np1_flow_*`, call of the operation, its return) and the signal handling of the main thread, as
interleaved steps. Not modelled: parsing of messages, the operations themselves (their result is arbitrary). Findings:
- Test and change of the state are separate critical sections: two bootstraps that overlap both run (`C41_twice_violated`); a second one that fails resets
  an operational process (`C41_restart_violated`); a bootstrap that ends after the signal revives the process (`C41_revived_violated`); a reported success may be
  overwritten by `IPCP_NULL` (`C41_overwritten_violated`).
- Read, not modelled: connect, disconnect, reg and unreg have no state check; the length of the hash in a message is only checked by an assertion.

### Hand-over of incoming flows (C40; `Model/AllocId`, `Proof/AllocId`, `Props/AllocId`)

Modelled: `ipcp_wait_flow_req_arr` and `ipcp_wait_flow_resp` with the lock, the sleeps and the call to the daemon. Findings:
- A negative response passes descriptor -1, so it sleeps while a flow is awaited, and the flow stays awaited forever (`C40_negative_violated`); with nothing
  awaited it succeeds (`C40_spurious_violated`).
- Read: `alloc_lock` is held during the call to the daemon.

### Local IPCP (C37; `Model/Local`, `Spec/Local`, `Proof/Local`, `Props/Local`)

Modelled: allocation, response, deallocation and the packet loop of `src/ipcpd/local/main.c`, split where the lock is released. Ghost numbers for the ends of
flows give the statements something to speak about. Proof: an invariant that a table entry always leads to the other end of the same flow. Findings:
- Deallocation clears only its own entry: after the descriptor is reused, packets of the old peer reach the new flow (`C37_reuse_violated`,
  `C37_race_violated`); a flow deallocated during its allocation leaves an entry (`C37_early_dealloc_violated`).
- A negative response accesses `in_out[-1]` (`C37_reject_violated`).
- Read: a packet whose flow is gone is not released in the packet buffer; in the negative branch `in_out[in_out[fd]] = fd` has no effect.

### Thread pool (C15; `Model/Tpm`, `Spec/Tpm`, `Proof/Tpm`, `Props/Tpm`)

Modelled: all of `src/lib/tpm.c`; a step is one critical section of the lock, cancellation is a request that takes effect later. Proof: an invariant that ties the
list of elements to the live threads, over all interleavings. Findings:
- A worker that took a command and has not called `tpm_dec` yet counts as idle and may be told to exit; if it works on, `wrk` stays too high, `cur - wrk`
  wraps around and no threads are created although none is idle (`C15_underflow_violated`).
- The directory creates a pool with minimum 2 and increment 1, which is short after a round (`C15_small_step_violated`).
- A pool that is stopped with busy workers cannot be started again properly (`C15_restart_violated`).

### Packet scheduler (C50): `Model/Psched`, `Spec/Psched`, `Proof/Psched`, `Props/Psched`

`src/ipcpd/unicast/psched.c`: adding and removing flows per QoS class, the readers of every class, the event queue of the flow set. A step is one atomic access of the set,
of the event queue or of the ring of a flow; a history is any interleaving of any number of readers. Conservation (`C50_once`) is an invariant that counts every packet
in exactly one place; order (`C50_order_partial`) holds for one reader per class.

Findings: with the default of two readers per class (`IPCP_SCHED_THR_MUL`) the packets of one flow can be handed over out of order (`C50_order_violated`). Adding a flow that
already has packets queues one event however many packets there are, so the others wait for later packets (`C50_stranded_violated`).

### Connection manager (C49): `Model/Connmgr`, `Spec/Connmgr`, `Proof/Connmgr`, `Props/Connmgr`

`src/ipcpd/common/connmgr.c` except `connmgr_comp_fini` and the threads' start and stop. A step is one critical section; results of flow allocation and of the exchange of connection
information are parameters. The specification is in terms of the log: accepted, returned, opened, inserted, closed.

Findings: the acceptor does not check protocol, version and syntax, the connecting side does (`C49_refused_violated`). A component that is not registered has the empty name, so a peer can
have a connection added to lists that were never initialised (`C49_empty_name_violated`; the broadcast IPCP registers no management component). `connmgr_ipcp_disconnect` releases the lock
between search and removal (`C49_disconnect_twice_violated`) and compares the destination of incoming connections, which is not initialised (`C49_uninitialised_violated`). A destination
longer than 64 characters is stored cut off and never found (`C49_long_violated`). Events between allocation and insertion find no connection (`C49_event_violated`).

### Message conversions and enrolment (C47, C59): `Model/Protobuf`, `Spec/Protobuf`, `Props/Protobuf`

`src/lib/protobuf.c` function by function, with the widths of the C types and of the message fields; `src/lib/serdes-oep.c`; the exchange of `src/ipcpd/common/enroll.c`. The wire format is the
protobuf library, not in the repository: theorems about bytes on the wire hold for every codec with `unpack (pack m) = some m`. A union is the member stored last, and reading another is undefined.

Findings: `flow_info.mpl` is a `time_t` but 32 bits unsigned in the message (`C47_flow_violated`). `ipcp_config_msg_to_s` uses the specific part of a configuration without testing that it is
there (`C47_missing_violated`). `enroll_resp_des` and `enroll_ack_des` do not test the length of the identifier, `enroll_req_des` does (`C59_reply_violated`, `C59_ack_violated`); a positive
reply without a configuration is a null pointer (`C59_no_config_violated`). Not modelled: allocation failures (`enroll_resp_s_to_msg` and `enroll_ack_s_to_msg` then free a structure that was not initialised).

### SHA-3 and MD5 (C07, C60): `Model/Sha3`, `Spec/Sha3`, `Proof/Sha3`, `Proof/Sha3Stream`, `Props/Sha3`, `Model/Md5`, `Spec/Md5`, `Proof/Md5`, `Props/Md5`

All of `src/lib/sha3.c` (the four digests) and `src/lib/md5.c`. `Spec/Sha3` is FIPS 202 on strings of bits: the step mappings on `A[x, y, z]`, the shift register of the round constants, the sponge
construction and the padding `pad10*1`. The lanes of the code agree with a state bit by bit (`Agree`), which every step mapping preserves; an update keeps the invariant that the context is the absorption of the
full blocks of the bytes so far and the buffer is the rest. `Spec/Md5` is RFC 1321; its table T is the integer part of 2^32 |sin i|, copied as numbers.

Findings: a SHA3-224 digest is 28 bytes, but only three words of 8 bytes are converted on big endian hosts (`C60_big_endian_violated`). `le32_copy` in `md5.c` copies whole words: it reads up to three bytes past the
message (`C07_md5_overread_violated`) and, when a piece does not start at a multiple of four bytes, writes up to three bytes past the block, over the length (`C07_md5_pieces_violated`). `mem_hash` uses one update,
so only the over-read can happen there.

### Directory: storage, lookups and buckets (C42, C43)

`Model/DhtStore.lean` has the entries of a node (`kad_add`, `dht_del`, `dht_retrieve`, the local part of `dht_query`, the pass of the worker over the entries). The specification is a map from key and address to a time, with three
operations; `C42_refines` says that after every history the entries hold exactly what the map has. `Model/DhtLookup.lean` has the contacts of a lookup (`lookup_update`, `lookup_new_addrs`, `dist`, `list_add_sorted`), with a log
of the ids that were seen and of the contacts that were asked. `Model/DhtBuckets.lean` has the tree of buckets (`iter_bucket`, `bucket_has_id`, `split_bucket`, `dht_update_bucket`, `dht_dead_peer`, `dht_contact_list`); a bucket
is named by the bytes on the way to it.

Findings in src/ipcpd/unicast/dir/dht.c:

- 600-620, 870: contacts are inserted before the first one that is *closer*, and the last one is dropped, so that a lookup keeps the `k` farthest nodes it hears of. `kad_publish` stores at those (`C43_contacts_partial`, `C43_closest_violated`).
- 1344-1361 against 561-580: a split moves contacts by the byte after the one a lookup uses (`C43_found_violated`).
- 1405-1407: a split of contacts that differ in no later byte reads past the ids; `k + 1` addresses that send the same id do this (`C43_same_id_violated`).
- 655-667: a lookup of a key looks only beside its bucket; if the contacts are further down it finds none (`C43_no_contacts_violated`).
- 2393, 916: the answer to a query is copied to an array of eight, however many addresses the message has (`C43_overflow_violated`).
- 853, 1566, 1569: ids in messages are read at the length of the directory whatever their own length is (`C43_short_id_violated`, `C42_message_violated`).
- 2573: a `KAD_STORE` with several contacts takes the array of pointers for an array of contacts (`C42_message_violated`).
- 2069-2073: expiry does not count down `n_vals`; the entry stays and a request for it is answered with uninitialised memory (`C42_retrieve_violated`, `C42_leak_violated`).
- 2078-2079: `t_expire` is overwritten with the clock, and `t_replic` is never set (`C42_lifetime_violated`).
- 897: the last response that brings nothing completes a lookup although contacts from an earlier one were not asked (`C43_unasked_violated`).
- 1865-1868: a node that does not respond is counted against the first contact of the bucket of the searched key (`C43_dead_count_violated`); 1861: a join has no key (`C43_dead_violated`).
- Not modelled: `kad_find` adds the cookie to the lookup after the request is sent, so that a fast response is lost; the worker releases the lock in the pass over the entries, which a `dht_unreg` can free meanwhile.

### Flow commands of the IRM daemon (C61)

`Model/IrmdFlow.lean` has `flow_accept`, `flow_alloc`, `flow_join`, `flow_req_arr`, `wait_for_accept`, `flow_alloc_reply`, `flow_dealloc`, `flow_dealloc_resp`, `get_ipcp_by_dst` and the part of `do_command_msg` and `mainloop` that
answers them, over the registry of `Model/Registry.lean`. Each command is a thread that stops before every call on the registry and every answer of an IPCP; an execution is any interleaving of such pieces, of calls on the
registry by the other commands and of deaths of processes. The log has what processes and IPCPs see, and the properties are about the log. Proof: `Eff` (IrmdEff) says what a piece does to the flows, the thread and the log;
`Inv` (IrmdInv) says that every flow belongs to exactly one thread or was given to a process. `polite` says that a process deallocates only a flow it has; without that see `C61_ownership_violated`.

Not modelled: shutdown (cancelled threads), the wire format of the commands, failed allocations of memory, `cypher_s` and key material beyond numbers, the blocking part of the condition variables (a thread may look at any time).

Findings in src/irmd/main.c:

- 819-836: the time of an accept runs out just as a request is matched to it: the flow is destroyed and the IPCP, which was told that its request was matched, is never answered (`C61_answered_violated`).
- 1076-1083: an allocation that times out is forgotten without telling the IPCP (`C61_timeout_violated`); the late reply is taken for a newer request with the same id, at another IPCP (`C61_late_reply_violated`).
- 1141-1206: two requests from the network find the same accepting process, both get its flow id and the second one runs into an assertion (`C61_double_match_violated`). A match between `reg_prepare_flow_accept` and
  `reg_wait_flow_accepted` makes the latter stop at an assertion (`C61_early_match_violated`).
- 897-914: `flow_join` never stores the IPCP in `flow`, so `reg_prepare_flow_alloc` stops at an assertion (`C61_join_violated`).
- 1238: nobody checks that the process that deallocates a flow has it (`C61_ownership_violated`).
- 953-1008: the IPCP is taken in the order of process ids, not of types (`C61_preference_violated`).

### Flows over UDP (C62)

`Model/Udp.lean` has the IPCP over UDP: the messages byte by byte with what is left uninitialised, the reader, the handler of management frames, the writers and the commands to allocate, respond and deallocate, on any number of
hosts, and a network that keeps every datagram ever sent: it may be received never, once or often. Each place where another thread can come in between is a separate step. Proof: `LInv` about the log, `GoodM` and `GoodP` about every
datagram, `HInv` about every host (UdpStep, UdpRun); `UInv` (UdpOnce) follows which datagram a flow was offered for. Not modelled: names and DNS, the set of flows of the writers, failures of `malloc` and `sendto`.

Findings in src/ipcpd/udp/main.c:

- 1021-1031: the request is sent before its destination is stored; a reply that is faster is dropped as from a wrong source and the requester is never told (`C62_early_reply_violated`).
- 291-302 with src/ipcpd/ipcp.c:303: the descriptor is handed to the thread that responds before the requester is stored; the response goes nowhere (`C62_early_response_violated`).
- src/ipcpd/ipcp.c:587-597: a refusal is given for descriptor -1, so the IPCP waits for ever or reads before its table (`C62_refusal_violated`).
- 563-571, 450: packets of 8977 to 8980 bytes lose their end (`C62_cut_violated`).
- 475: management frames of up to 8980 bytes are copied to a buffer of 2048 (`C62_long_request_violated`); 358: the length of a request is only asserted (`C62_short_request_violated`).
- 494: the endpoint of a datagram is used as index of a table of 4096 (`C62_any_sender_crash_violated`), and the source is not looked at (`C62_spoof_violated`).
- 481-494: a repeated request becomes a second flow (`C62_duplicate_violated`). 494, 559: packets under way, or with a writer, go to the next flow with the same descriptor (`C62_late_packet_violated`, `C62_wrong_peer_violated`).
- 258-264: replies carry 32 bytes of uninitialised memory (`C62_leak_violated`). 254: the response is cut to 8 bits (`C62_response_violated`).

### Flows over Ethernet (C63)

`Model/EthLlc.lean` has the IPCP over Ethernet with LLC on one host: frames and messages byte by byte, the reader, the handler of management frames, the writers, names and the directory, and the commands to allocate, respond and
deallocate. Any frame can arrive at any time; the memory behind a frame, and what other threads write to a buffer that was given back too early, are parameters of the step. `Model/EthDix.lean` has what differs without LLC: messages,
frames, the decision of the reader, the handling of replies. Proof: `AInv` (EthLlcStep), which holds for any frames, ties the tables to the log; `BInv` (EthLlcRun) is about SAPs and needs an orderly world. Not modelled: the
watch on the interface, netmap and BPF, the queries that wait for an answer, failures of `malloc`.

Findings in src/ipcpd/eth/eth.c:

- 963: the SAP of a frame indexes a table of 64 without a test, so that one frame crashes any host (`C63_sap_crash_violated`); without LLC the endpoint is used as descriptor (`C63_dix_crash_violated`). 272: SAPs go up to 65, the
  table to 63 (`C63_many_flows_violated`). 1730-1736: a flow without SAP writes entry 255 when deallocated (`C63_dealloc_crash_violated`).
- 915, 924, 943: the length in the frame is believed: below 3 it wraps around (`C63_short_crash_violated`), and if more was announced than received old memory is delivered (`C63_stale_violated`). 735, 714: short messages are
  only asserted against (`C63_short_message_violated`).
- 935-944: a management frame is copied after its buffer was released (`C63_released_violated`); if `malloc` fails, it is released twice (938-942).
- 600-654: a reply is accepted from anybody, at any time (`C63_hijack_violated`, `C63_dix_hijack_violated`); 694-706: so are answers for names (`C63_poison_violated`). 904-914: the test of the destination has no consequence;
  without LLC the source is not tested either (`C63_dix_isolation_violated`).
- 627-630, 1706-1711: after a refusal or a reply that cannot be sent the SAP is given to another flow although the first one keeps it (`C63_refusal_violated`, `C63_failed_reply_violated`).
- 575-588: the descriptor is handed to the responding thread before it is known who asked (`C63_early_response_violated`, `C63_reuse_violated`); src/ipcpd/ipcp.c:587-597: refusals get lost (`C63_refuse_violated`).
- 528: replies carry 32 bytes of uninitialised memory (`C63_leak_violated`). 949: management frames are handled newest first.

### Encryption and CRC (C64)

`Model/FlowCrypt.lean` models `flow_tx_sdb` and `flow_rx_sdb` with `add_crc`, `chk_crc`, `crypt_encrypt`, `crypt_decrypt`, `openssl_encrypt` and
`openssl_decrypt` on a packet as a block of memory with the head and tail of C05, what `__frcti_snd` remembers for retransmission, what the timer
wheel sends again and the control packets. AES-256-CBC is a parameter; the theorems assume its laws (`Cipher.Sound`: inverse, padding, whole
blocks), and `padOnly_sound` shows that they can be met. No secrecy is claimed. The initialisation vector is any 16 bytes; OpenSSL may fail. The two
`one_way` theorems are about the FRCT model of C09, restricted to runs in which no control packet reaches the writer. Not modelled: key exchange.

Findings:

- src/lib/timerwheel.c:227-252: the packet to send again is read from the packet that was encrypted in place, without the initialisation vector and the
  CRC. It is dropped or taken shortened on every flow with encryption or CRC (`C64_resend_violated`, `C64_resend_shortened_violated`); all predefined
  reliable QoS have a CRC. With RXM_BUFFER_ON_HEAP it goes out as plain text (`C64_heap_plaintext_violated`).
- src/lib/frct.c:235-280: control packets are encrypted but get no CRC, so the other end drops them or reads 8 bytes as header (`C64_control_violated`).
  A reliable flow with a CRC that is used in one direction never gets an acknowledgement and goes down 120 s after the first packet, even if nothing was lost
  (`C64_one_way_unacknowledged_violated`, `C64_one_way_down_violated`).
- src/lib/dev.c: packets of 1 to 3 bytes on a flow with a CRC make `chk_crc` read in front of the packet (`C64_short_violated`).
- Read, not modelled: on flows within one system the receiver decrypts the packet in place, so that a later retransmission would send plain text; if
  encryption fails after the timer was armed, the timer keeps a packet that is removed.

### Directory requests (C65)

`Model/DhtReq.lean` models how questions get cookies, are listed, are recorded in a lookup, and how responses find the question and the lookup, split
where `dht->lock` or the lock of a lookup is released. A response carries, as a ghost, the question it answers; `Honest` says that responses carry the
cookie of that question. The time of expiry is arbitrary; memory does not run out except where `respFail` says that a message could not be sent.

Findings, src/ipcpd/unicast/dir/dht.c:

- 1031-1046: a response is matched by its cookie only, and cookies are reused at once (the lowest free one), so a late response answers another query
  (`C65_late_violated`). The sender is not looked at: anybody can answer (`C65_forged_violated`).
- 1684-1690: the cookie is recorded in the lookup after the question was sent: a quick response leaves the cookie behind, for the next question that gets it
  (`C65_quick_violated`). 1528-1529: the request is listed after it was sent: a quicker response is lost (`C65_lost_violated`).
- 2088-2098: the worker expires a request but not the cookie in its lookup (`C65_expired_violated`); 2193, 2222: a response gives its cookie back before it looks
  for the lookup (`C65_released_violated`).
- 1532-1537: if a response cannot be sent, the cookie *of the asking member* is released here: two questions get the same one (`C65_resp_fail_violated`), and
  a cookie above 2048 writes behind the bitmap (`C65_resp_fail_crash_violated`).

### Joining a directory (C66)

`Model/DhtJoin.lean` models one attempt as three threads: the one that joins, the one that took the request off the list (because of a response, or the
worker because it expired), and the state of the request, split at the locks; and `join_thr` with its 9 attempts. Conditions may be looked at any time.
One attempt has 360 states and the lemmas about a step are decided over all of them; runs and attempts are unbounded.

Findings, src/ipcpd/unicast/dir/dht.c:

- 1604-1612: a response handled before `wait_resp` looks for the request makes the attempt fail although the member was accepted; `kad_req_destroy` then waits for
  ever for a state nobody sets (`C66_quick_violated`). The same if the response comes when the time is just up (`C66_late_violated`).
- 487: `kad_req_wait` overwrites the mark of a response with `REQ_PENDING`: 8 seconds lost and a failure (`C66_overwritten_violated`); the request may be freed by
  then (`C66_freed_violated`), as it is used after `dht->lock` was released.
- 2143-2166: each accepted attempt starts a worker and makes the buckets again: up to nine (`C66_workers_violated`), of which one is joined with at the end.

### Packets of the directory (C67)

Modelled in `Verif/Model/DhtPacket.lean`: the body of the loop of `dht_handle_packet` (src/ipcpd/unicast/dir/dht.c:2479-2598), `dht_get_contacts`,
`dht_retrieve`, `kad_store`, the end of `kad_publish`, `dht_bootstrap` and `dht_reg` for a directory of several members.
Not modelled: packing of messages, the queue of packets, losses of store messages, lookups that are still going on when a
member handles a message (responses are C65), the concurrency of handlers (each message is handled in one step).

The theorems about histories need a directory of at most eight members (`KAD_K`), so that the root bucket is never split. In larger directories
C43 gives what the buckets guarantee.

Findings:
- The length of the id of the sender is not tested if the message has a `b` (2499), so any member can make another read past the id.
- A message without an id of the sender makes `dht_update_bucket` copy from `NULL` (2592); so does a question without a key (2549, 2559).
- `dht_handle_packet` passes the contacts of a store message as an array of structures although they are an array of pointers (2573): with two contacts the second is read from past the first (also C42).
- The `b` in the response to a join is taken over without comparing it with the length of the hash the layer uses (2133-2166).

### Administrative commands of the IRM daemon (C68)

`Model/IrmdAdmin.lean` has the commands of src/irmd/main.c (create, destroy, bootstrap, enroll, connect, disconnect an IPCP; bind and unbind programs and processes; create,
destroy, register and unregister names) as programs over the registry of C22-C25, with the decoding of replies of src/irmd/ipcp.c. `alone` runs a command without interference; `run`
allows any call of any other thread between two steps; `duo` interleaves two commands. Not modelled: failing allocations, the copies of strings, listing, the sockets.
A wait in `reg_wait_ipcp_boot` may end early any finite number of times (the parameter `n`).

Findings:

- `bind_program` and `bind_process` undo the creation of the name if the binding fails. Two identical commands at the same time: the one that created the name finds the binding made by
  the other, and destroys the name. The other one was told that the binding is done. For processes the name is destroyed while a process is bound to it, which fails an assertion (a dangling list in release builds).
- `name_create` on an existing name returns 0 and ignores the policy.
- `destroy_ipcp` sends SIGTERM to any process number; with 0 it is the process group of the daemon.
- An IPCP that answers before `reg_create_ipcp` is refused, and its creation is reported as failed after the time-out.
- `reg_wait_ipcp_boot` uses the entry without a test; if the IPCP ended between the two calls this is a NULL pointer.
- When the time is over, `create_ipcp` waits for the end of the IPCP but nobody ends it; if the IPCP answered just then, it is operational and the thread of the daemon waits for as long as it runs.
- `enroll_ipcp` tests for a negative result only, `ipcp_enroll` writes the layer only if the result is 0.
- The undo of `bind_program` destroys the program by its whole path, but entries are known by the last part, so the program entry stays (harmless; removing it by the right name would remove bindings of others, see the seeded bug).
- Programs to start are kept by path, unbinding looks for the last part: after unbinding, the program is still started, and it cannot be bound again.

### Looking for programs (C69)

`Model/ProgPath.lean` has `check_prog_path` and the request of `irm_bind_program` (src/lib/irm.c:278-410) with the memory they use: the value of `PATH` is a region that the code writes to, the scratch buffer has arbitrary contents, and reading or writing outside either is undefined.

Findings:

- src/lib/irm.c:337 writes a terminator over each colon of the string that `getenv` returned. That string is the environment itself, so after one lookup `PATH` is its first directory, for this process and its children (`C69_path_cut_violated`). The next lookup does not find programs of the other directories (`C69_second_lookup_violated`).
- Without `PATH` the function fails before it looks at the name (src/lib/irm.c:308-310), so absolute paths are refused (`C69_unset_violated`).
- An empty entry of `PATH` (the current directory, by POSIX) and a relative one end the search with `-EINVAL`, even if a later directory has the program; this is what `Answer` says, since the code documents it by its check.

Not modelled: failing allocations, and what `send_recv_irm_msg` does with the request (its answer is C68).

### Flow descriptors of a process (C70)

Modelled: `flow_init`, `__flow_fini`/`flow_fini`, `flow_destroy`, `flow_set_state`, `flow_wait_assign`, the tail of
`flow_alloc`, `flow_accept`, `flow_join`, `ipcp_flow_req_arr`, `np1_flow_alloc`, both deallocations split into the parts
between their calls to the daemon, `np1_flow_resp`, `np1_flow_dealloc`, the check at the start of reading and writing,
the loop over the flows in `fini`, and `flow__irm_result_des`. The bitmap is its specification (C01: the lowest free id).
Shared memory objects are handles that are `NULL`, open, or dangling. Left out: the encryption state, the timers of a
deallocation that waits for acknowledgments (C58), the content of the serialised requests apart from their code, and
`pthread_create` (its failure is never detected since it does not return negative values).

Findings:
* `flow_init` releases the descriptor on failure but leaves `info.id` and dangling pointers in the flow. `fini` then
  closes freed objects at process exit, and the next use of the descriptor is undefined instead of -ENOTALLOC
  (`C70_failed_call_violated`, for every state and every failing stage).
* When `flow_init` fails after the daemon granted the flow, the daemon is not told: the flow stays allocated there.
* `flow_dealloc`, `ipcp_flow_dealloc`, `fccntl` and the flow set calls check the descriptor against `SYS_MAX_FLOWS`
  (10240) while the table has `PROG_MAX_FLOWS` (4096) entries (`C70_range_violated`).
* Two threads deallocating one descriptor crash, or the second destroys a flow that took the descriptor over
  (`C70_double_dealloc_violated`, `C70_double_dealloc_other_violated`).
* `flow_join` serialises `IRM_FLOW_ALLOC` (`C70_join_violated`); `flow_join__irm_req_ser` is never called.
* `id_to_fd[].fd` is read uninitialised (`C70_unknown_flow_violated`); a late waiter trips an assertion
  (`C70_late_waiter_violated`).
* Observed, not modelled: the key of the answer is copied with its own length into a 32 byte array; `init` starts the
  receive thread before it initialises the list that thread walks; `memset(&info, 0, sizeof(flow))` clears 8 bytes.

### Keepalives (C71)

Modelled: the decision of `_flow_keepalive`, the activity times set by `flow_init`, `flow_tx_sdb`, `flow_rx_sdb` and
`flow_send_keepalive`, both ends of one flow, losses, refused packets, and when `flow_rx` makes a pass. The two ends use
one clock; only differences of times at the same end enter the code. `C71_alive_partial` takes the period of the passes
and the time until a packet is read as parameters: a quarter of the timeout plus both must fit in the timeout.

Findings:
* `rcv_act` is set when the application takes a packet out of the ring, not when one arrives: an application that does
  not read for the timeout loses a live flow (`C71_idle_reader_violated`, for every timeout), and since the closed end
  stops sending keepalives the other end is closed too (`C71_idle_reader_spreads_violated`).
* `snd_act` is set before the packet is written to the ring: a refused packet postpones the next keepalive
  (`C71_full_ring_violated`).
* The monitor makes a pass only when it saw no event for a tick (`C71_busy_violated`).
* Observed: `handle_keepalives` walks the list of flows with `list_for_each_safe`, but drops the lock while it sends a
  keepalive; the saved next flow can be deallocated meanwhile.

### The lock file of the IRM daemon (C72)

Modelled: src/lib/lockfile.c and its use in `irm_init`, `irm_fini` and `ouroboros_reset` (src/irmd/main.c), one step for
each system call that touches the name or the contents of the shared memory object.  A process that mapped an object keeps it
after the name is removed or given to a new object.  Processes die at any point, process ids are reused, `ftruncate` and
`mmap` can fail.  Not modelled: `kill` failing with EPERM (the daemon runs as root), failing `malloc`, and what else the daemon
does while it starts.

Findings, each a theorem `C72_..._violated`:

* Two daemons that start after a crash can both end up with the lock: the one that looks at its mapping of the old object
  removes the name of the new one.  The same happens without a crash when a daemon starts while another is stopped and
  restarted.  The packet buffer is purged under the daemon that was first.
* `__lockfile_open` removes the name when `mmap` fails, also when it only opened the file of a running daemon.
* A daemon that dies between `shm_open` and writing its process id leaves a file that reads as process 0 or has size zero.
  `kill(0, 0)` succeeds, and reading a file of size zero raises SIGBUS.  No daemon starts any more until somebody removes the file.
* A process id that is reused by an unrelated process looks like a running daemon.
* `lockfile_create` does not restore the file creation mask when it fails, so a daemon that takes over a stale lock runs with
  mask 0.

### The tree of the resource information base (C73)

Modelled: `rib_init`, `rib_fini`, `rib_reg`, `rib_unreg`, `rib_read`, `rib_readdir`, `rib_getattr` (src/lib/rib.c).  The operations of
the components are parameters.  Not modelled: FUSE itself, the lock, times and owners of files, and `rib_cleanup`.

Findings, each a theorem `C73_..._violated`:

* `rib_read` ignores the offset, so that a reader who reads in pieces gets the start of the document again and again.
* `rib_getattr` gives -1, that is "operation not permitted", for a path that does not exist, and `rib_readdir` lists every unknown
  directory as an empty one.
* Names may have 300 bytes, but paths of files are limited to 300 bytes with both separators, so that files below names of 299
  or 300 bytes cannot be read.
* While nothing is mounted `rib_reg` reports success and registers nothing.

### C74: the documents in the resource information base

`Model/RibDocs.lean` builds the documents as lists of characters.  `put cap t` is a write of a text with its terminating
zero to a buffer of `cap` bytes, undefined when it does not fit.  `Spec/RibDocs.lean` has what a reader does: split a
document into lines, and read the number after the label.  Simplifications: a time is printed with 19 characters
(years 1000 to 9999); the idle times of FRCT are not negative; the queue lengths are inputs; memory does not run out.

Findings.
* `dt_rib_read` accepts a buffer of the announced size 2205 and writes 2206 bytes.  `str_adj` does the same with 104.
* `addrstr[20]` is too small for the addresses from 10^19 on.
* The number in a file name is not checked by `dt_rib_read`, `dt_rib_getattr` and `fa_rib_getattr`: `atoi` of an
  unknown name gives an index outside the table.
* `dt_rib_readdir` continues at `PROG_RES_FDS + 1` after the first unused reserved descriptor, so the first flow is never
  listed.  `stat_used` sets the time stamp before it counts the flow, so a listing in between overruns its array.
* `fa_rib_read` prints `b_rcv_f` twice, never `p_rcv_f`.  Without congestion avoidance it prints an array that was never
  written.  The announced size 1536 is not that of the document, 1296.
* Sequence numbers from 10^18 on make the document of an adjacency longer than announced.  Neighbours are listed but
  cannot be read.
* `frct_rib_read` ignores the size of the buffer; the announced size is one too large.
* `ipcp_rib_read` takes the length of a buffer that was not written for an unknown name, and for layer names of 255
  characters.
* Not modelled, but seen: `stat_used` clears the statistics with `memset` while it holds the mutex that is part of them;
  the error path of `lsdb_rib_readdir` frees `*buf[j]` and `buf` where `(*buf)[j]` and `*buf` are meant.

### C75: threads that block each other

`Model/Locks.lean` gives for each call of the library the sequence of lock, unlock and wait operations of each of its branches;
the branches (window open, packet valid, retransmissions due, ...) are arguments.  `Step` interleaves the threads.  `WaitsFor`
in `Spec/Locks.lean` is "wants a lock that the other holds"; `Alive` says that a chain of it ends at a thread that can go on
or waits for another process.  `Dead` is "never goes on, whatever the rest does".  Simplifications: readers may pass waiting
writers (the glibc default); a blocking ring operation is a wait followed by the locked operation; the join of the timer
thread is a lock that its rounds hold; conditions may hold or not at any time, as other processes decide; the file system
handlers of the unicast layer and the final clean-up of the library are not modelled.

Findings.
* `rib_read` holds the lock of the RIB when `frct_rib_read` takes that of the flows; `flow_init` and `__flow_fini` hold that of
  the flows when they call `rib_reg` and `rib_unreg`.  Reading the statistics of an FRCT flow in the file system while a flow is allocated or
  deallocated can stop the process for ever.
* `flow_tx_sdb` waits for room in the ring with the lock of the flows held.  `flow_write`, `fccntl`, allocations and
  `flow_rx_sdb` need that lock exclusively, so one peer that does not read stops all flows of the process.
  `ipcp_flow_write` and `local_flow_write` always wait, so one slow application stops an IPCP.
* With `RXM_BLOCKING`, the default, retransmissions and acknowledgements wait for room too, with the lock of the flows and
  that of the timer wheel held.  They are sent by non-blocking writes (of other flows) and non-blocking reads as well.
* `flow_dealloc` waits with the lock of the flows held until its peer has emptied the ring.

### Flows over a unicast layer (C76)

`Verif/Model/Unicast.lean` puts the parts of C33-C35, C40 and C52 together: members, their flow tables, the packets between them, and the packets
in the hands of threads.  Next hops are arbitrary, packets may be lost or duplicated.  `C76_isolation_partial` says that a packet read from a flow was
written to the flow at its other end, `C76_one_peer_partial` and `C76_one_sender_partial` that there is one such flow when the layer below does not
duplicate, `C76_told_partial` that a requester is told only of an accepted flow, `C76_awaited_partial` that an awaited response stays awaited, and
`C76_no_crash_partial` that no missing congestion context is used.  Hypotheses (`Layer.Ok`, `Proper`): addresses differ; a member does not draw an
endpoint id twice; a descriptor is not used again while a thread is about to write to it; a flow is not deallocated while it is being set up, its
response is awaited, or the scheduler has one of its packets.  The second example next to the theorems uses a descriptor again with a packet of the
former flow under way.

Findings:

* `fa_alloc` sends the request before it enters the flow, and `fa_handle_flow_reply` drops replies to unknown flows: a quick reply is lost
  (`C76_quick_reply_violated`).
* `fa_handle_flow_req` sets the flow up after the response can already be given (`ipcp_wait_flow_req_arr` has returned the descriptor): a quick
  response goes to address 0 and is lost (`C76_quick_response_violated`).
* `fa_np1_rcv` gives up the lock between lookup and writing, `packet_handler` has none between reading and lookup: when the flow is deallocated
  meanwhile, the packet goes to whoever has the descriptor then (`C76_late_write_violated`, `C76_late_send_violated`), or the member dereferences
  a null pointer (`C76_crash_violated`).
* The 32 random bits of an endpoint id may repeat (`C76_repeated_id_violated`); if the generator fails the id is that of the flow allocator itself.
* Duplicated requests set up a second flow (`C76_duplicate_violated`).
* `do_flow_alloc` keeps the descriptor of a failed request (`C76_failed_alloc_violated`).
* The peer is not told of a deallocation.  Replies and updates are accepted from any sender.  `fa_alloc_resp` calls `fa_flow_fini` under the read lock.
  `fa_np1_rcv` passes the 64-bit id where `fa_update_remote` takes a descriptor; the conversion cuts it to the descriptor.

### Start-up and clean-up (C77)

Modelled: `tpm_create`/`destroy`, `bmp_create`/`destroy`, `graph_create`/`destroy`, `psched_create`/`destroy`, `pft_create`/`destroy`, the three forwarding
policies, `pff_create`/`destroy`, `link_state_init`/`fini` and its routing instances, `dt_init`/`fini`/`start`/`stop`, `fa_init`/`fini`/`start`/`stop`,
`dht_create`/`destroy`/`bootstrap`, `connmgr_*` and `enroll_*` set-up, the components, bootstrap and enrolment of unicast layers, the bootstrap of broadcast
layers, `ipcp_init`/`start`/`stop`/`fini` and `main`, `irm_init`/`start`/`stop`/`fini` and `main`, `reg_init`/`fini`, `init`/`fini` of the library,
`frcti_create`/`destroy`, `flow_init`/`__flow_fini`.  Not modelled: what threads do between start and stop, states, the set-up of the local, Ethernet and
UDP layers, `rib_init` and the shared memory objects (one resource each), flows of a program after the first.

A resource is a kind and a number; `bad` records that one was ended that was not there, or made anew while there.  Components shown to be all or
nothing are one resource where they are used.

Findings:

- `dht_destroy` does not unregister its listener from the notifier.  After a bootstrap that fails later than `dir_init`, `notifier_reg` refuses the
  directory, so every further bootstrap or enrolment of that IPCP fails (`C77_retry_violated`); the listener has freed memory as its argument.
- `dht_create`: when `dt_reg_comp` fails the thread pool is destroyed without `tpm_stop`; when `notifier_reg` fails the entry with data transfer
  keeps a pointer to freed memory.  The condition variable is never destroyed.
- `fa_init`: when `dt_reg_comp` fails the path in the RIB stays; `fail_rib_reg` falls through to a second `pthread_condattr_destroy`.
- `dt_start`: when `pthread_create` fails the listener stays with the notifier.
- `ipcp_start`: on failure `tpm_destroy` is called, and again by `ipcp_fini` in `main` (`C77_pool_violated`, for every failure and state): a double free.
- `ipcp_init`: on failure the file of the socket stays.
- `irm_init`: a failed `pthread_condattr_init` leaves the command lock, a failed `chmod` leaves the socket open.
- `dt_fini` of the broadcast layer does not end its component; a second bootstrap initialises locks in use.
- `init` and `flow_init` of the library test `pthread_cond_init`, `pthread_rwlock_init` and `pthread_create` for `< 0`; errors are positive, so they are
  not seen.
- `enroll_stop` and `connmgr_stop` cancel their threads without joining; a second bootstrap overwrites the handles.

### Connection establishment (C78)

Modelled: `read_msg`, `send_msg` (src/lib/cep.c), the answer of the flow acceptor and the comparison in `connmgr_alloc`
(src/ipcpd/common/connmgr.c), and the descriptions of the four components the code has.  protobuf-c is not in the repository; its wire
format is modelled and trusted.  Not modelled: running out of memory, and the three fields of cep.proto that the code never sets.

Findings:
- `read_msg` checks the length of the name and not that of the protocol before `strcpy`.  Only its buffer of 128 bytes keeps the protocol
  from overflowing `struct conn_info`; with a larger buffer it would (`C78_unchecked_violated`).
- Descriptions that fit `struct conn_info` but not 128 bytes are sent, cut on receipt and refused (`C78_long_violated`).  A packet of exactly 128
  bytes is received, but the next `flow_read` on that flow returns 0, as the read filled the buffer.
- The acceptor adds the connection without comparing protocol, version and syntax: if they differ it has a connection, the other end
  has not (`C78_agree_violated`).
- Data transfer of a broadcast layer never sets its protocol.  The all-empty refusal of an IPCP without that component compares equal, and the
  connecting end adds a connection nobody answers (`C78_refusal_violated`).

The lockless ring, src/lib/shm_rbuff_ll.c, is C81.  It is compiled only with `SHM_RBUFF_LOCKLESS`, which is off by default.

### The irm tool (C79)

Modelled: `matches`, `wildcard_match`, the tables of commands, the options of `irm ipcp bootstrap` in the order they are tried, and `do_reg_name`,
`do_unreg_name`, `do_destroy_ipcp`, `do_bind_ipcp`, `do_connect_ipcp`, `do_disconnect_ipcp`, `do_create_name` and the filter of `do_list_name`, with the copies
of `irm_list_ipcps`.  Not modelled: the output, QoS, creating, bootstrapping and enrolling IPCPs.

Findings, each proved as a `_violated` theorem:

- `**` at the end of a pattern does not match nothing, as the loop of `wildcard_match` ends before it tries the empty suffix.
- An ambiguous abbreviation means the first command: `irm ipcp d` destroys, and the empty word creates.
- `irm_list_ipcps` copies a name or layer of 255 characters, which is allowed, with its zero into an array of 255 bytes.
- Registering an IPCP meant by two patterns is done twice.
- The 129th layer or IPCP is stored outside its array: the number is compared after storing.
- If creating the name fails, `do_reg_name` frees its argument, which was not allocated.
- `layer` or `lb` as the last word is followed by the null pointer, which is used as a string.
- `do_unreg_name` passes name and pattern to `wildcard_match` in the wrong order, so patterns unregister nothing and the tool reports success.
- `irm ipcp destroy` and `irm bind ipcp` report success if there is no IPCP of that name.
- `irm name list` shows the names that are prefixes of the word, not those it is a prefix of.

Findings that are not modelled: bootstrap and enroll also swap the arguments of `wildcard_match`; the layer name in enroll is copied into an array that is one
byte too small; `irm ipcp list` ignores its options; `type` as the last word of enroll is a null pointer.

### The configuration file (C80)

Modelled: all of `src/irmd/configfile.c` from `toml_load` down, with `args_to_argv` on an array with bounds.  Not modelled: the TOML parser (a file is the table
it gives, its keys in the order of `toml_key_in`), `inet_pton` (a parameter), opening the file, and what the calls of the daemon do, which is C22 to C25, C41
and C68.  The documentation that the specification follows is `irmd.conf.in`.

Findings, each proved as a `_violated` theorem:

- `congestion="mb-ecn"`, the documented default, is refused, and `congestion="lfa"` selects it.
- Numbers are cut to 8 or 16 bits instead of refused: `max_ttl=256` is a TTL of 0, which drops every packet; `ethertype=0x1A007` is 0xA007.
- An invalid DNS server is ignored, as `inet_pton` returns 0 and less than 0 is tested.
- The default hash of UDP and broadcast IPCPs is SHA3_224, not SHA3_256, and cannot be changed.
- `autobind=false` binds, as only the presence of the value is tested.
- `conn` is ignored for an IPCP that is bootstrapped, and no error is reported.
- The section `eth-udp` that is documented does not exist; it is `udp`, and the documented one ends the daemon.
- A value where a table is expected (`local = 3`, `local.x = 3`, `name.x = 3`) is a null pointer that is read; the IPCP is created before.
- A name of more than 255 characters in `reg` or as a section of its own is copied outside its array.
- The policy of a name that an IPCP earlier in the file registers is ignored, as registering creates it with the default.

### The lockless ring (C81)

Modelled: `shm_rbuff_write`, `shm_rbuff_read` and `shm_rbuff_read_b` of `src/lib/shm_rbuff_ll.c`, step by step, on sequentially consistent memory.  Not
modelled: the access rights, `shm_rbuff_write_b` (which takes the lock and moves the head without compare-and-swap, and waits on `add` where the ring with locks
waits on `del`), time-outs, spurious wake-ups, weak memory.  The file calls `_sync_fetch_and_add`, which does not exist: it cannot be linked as it is.

Findings, each proved as a `_violated` theorem:

- Two writers at once: both store in the same cell before either moves the head.  Both calls succeed, a packet is lost, and a stale cell is read as a packet.
- Two readers at once: both see the one packet and both move the tail, past the head.  The ring then counts as full.
- A write wakes readers without the lock they check the ring under, and only if it saw the ring empty.  A blocking read can miss the wake-up and no later
  write wakes it.

### The library and the IRM daemon (C82)

Modelled: all functions of `src/lib/serdes-irm.c`, `send_recv_msg` and `send_recv_irm_msg` of `src/lib/sockets.c`, and the protocol buffer encoding of the fields
they use.  The encoding is that of the protobuf-c library, which is not in the repository: it is written from its definition and trusted to be what that library
does.  Not modelled: the other fields of `irm_msg`, unknown wire types, the merging of embedded messages that occur twice, the limit of ten bytes for a varint.

Findings:

- `ipcp_flow_req_arr__irm_req_ser` and `ipcp_flow_alloc_reply__irm_msg_ser` free the data (and the hash) of their caller when the message does not fit
  (`C82_caller_memory_violated`).  The comment "Don't free * dst or data!" holds on the path of success only.
- `send_recv_irm_msg` packs into an array of 10240 bytes on the stack without comparing sizes; `irm unbind program` with a long path reaches it
  (`C82_overflow_violated`).
- `send_recv_msg` reads 10240 bytes, whatever the buffer of its caller is; all callers have that size (`C82_socket`).
- When the socket fails, -1 is returned, which is -EPERM, not -EIRMD.
- `flow__irm_result_des` sets `sk->data` but not `sk->len` when there is no key.

### oping (C83)

Modelled: `reader`, `writer`, `client_init` and the printed loss of `src/tools/oping/oping_client.c`, the limits of the options in `src/tools/oping/oping.c`, the
packet and the accept path of `src/tools/oping/oping_server.c`.  Floating point numbers are rational numbers, so rounding is not covered.  Not modelled: the
cleaner thread, the parsing of options, signals (an interrupted run is a shorter list of events).

Findings:

- A reply that the network doubles is counted twice, so the loss can be negative, and the client can stop before all replies have come (`C83_received_violated`).
- The loss is rounded up: 100 % is printed when one of more than a hundred packets came back (`C83_loss_violated`).
- A packet that could not be written counts as transmitted (`C83_sent_violated`).
- An interval over ten seconds is cut after the number of packets has been computed from it: `-i 20s -d 60s` runs for 30 seconds (`C83_duration_violated`).
- The server keeps times in an array of 256 entries and indexes it with the flow descriptor, which starts at 64 and goes up to 4096: the 193rd concurrent flow
  writes outside the array, and flows from there on are never timed out (`C83_flows_violated`).
- A packet shorter than four bytes is judged by what an earlier packet left in the buffer (read in `serve`; this is why `C83_echo_partial` asks for four bytes).

### ocbr (C84)

Modelled: `worker`, `listener` and `handle_flow` of `src/tools/ocbr/ocbr_server.c`.  A step is what a thread does under `fds_lock`; `pthread_cond_signal` wakes any one
waiting thread, and threads may wake without a signal.  Not modelled: cancellation, a failing `flow_accept`, the client, the wrapping of counters.

Findings:

- A worker looks only at `fds[fds_index]`.  A flow that is accepted before a worker has taken the one before hides that one for good: it is never read or
  deallocated, and `fds_count` is never lowered for it (`C84_served_violated`).
- The listener and the workers wait for one condition variable that is signalled, not broadcast.  Once flows were lost, a worker that is done can wake a worker
  in place of the listener.  The listener then waits although there is room, and when no flow is handled it waits for ever (`C84_progress_violated`).  If every
  flow is taken before the next is accepted, this cannot happen (`C84_progress_partial`).
- The next interval starts where the last one ended, not where the last line was printed, so the times of lines overlap and rates come out a little low
  (`C84_interval`).
- Read, not modelled: the client never initialises its buffer, so packets carry up to 512 kB of its stack to the server.

### Enrolling and bootstrapping by name (C85)

Modelled: `do_enroll_ipcp` and `get_layer_name` of `src/tools/irm/irm_ipcp_enroll.c` after the options are read, and the pass of the loop of `do_bootstrap_ipcp` in
`src/tools/irm/irm_ipcp_bootstrap.c`.  The daemon is a list of IPCPs and a list of bindings; which calls succeed is arbitrary.  Not modelled: a daemon that does not
answer, the parameters of a layer.  The pattern matching is that of C79.

Findings:

- The arguments of `wildcard_match` are swapped: the name of an IPCP is taken as the pattern.  With a pattern on the command line a new IPCP is created that has the
  pattern as its name, and no IPCP that is meant is enrolled (`C85_pattern_violated`).  `do_bootstrap_ipcp` has the same call.
- The layer is compared after enrolment.  When it is not the one asked for, the command fails but the IPCP stays in the wrong layer (`C85_layer_violated`).
- The layer is looked up by name alone.  With two IPCPs of one name, which the daemon allows, that of the first is compared and bound (`C85_same_name_violated`).
- A failed bootstrap unbinds names, also if they had been bound before the command (`C85_undo_violated`).
- Read, not modelled: an unknown type is not refused by `enroll`; if `irm_list_ipcps` fails, an uninitialised pointer is freed.

### operf (C86) and the mask of ovpn (C87)

Modelled: the counting in `reader` and `writer` of `src/tools/operf/operf_client.c`, the loss it prints, `accept_thread` of `src/tools/operf/operf_server.c` with the part
of `flow_read` that it uses, and `check_mask` of `src/tools/ovpn/ovpn.c`.  Not modelled: time, rates, the cleaner and echoing threads of the server, the tunnel of ovpn.
A server that waits for ever in `flow_read` is modelled as one that no longer accepts.  Counters do not wrap.

Findings:

- A client that sends nothing, or less than a word, ends the accepting of the server: `accept_thread` waits for ever, or leaves its loop with `break`, where `continue`
  is meant (`C86_served_violated`).
- The check of the length of the configuration never sees a message that is too long: `flow_read` has released the rest of it, and returns 0 for a count of 0
  anyway.  After a message that is too short it takes the next one instead (`C86_length_violated`).
- `conf` and `times` have 256 entries and are indexed by the descriptor, which can be larger (`C86_flows_violated`).
- Replies are counted without looking at their id: with duplicates the loss is negative (`C86_loss_violated`).
- The mask 255.255.255.255 is valid, but is the value that stands for no mask (`C87_mask_violated`).
- Read, not modelled: when an echo fails the server deallocates a flow that stays in its set and is deallocated again by the cleaner.
