# Design

Subject: sspans/ladvd (C), read as text in /repo. The model is in Lean 4 under
`lean/Verif/`; `lake build` in `lean/` checks everything.

## Trusted base

* Lean's kernel and the three standard axioms (`propext`, `Classical.choice`,
  `Quot.sound`); no own axioms, no `sorry`, no `native_decide`/`bv_decide`.
  Every theorem named in MANIFEST.json depends on a subset of these three.
  Witnesses proved by `decide` are evaluated by the kernel.
* The hand translation from C to the model. Each definition cites the file and
  lines it models and names its simplifications.
* C semantics assumed: 8-bit bytes, LP64, little-endian host for the checksum,
  the capability bytes and the privsep messages; integers of the declared width
  with wrap-around; reads and writes outside an object, use of a freed object,
  failed assertions and endless loops are explicit outcomes.
* Allocation never fails (`my_malloc` terminates the process on failure).
* What other programs do is an input of the model and quantified over: answers
  of the kernel (`Kernel`, `Media`, `PEnv`, `Host`), libpcap, libteam, libpci,
  failing system calls, arrival of packets and
  events in any order. Where a rule of the kernel is needed (BPF machine,
  datagram sockets, user ids, capabilities, record locks) or of a library
  (libpcap's file format, libevent's percent encoding) it is written down in
  the model or in `Spec/Start.lean` and named there.
* The aliases of the kernel (C79): reading `ifalias` gives the alias and a line feed, or nothing if there is none; writing sets it, without a line feed at the end; a `write` of no bytes does nothing; only the daemon writes them during a history;
* The descriptions of the FreeBSD kernel (C85): `SIOCSIFDESCR` fails above 1024 bytes, removes the description for no bytes, and otherwise stores all but the last byte up to a NUL;
* Processes (C81, C82): a `write` to a datagram socket whose other end is closed fails, a `read` from one that has nothing queued waits; the event library runs handlers of signals only between other handlers, and interrupted calls are restarted; `SIGCHLD` is sent when a child ends, stops or continues;
* Time (C78): one clock in whole seconds, for both systems of `C78_seen_partial`;
  libevent's promise that a timer fires not before it is due and late by at
  most a parameter; a link that delivers within a bound, with bounded losses.

## What is modelled

| file in /repo/src | modelled | not modelled |
|---|---|---|
| common.h, main.h, ether.h, filter.h | structures, constants, protocol table, BPF programs | other operating systems |
| main.c | option processing from the words of the command line (with `getopt` after POSIX and its manuals) and its messages, help, validation, start of the processes | messages after option processing; undefined behaviour of `toupper` ends the model |
| child.c | initialisation, sending, queue, expiry, client sessions, link events of Linux and of FreeBSD's routing socket | libevent itself, splitting of netlink datagrams by libmnl |
| parent.c | initialisation, requests, sending, sockets, memberships (Linux and FreeBSD), receiving, signals | other BSD and Solaris variants |
| util.c | everything but the messages other than those about neighbours (C74); allocation on the receive path of the unprivileged process (C72) | other log messages, failing allocations (the code ends the process then), allocation elsewhere |
| netif.c, netif_linux.c | everything on Linux with all options compiled in | |
| netif_bsd.c (with netif.c) | everything on FreeBSD with lagg, if_bridge, if_media; `netif_bond` of macOS | OpenBSD's trunk, NetBSD's agr, the other macOS variants |
| proto/*.c | all five builders, checks and decoders, in both decode modes; the decoders of LLDP and CDP in print mode with their output, byte for byte | memory that `lldp_descr_print` and `cdp_descr_print` leak |
| proto/tlv.c, compat/vis.c, strlcpy.c, strlcat.c, setproctitle.c | everything used | |
| compat/imsg.c, imsg-buffer.c | composing, writing, reading, taking apart, descriptors, flushing, clearing, seeking and reserving (C92) | failing allocations |
| compat/sys-queue.h | the `TAILQ` macros ladvd uses (C73) | macros it does not use |
| cli.c | everything: options, help, connecting, loop, batch, table and HTTP output, requests and replies, pcap dump, exit status (C95) | setting up the HTTP connection, libevent's HTTP client (only the order of requests and replies) |
| sysinfo.c | everything on Linux (lsb_release, uname, resolver, inventory files, forwarding) and on FreeBSD (kenv, forwarding sysctls) | the system calls themselves, the OpenBSD inventory sysctls |

## Conventions

* Bytes are `UInt8`; C strings are lists without NUL.
* Memory accesses outside an object are an explicit outcome (`oob`), never a
  default value; so are failed assertions and `my_fatal` (`abort`) and endless
  loops (`stuck`). "Never `oob`" is therefore a theorem, not a convention.
* Model files: `Verif/Model/*.lean`; specifications: `Verif/Spec/*.lean`;
  helper lemmas: `Verif/Lemmas/*.lean`; property theorems with their concrete
  instances: `Verif/Props/*.lean`.
* A theorem `Cnn_..._partial` proves less than property Cnn says. The theorem
  beside it that is not partial and ends without parameters is the witness
  that the full statement is false for this code.

## Per property

| id | modelled / proved how |
|----|------------------------|
| C01 LLDP advertisement round-trip | `lldpPacket`, `lldpDecode`: builder over a memory of 1518 bytes with the PUSH macros, decoder over memory with the GRAB macros; builder = abstract TLV encoder (Spec/Advert), decoder = abstract TLV reader (Spec/Wire), composed in Props/Packet. |
| C02 CDP advertisement round-trip | same, both versions. |
| C03 FDP advertisement round-trip | same. |
| C04 EDP advertisement round-trip | same. |
| C05 NDP advertisements are complete and accepted | same; the whole frame is given. |
| C06 Transmitted frames respect the frame buffer and Ethernet limits | writes outside the memory are `oob`; never `oob`, reported length = bytes written, bounds. |
| C07 Decoders never read outside the received frame | reads outside the memory are `oob`. LLDP reads up to two bytes too far (witness, `_partial`). |
| C08 Decoding depends only on the received frame | the decoder on frame ++ rest does not depend on rest. |
| C09 LLDP grammar enforcement | independent grammar on the payload bytes; acceptance iff grammar. |
| C10 Header checksums verify | `my_chksum` as a loop in 32-bit arithmetic against the one's complement sum. |
| C11 Capture filter agrees with the frame checks | BPF machine + literal program; exact accepted set for all frames. EDP is false (witness). |
| C12 Untrusted strings are sanitised | vis/strnvis byte level; alphabet of the output by induction, then for all fields of a peer. |
| C13 Sanitisation is lossless and fits | independent inverse; round trip by induction; buffer bound. |
| C14 Bounded string copies | strlcpy/strlcat over explicit memories. |
| C15 One entry per neighbour | invariant by induction over events. |
| C16 Latest advertisement | per-step refinement of `child_queue` to a map. |
| C17 Expiry | per-step theorem on `child_expire`, history theorems with a clock. |
| C18 Entries of one neighbour stay adjacent | invariant by induction over events. |
| C19 Client sessions never touch freed entries | use after free is an outcome; false in general (two witnesses), `_partial` for histories without them. |
| C20 Expired neighbours are not displayed, messages do not bleed | client loop; false in general (three witnesses), `_partial`. |
| C21 Batch output cannot be broken out of | `batch_write` against a model of the shell's quoting. |
| C22 Sent only where permitted | every message sent in any history satisfies a predicate over options, interfaces and neighbours. |
| C23 Every permitted interface is advertised on | messages of a round = specified plan; overlapping arguments witness. |
| C24 Link flapping is rate limited | counter over histories; vanishing interface witness. |
| C25 Privileged process validates requests | `parent_req`, `parent_send` on arbitrary datagrams. |
| C26 One raw socket per interface | invariant over histories; closing witnesses. |
| C27 Multicast membership is symmetric | exact memberships of open sockets; closing witness. |
| C28 Received frames are classified and bounded | `parent_recv` on arbitrary captures. |
| C29 Interface traversal | `netif_iter`, `subif_iter`; endless loop for a port reported twice (witness). |
| C30 Privileges are dropped | the start as a program of system calls, any of which may fail; kernel rules in Spec/Start. Debug run witness. |
| C31 Port name abbreviation | bytes. |
| C32 Interface description | fold over the table; zero source address witness; `C32_wraps` builds on the flood of C84: the 16-bit number of neighbours wraps to zero. |
| C33 Client session delivers the table | sessions interleaved with table changes. |
| C34 Management address choice | fold over the address list; two witnesses. |
| C35 Option combinations | fold over parsed options. |
| C36 Meaning of CDP, FDP, EDP and NDP frames | decoders against readers of the wire formats (Spec/Wire), soundness and completeness. |
| C37 Repeated mandatory LLDP TLVs | witness that they are accepted; proved not to change the outcome. |
| C38 Documented fields | each frame decodes to exactly the list of TLVs of Spec/Advert. |
| C39 No frame crashes the unprivileged process | composition of `parent_recv` and `child_queue`. |
| C40 The interface list mirrors the system | `netif_fetch` against the kernel's list. |
| C41 References stay valid | invariant of the whole daemon over histories. |
| C42 Table lines | width, contents of the six columns and one line per neighbour; newline witness. |
| C43 HTTP fields | splitting at `&` gives back the eight fields with the values of the neighbour, for every neighbour a run displays. |
| C44 Client options | fold over options, selection in the loop. |
| C45 Control socket | states between all system calls of the start. |
| C46 One daemon, pid file | interleavings of any number of starting processes. |
| C47 Capabilities of the privileged process | state at the event loop. |
| C48 Signals | the start and the end; failing fork witness. |
| C49 What a system says about itself | `sysinfo_fetch` and the options of the start, against the answers of the system; invariance over histories. |
| C50 Announced capabilities follow the system | fold of `netif_fetch` over the kernel's list, over histories. |
| C51 Details of an interface are those the kernel reports | invariants of the detection loop of `netif_fetch`: attributes of the interface itself are set once from the kernel (`known`), roles of ports by the aggregation naming them. |
| C52 Frames describe the interface as it is | the loops of `child_send` change a record only by link counts and link properties (`Drift`); tables for media types and advertised modes; EDP numbers by induction over histories. |
| C53 What one ladvd announces another one shows | composition of C52 (what is built), C29/C30 (what the privileged process makes of a message), C11 (filter), C28 (forwarding), C01-C05 (round trips, independent of the source address) and C16 (table).  Partial: EDP frames do not pass the filter, NDP carries no names. |
| C54 The full report says what the frames say | `Model/Print.lean` models the decoders again as programs that write (`Pr`), since what was printed before an error exit stays printed.  `Spec/Print.lean` states the report of a list of TLVs, TLV by TLV, and how reports follow each other.  The decoders are related to it by induction over the TLVs; `C54_run_partial` by induction over the entries, `C54_daemon_partial` for what any history of the daemon delivers.  Partial: see defects. |
| C55 Neighbours cannot tamper with the full report | compositional predicate over `Pr` (every piece of text written is safe), for all frames without hypotheses; for lines, by induction over the TLVs of the specification, carried over with C54.  Partial: line feeds in names and ids (`C55_forged`). |
| C56 The daemon keeps running | composition: totality of every step of `daemonStep` on states meeting the interface invariant (`Good`), for frames forwarded by the modelled privileged process from the modelled filter (`Captured`); by induction over histories a run succeeds or reaches a client session continued at a freed entry.  `C56_partial`: with orderly clients the second case is excluded by the lock invariant of C19.  Partial: `C56_use_after_free`. |
| C57 Link notifications are answered | `child_link`, `child_link_cb` on the payload bytes of arbitrary messages in arbitrary reads; refinement to the link events of the daemon by induction over messages and reads, so that all theorems about histories of events apply.  Partial: every report about an interface that is up counts. |
| C58 Process titles | memory of the strings as an object with offsets as pointers, copies as separate values; the search for the end of the strings by an invariant (everything in the range belongs to a string), the contents for the layout of Linux.  Partial: empty program name. |
| C59 Message passing | `imsg.c` and `imsg-buffer.c`: queue, `sendmsg` arguments, drain, receive buffer, `imsg_get`; the socket as a stream of bytes with descriptors in front of the first byte they were sent with (`Spec/Imsg.lean`).  Invariant over arbitrary interleavings: bytes and descriptors between the ends are those of the messages not yet obtained, and every message has its descriptor before its last byte (`Conveys`).  Partial: pieces of 65536 bytes and more. |
| C60 Dumps | `my_pcap_*` as a writer of the file format of pcap-savefile(5); the reader of that format is written independently (`Spec/Capture.lean`).  Writer and reader composed by induction over the frames; for the daemon over the histories of C25-C30. |
| C61 Posting | the argument of `-p`, request, replies; decoder of forms after the HTML standard (`Spec/Http.lean`), composed with libevent's encoding, for everything the client shows.  Partial: ports. |
| C62 FreeBSD: interface list | `bsdFetch` models the loop over `getifaddrs` with the C strings and sysctl names as bytes.  Simulation: for answers that fit the buffers (`BsdOk`) it is the Linux detection on a translated kernel, so that C40, C51 and the invariants of histories carry over; the translation is removed again from the statements, which speak about the BSD answers only (`Spec/Bsd.lean`).  Capabilities, closed interfaces and management interface likewise (`Props/BsdSys.lean`). |
| C63 BSD: ports | as C62.  The growing buffer of `netif_bridge` by induction over its retries.  Partial: on macOS only the first member is found (witnesses). |
| C64 FreeBSD: VLANs | as C62.  Partial: the code uses the request of the last link level address for all VLANs (witness). |
| C65 FreeBSD: device description | as C62; the unit number by induction over the name.  Partial: long names and texts (witnesses). |
| C66 FreeBSD: link properties | fold over the possible media against two tables. |
| C67 FreeBSD: link notifications | the message as bytes against its layout. |
| C68 FreeBSD: system information | `bsdSysinfo` models `sysinfo_fetch` as compiled on FreeBSD; `kenv` copies 32 bytes into zeroed fields of 33.  Closed form of the result, from the lemmas of C49. |
| C69 FreeBSD: multicast groups | `parent_multi` as compiled on FreeBSD, the kernel's groups per interface as sets.  Induction over histories of opening and closing.  Partial: a group that another program joined before is left on closing (witness `C69_foreign`). |
| C70 LLDP conforms to the standards | `Conformant`, written from IEEE 802.1AB and TIA-1057, is a predicate on TLV lists; the TLVs of every built frame (C38) satisfy it, and so do those of every frame the daemon sends (C49, C51, C52).  Partial: fails for announced locations of more than 250 characters, VLAN ids of 4095 and above and ports that do not negotiate; each is proved to break the standard (`C70_location_wraps`, `C70_vlan_ids`, `C70_negotiation`). The theorem about the daemon has the last condition in the terms of both systems (`Media.bsd` is what FreeBSD answers about media, if it is that system). |
| C71 From one system to its neighbour's terminal | Composition of everything between: start (C49), round (C52), transmission (C53), capture (C11, C28), table (C16, C17 for arbitrary events in between), delivery (C33), display (`C20_delivered`) and batch output (C21). The history of the whole process is projected to one of the table whose operations are parts of its events (`run_ops`). Partial: EDP, names in NDP, tables with expired entries. |
| C72 Memory of the receiving process | `Model/Heap.lean` is the receive path again with `malloc` and `free`: a heap that never reuses an address, the eight peer pointers of an entry, the buffers of `GRAB_BYTES` and `netif_descr`; use after release and double `free` are `oob`. Shown to refine the model on values operation by operation (`Ref` for the decoders, `Rel` for the table), with the ownership invariant `Owned` carried along. Partial: a client session can continue at a released entry (`C72_use_after_free`); that is the only invalid access (`C72_dangling`). |
| C73 Linked lists | `Model/Tailq.lean` has the `TAILQ` macros on a memory of `tqe_next`/`tqe_prev` fields, with `malloc` and `free`, and the search, insertion and expiry loops of child.c written with them. `Spec/Tailq.lean` says which pointers represent a list of addresses. Each macro preserves this and has its list effect (`C73_append`, `C73_after`, `C73_remove`, `C73_foreach`, `C73_sweep`); by induction over the history the pointers represent the table of the list-level model (`C73_table`, `C73_read`), provided that `malloc` does not return memory in use. |
| C74 Log | `Model/Log.lean` has the messages of level `CRIT` of `child_queue` and `child_expire` and how `my_vlog` writes them. `C74_appears`, `C74_new_only`, `C74_departs_partial`, `C74_removed_only` and `C74_enabling` relate them to the changes of the table and of the interfaces; `C74_balance_partial` (induction over the history) says that the table can be counted from the log. `C74_written`, `C74_lines_partial` and `C74_safe` are about the output. Violations: an orderly LLDP shutdown carries no name, so the departure is not logged (`C74_farewell`); renaming is not logged (`C74_renamed`); names may contain line feeds and forge lines on the standard error (`C74_forged`); 128 options `-v` silence everything (`C74_silent`). |
| C75 Concurrency | `Model/Ipc.lean` runs the processes concurrently, with the four queues of the two socket pairs and blocking reads and writes, in any interleaving. An invariant over all steps gives `C75_replies`, `C75_frames` and `C75_packets`; a lexicographic measure gives `C75_finite`; `C75_halted` says that a state without possible steps is settled or a deadlock of a specific form, and `C75_done_partial` that everything gets done while no more frames are on their way than the queue has room for; `C75_sending` excludes deadlocks without reception. Violation: a burst of frames while the unprivileged process waits for a reply makes both processes wait for each other forever (`C75_deadlock`, `C75_forever`). |
| C76 Visual encoding | `Model/Vis.lean` and `Model/Strvis.lean` model all of compat/vis.c; `Spec/Unvis.lean` reads encoded text by the grammar of the manual page. Each shape of item reads back as its byte whatever follows it (`C76_block`, `C76_string`); the loop of the limited encoder stores a maximal prefix of whole items (`C76_truncated`). Violation: with a buffer of one byte the reported length is 0 for every text (`C76_one`), so the length is proved for all other sizes (`C76_length_partial`). |
| C77 Client connection | `Model/Conn.lean` refines the client sessions of `Model/Child.lean` to the bytes of the connection: layout of the message, `write` with every possible result including short writes and `EPIPE`, `read` on packets and on a byte stream. An invariant over all histories says that the connections carry the encodings of the entries recorded as sent; reading them gives the entries back (`C77_packets`, `C77_shown`). Violations: byte streams split messages (`C77_short_write`, `C77_short_read`), and `SIGPIPE` is not ignored (`C77_killed`). |
| C78 Timer | `Model/Timer.lean` adds the time of the next round to the daemon: `event_add` at the end of `child_send` sets it to 30 seconds after the round. A history gives each event its time; `Punctual` says that times do not decrease, that the timer fires no earlier than due, and that no event comes later than the due time plus the lateness of the event loop. By induction over histories a round falls in every window of 30 seconds plus lateness (`C78_period`), with the messages of C23 (`C78_renewed`), from real starts. The table is without stale entries after each round (`C78_stale_partial`, `C78_stale_served`, `C78_stale_alone`); exception: marks of clients, which may be leaked (`C78_leaked`). Two daemons and a link with bounded losses and delay: `C78_seen_partial`, not for EDP (C53). |
| C79 Descriptions in the kernel | `Model/Alias.lean` puts together the two sides modelled before: the requests that `netif_descr` and `netif_fetch` make (with the bytes a previous answer left in the request) and `parent_check`, `parent_req` and the `ifalias` file behind them.  `Spec/Alias.lean` states the rules of that file in Linux and runs the daemon together with the aliases of the kernel.  A lemma for each operation says which requests it makes (`Asked`: none without `-z`; only for known interfaces whose befitting text differs from the stored one; for all those heard or changed), `described_core` what they do to the aliases.  Then by induction over histories: what is read (`C79_read`, `C79_refresh`), one event (`C79_exact`), an interval between two refreshes (`C79_follows_partial`), a refresh and a frame (`C79_settles_partial`), all histories (`C79_off`, `C79_written`, `C79_never_empty`).  Partial: see defects.  The text itself is C32. |
| C80 Latest advertisement | `Spec/Latest.lean` defines by recursion over a history the latest advertisement of a neighbour, without a table, locks, expiry or other neighbours (only decoding is taken from the model; what it yields is C01 to C09).  The table is proved to refine it: one step for each operation (`latest_step`), then induction, for the table (`C80_table`) and for the whole process (`C80_daemon`); independence of other neighbours and of clients follows (`C80_alone`), and with C33 and C20 the rows a client displays (`C80_shown`).  The comparison is of information that is still valid, since a frame with lifetime zero removes everything expired at that time. |
| C81 Ends of the processes | `Model/Life.lean` adds to the concurrent model of C75 signals, handlers, fatal errors and the ends of the processes.  An invariant over all histories (`LifeInv`: a process that ended has been reported; signals noted have handlers; the socket is removed exactly by a proper end).  Decreasing measures bound the steps of the process left over (`parentRest`, `childRest`), case analysis shows that it is not blocked (`C81_parent_follows`, `C81_both_partial`).  Partial: see defects. |
| C82 Running once | In the same model: sent and remaining packets make up the round (`once_step`), with the invariant of C75 `C82_once_partial`; `C82_lost` constructs for all packets a history in which an arbitrary rest of them is lost. |
| C83 Automatic protocols | On the daemon model, against the kernel's own list of ports (`HasPorts`, Spec/Follow.lean): invariant `FollowInv` (the protocol bits of an interface are those of the table entries of its ports, `Serves` and `Exact`) through refresh, reception, goodbye, expiry and client sessions; combined with C23 and C24 `C83_round_partial`, `C83_link_partial`. `C83_stale`, `C83_forgotten` are the witnesses for changing ports. |
| C84 Size of the table | Every entry of a reachable table comes from a received frame (`queue_from`) and keys are unique (C15), so its length is at most that of any list `K` of keys that covers the senders (`AllFrom`, `AllSince` in Spec/Flood.lean): `C84_bound_partial`, after a round `C84_recent_partial`.  The other half is false: `C84_flood` extends any history by NDP frames from any list of foreign addresses, each of which passes filter and forwarding and adds an entry; `C84_unlimited` gives the number of entries. |
| C85 Descriptions on FreeBSD | `Model/BsdDescr.lean`: `parent_req`, `parent_check` and `parent_descr` as compiled on FreeBSD, with the calls of `SIOCSIFDESCR` they make.  `Spec/BsdDescr.lean` states what these calls do in the kernel and runs the unprivileged process (`childStep`) together with the descriptions of the kernel; a refresh may find any list of interfaces (C62 says which), whose descriptions are read by `bsdDescr`, and others may change a description at any time.  `C85_request` treats every datagram; `C85_served`, `C85_exact`, `C85_follows_partial`, `C85_settles` and `C85_written` are as for C79, by induction over histories; here the empty text and texts with line feeds are covered.  Partial: see defects. |
| C86 Table and report agree | Two models of the same decoders, one filling the table (`Model/Decode.lean`, print flag off) and one printing (`Model/Print.lean`). `Spec/Views.lean` says which line of the report each field of the table is; the two exact characterisations (C09/C36 for the table, C54 for the report) are joined by induction over the TLVs. Partial: frames that are accepted for the table but whose report breaks off [C86_cut]. |
| C87 Systems on a segment | `Spec/Segment.lean` puts any number of started daemons (`startUp`, `daemonRun`) on one segment: a frame is heard if some system transmitted it at some time of its life. `C87_real` is an induction over the listener's history, using what C53 says of single frames; `C87_kept_partial` an induction over the times the system is heard, using what C53 says of the silence in between. Partial: two stations with one address and one protocol share an entry, and all standby ports of active-backup aggregates send from the zero address [C87_standby]. The delivery of the wire itself (who hears whom) is not modelled: any frame may be heard by anyone at any time after any delay. |
| C88 FreeBSD: the daemon | `Model/BsdDaemon.lean` is the event loop with `bsdFetch`, `bsdMedia` and the routing socket. Simulation: every event is one of the Linux model with translated answers (`bsdStep_eq`, from C62 to C67), so a history on FreeBSD is a history there (`bsdRun_eq`); C53 and C56 carry over. Partial: as C53 and C56 [C88_edp_unheard, C88_use_after_free]. |
| C89 FreeBSD: rounds | The due messages stated with the ports a FreeBSD kernel reports (`BsdDue`); simulation as for C88, results of C23, C24 and C52. Partial: as C23 and C24 [C89_overlap, C89_vanished]. |
| C90 FreeBSD: the table | `bsdLatest` states the latest advertisement over a FreeBSD history; simulation as for C88, results of C15, C17, C18 and C80. Partial: the display, as C20. |
| C91 Linux and FreeBSD systems on a segment | `Spec/Mixed.lean` puts started daemons of both kinds on one segment. `Lemmas/Segment.lean` holds the induction of C87 over any kind of speaker; Linux speakers satisfy it by C87, FreeBSD ones by the simulation of C88. A FreeBSD listener is a Linux listener with translated events. Partial: as C87. |
| C92 Flushing and clearing | `imsgFlush` takes the list of the kernel's answers and is `stuck` when they run out; `C92_flush` shows it to be a sequence of the writes of C59, `C92_flushed` bounds their number by the bytes queued. `C92_clear` uses the accounts of C59 for descriptors. Partial: [C92_zero], [C92_seek_wraps]. |
| C93 Setting the clock | `Spec/Clock.lean` adds the true time to every event; the reading of the clock in the event is arbitrary (`C93_latest`) or bounded by a deviation. Induction over the history: what was heard last is in the table, or nothing is since some reading exceeded its life time. Partial: hold times beyond 16 bits [C93_wraps]. |
| C94 Timing on FreeBSD, mixed pairs | `Model/BsdTimer.lean` is the transmit event with the routing socket; `Spec/BsdTimer.lean` restates punctuality, rounds and transmissions for FreeBSD and defines `Uptime`, the run of a system of either kind. Proved by simulation: a timed run on FreeBSD is a timed run of the Linux model with translated events; the two-system theorem has one core (`seen_core`) for all four combinations. Partial: as C78. |
| C95 ladvdc as a whole | `Model/Client.lean` is `cli_main` from the options to the exit status in all five modes, with the texts on both outputs; `Spec/Client.lean` has the help as a list of options, connect(2) for a user and a control socket, and the columns of the table. `C95_reason` composes the start of the daemon (`C45_open`) with the client. Negations proved: `C95_killed`, `C95_cut`. |
| C96 Several instances | `Spec/Site.lean` runs the start, child and signal programs of `Model/Start.lean` against one shared socket and lock; invariant `OneAtATime` by induction over the events for starts in the background; `C96_taken`, `C96_removed` and `C96_once` show what instances in the foreground do. |
| C97 Command lines as typed | `Model/Argv.lean`: `getopt` over words, the option loop with its messages, help and exit status, both programs. `Spec/Argv.lean`: the relation `Written` (ways to write options and operands). Round trip in both directions by induction over the words (`C97_written`), then through C35 and C95. False as a whole: in the background the reason goes to the log only (`C97_untold`, `C97_user`, `C97_order`), the manual's default of LLDP does not exist (`C97_no_default`), `-y` is missing in the help (`C97_undocumented`), and the shell sees status 0 when the daemon fails behind `daemon` (`C97_status`) |
| C98 From words to lines | `Model/Typed.lean`: the daemon from its words to the state of the unprivileged process. `Spec/Typed.lean`: what words ask for, in terms of letters and operands only. Composition: C97 (words), C35 and C49 (settings and state), C23 (rounds), C71 (hearing, keeping, delivering), C44 and C95 (client). Partial as C23 and C71 are: an aggregate named with one of its ports is announced twice, EDP is not heard, and an expired entry disturbs the display of the next one asked for (`C98_shown_partial` in `Props/Shown.lean` needs only that the entry asked for directly before has not expired, by C102). The kernel's delivery from socket to client is a hypothesis (`w.input` is what the daemon delivered; C77 treats the socket). |
| C99 Watching | `Props/Watch.lean`, no new model: composition of C94 (the table of the second system holds a fresh entry with the contents of a frame of the first), C33 (the daemon hands over its whole table), C44, C95 and C97 (what the client displays, from its words on) by way of C102. C78 and C94 were strengthened for it: their conclusions also give the frame and the name. Partial: EDP (C53), names in NDP (there are none), and tables where an expired entry the user asks for comes directly before (C102) are left out, for which the claim is false [C99_hidden]; the kernel's delivery from socket to client is a hypothesis. |
| C100 Descriptors | `Model/FdTable.lean`: descriptor table with files, `available_fds` with its array (reading a cell not written is `oob`), the whole of `imsg_read` over the list of the kernel's answers (`stuck` when they run out). `C100_available` by induction over both loops; free numbers are counted by a pigeonhole argument against the specification `HasFree`. `C100_read`: the effect of a call, whatever the answers; it discharges the simplification of `imsgRead` in C59 that there are free descriptors. `C100_spins`: finding, `EAGAIN` is retried for ever; ladvd itself does not call `imsg_read`. Sizes as where `size_t` has eight bytes. |
| C101 Words on both systems | `Model/BsdTyped.lean`: the daemon on FreeBSD from its words on. `Spec/BsdTyped.lean`: what words ask for there, and systems of either kind started from words (`TypedUptime`, `TypedAlways`), with no mention of settings. Composition of C97 with C88 and C89 (FreeBSD), C98 (Linux) and C99. Partial as those are. |
| C102 Damage of expired entries | No new model. `Spec/Stale.lean`: which entry asked for comes directly before another. `Lemmas/Stale.lean`: a frame that was decoded once is decoded or rejected whatever earlier messages left behind, hence the client's loop ends for every table the daemon can hold, by induction over the table from any state. |
| C103 Files of the privileged process | `Model/Files.lean`: `parent_descr`, `parent_device` and `parent_device_id` with the paths they build (`snprintf` into 256 bytes) and the calls they make, and `parent_req` around them; the file system answers for paths. `Spec/Files.lean`: which calls an operation stands for. A refinement theorem ties it to `Model/Parent.lean`, whose environment answers for interfaces. Not modelled: the files libpci opens by itself, changes of the file system while a request is served. |
| C104 From a run to shell variables | No new model: C97 (words), C44 (options), C102's treatment of stale entries and C21 (what a shell makes of the output) composed for `-b`. `C104_script` describes all assignments; `C104_found` says that an unspoiled neighbour has its twelve variables under some number. `C104_either` and `C102_either` (`Props/Either.lean`) say the same for daemons on FreeBSD. The samples show a name taken over from an expired entry with `-b`, and the same table without damage when the expired protocol is not asked for. |

## Defects found

Each is a theorem about the model (name in brackets) unless marked otherwise.

* The capture filter compares EDP frames with 0e:2b instead of e0:2b
  [C11_edp_rejected, C11_mistyped_accepted].
* The LLDP decoder reads up to two bytes behind the frame [C07_lldp_overread].
* The driver name is cut off at 15 characters before it is compared with "802.1Q VLAN Support": where the VLAN query fails, a VLAN is taken for
  a regular interface [C40_vlan_driver].
* Repeated mandatory LLDP TLVs are accepted [C37_duplicate_accepted].
* A reception overwrites the lock count of an entry a client session holds: use
  after free [C19_use_after_free]; a timed out session never unlocks its entry
  [C19_lock_leaked].
* `ladvdc` does not release the data of an expired entry: the next neighbour is
  shown with it or hidden [C20_bleed, C20_hidden]; `-f` prints expired entries
  [C20_print_expired]; `-C` misses CDP version 1 [C44_cdp1]; line ends in peer
  texts add lines to the table [C42_injected].
* An aggregate and its port on the command line: sent twice [C23_overlap].
* The link event limit starts again when an interface vanishes [C24_vanished].
* Closing: sockets of vanished interfaces stay open [C26_close_vanished], in a
  debug run all [C26_debug]; groups are joined again [C27_close_rejoins].
* A port the kernel reports twice: endless loop [C29_duplicate_port].
* `-d` keeps all privileges in the process that handles packets [C30_debug].
* A neighbour with source address zero is not counted [C32_zero_source].
* The number of neighbours in a description is counted in 16 bits: with 65536 of them known on an interface, which takes as many short frames, its description is cleared as if there was nobody [C32_wraps].
* The management interface is not revised, secondary addresses are not found
  [C34_stale, C34_secondary].
* `-c` accepts any two characters [C35_country].
* The pid file is not truncated [C46_stale].
* A failing fork sends SIGTERM to every process [C48_everyone].
* A device that can not negotiate is announced with negotiation enabled
  [C52_autoneg_misreported]; in C the shift of -1 is also undefined.
* Ports of an LACP team have aggregated port id 0 [example beside C51_role].
* Link notifications that do not report a link coming up are answered as well
  and use up the limit for link events [C57_any_report, C57_exhausted].
* Called with an empty program name and nothing else, setting the process title
  overwrites all memory behind it [C58_empty_name].
* `imsg_composev` reduces the length of every piece modulo 65536 and reports
  success [C59_wrapped].
* `ladvdc -f`: a malformed LLDP port id passes a null pointer to `printf`
  [C54_null]; an expired entry is printed and cuts the next report
  [C54_expired]; frames the daemon accepts are cut [C54_cut]; IPv4 chassis ids
  are not shown [C54_network_id]; names with line feeds forge lines
  [C55_forged].
* The use after free of C19 crashes the whole unprivileged process in a history
  of events with real frames and rounds; it is the only way to crash it
  [C56_use_after_free, C56_only_clients].
* `ladvdc -p`: a port in the URL becomes part of the host's name [C61_port], so
  does an unknown scheme [C61_https]; the name of the interface is not encoded
  [C61_interface]; the value of `holdtime` ends with two line ends (`posted`).
* FreeBSD: all VLANs are given the parent and the id of the interface with the
  last link level address [C64_vlan_last, C64_vlan_wrong]; a driver name of 16
  characters is read behind its buffer [C65_driver_long]; a description of 64
  characters is not terminated [C65_text_long].
* macOS: only the first member of a bond is found [C63_macos_first]; with three
  members walking the ports never ends [C63_macos_endless].
* FreeBSD: closing an interface leaves a multicast group that another program
  had joined [C69_foreign].
* `strnvis` reports length 0 for every text if its buffer has one byte
  [C76_one]; no call in ladvd has such a buffer for a text that is not empty.
* C77: a short `write` to a client counts as success and the rest of the message is never sent [C77_short_write]; a short `read` silently ends
  the client's output [C77_short_read]; both can happen only where the control socket is a byte stream. `SIGPIPE` is neither caught nor ignored:
  where a `write` to a departed client raises it (byte streams everywhere, all local sockets on the BSDs), a client that leaves early kills the
  daemon [C77_killed].
* C78: the mark of a client that was dropped because it read nothing keeps a stale neighbour in the table through any number of rounds [C78_leaked].
* C79: with `-z` the description of an interface is not removed when its last neighbour vanishes: the daemon asks for an empty text, `write_line` writes no bytes, and Linux takes no notice of that; a description once set stays until another neighbour comes [C79_stays, C79_never_empty].
* C79: the stored description is renewed by a refresh of the interfaces only, not by a request; if the befitting text changes and returns between two refreshes the kernel keeps the one in between until the next refresh and frame [C79_returns].
* C79: a line feed in a neighbour's name is written into the kernel and one line is read back, so that the request is repeated with every frame [C79_newline].
* C85: on FreeBSD likewise the kernel keeps the text in between if the befitting one changes and returns between two refreshes [C85_returns]; and a description that someone else had set is lost when a neighbour comes and goes, unless it has 64 bytes or more and no neighbour is ever heard [C85_lost].
* C86: a frame with, for instance, a CDP duplex TLV of two bytes is shown in the table with its port, while its report ends before the port [C86_cut]; a port identified by its Ethernet address is in the report and not in the table [C86_blank].
* C87: the standby ports of active-backup aggregates send from the address 00:00:00:00:00:00, so of all systems with such ports on a segment a neighbour lists only the one it heard last [C87_standby].
* C92: `imsg_flush` takes the 0 of `msgbuf_write`, which stands for a closed connection, for progress and repeats the call for ever [C92_zero]. `ibuf_seek` adds position and length without looking for an overflow and hands out pointers in front of the buffer [C92_seek_wraps]. Neither is called by ladvd's own sources.
* C93: `ladvdc` reads the clock once, before the neighbours. An advertisement that arrives later is younger than zero seconds and its hold time exceeds its life time; for the life time 65535 it is shown as 0 [C93_wraps]. Expiry follows the wall clock: setting it forward drops neighbours heard a moment ago [C93_early], setting it back keeps silent ones [C93_late].
* C99: between two rounds the table may hold an advertisement that has expired. If the client reads it before another one, the other neighbour is not displayed although it was heard seconds ago, or is displayed with foreign data: `ladvdc` then shows nobody, with status 0, while `ladvdc -L` shows the neighbour [C99_hidden]. Cause: `cli.c` skips expired messages without releasing the strings decoded (C20).
* C100: `imsg_read` asks again for ever after `EAGAIN` [C100_spins]; ladvd does not call it.
* C88 and C89: what is wrong with readers, EDP, overlapping command lines and vanishing interfaces on Linux (C53, C56, C23, C24) is wrong on FreeBSD too [C88_use_after_free, C88_edp_unheard, C89_overlap, C89_vanished].
* C49, C68: in a release such as `6.2-next-7` the last number is read as -7 and announced as 249 [C49_minus, C68_minus].
* C50, C68: a system whose forwarding setting is not 0 and not 1 forwards, but is not announced as an active router [C50_other_value, C68_other_value].
* C81: with `-r`, if the daemon is told to end (or fails) while the unprivileged process waits for a reply, that process waits for ever: the sockets are datagram sockets, whose readers are not told of the end of the other side, and its handlers for `SIGINT` and `SIGTERM` are never run [C81_orphan, C81_orphaned].
* C81: in the deadlock of C75 neither process reacts to `SIGINT` or `SIGTERM` [C81_deaf]; stopping the unprivileged process (`SIGSTOP`) makes the privileged one quit without telling it [C81_stopped]; the exit status is zero after fatal errors and crashes too [C81_status].
* C82: with `-o` advertisements are lost when the end of the unprivileged process is noticed before they have been read; the privileged process reads one packet for each turn of its event loop and quits at once on `SIGCHLD` [C82_lost].
* C83: with `-a`, if a neighbour expires after the port on which it was heard left the list, the protocol stays enabled on the aggregate for good, since the update loop visits only listed interfaces [C83_stale]; an interface that goes down and up again loses its protocols although its neighbours are still in the table, until their next frame [C83_forgotten].
* C84: the neighbour table has no limit; a station with made-up source addresses makes it (and the linear search for every frame) grow as far as memory goes [C84_flood, C84_unlimited].
* LLDP: the length octet of locations longer than 250 bytes wraps around
  [C70_location_wraps]; reserved VLAN ids are announced [C70_vlan_ids].
* Not stated as theorems: `ladvdc -d` stamps records with the time of the dump; `toupper` on negative characters is undefined;
  `netif_fetch` returns its count modulo 65536; NDP sends the index modulo 256.

## Mutation tests

`seeded/LOG.jsonl` lists the edits tried on a copy of the model, the theorems
that failed and the theorems tightened because of them. `stopped_at` names the
declarations at which the build stopped, `theorems_failed` the theorems of
MANIFEST.json that depend on one of them.
