{"id": "C01", "title": "LLDP advertisement round-trip", "statement": "For every local configuration and interface, the LLDP frame that ladvd transmits is accepted by ladvd's own LLDP receiver, which recovers from it exactly the advertised hostname, port name/description, capabilities, management addresses and the 180 second lifetime.", "quantifier": "all system descriptions, hostnames, interfaces (any parent/bond/bridge/vlan arrangement), MACs, addresses and description strings that fit the struct fields", "why_tests_cant": "the input space is a product of several unbounded string and list spaces; tests sample a handful of canned configurations", "anchors": ["src/proto/lldp.c: lldp_packet, lldp_decode", "src/proto/tlv.h", "src/proto/tlv.c"]}
{"id": "C02", "title": "CDP advertisement round-trip", "statement": "For every local configuration and interface, the CDP frame that ladvd transmits carries a header, checksum and TLVs that ladvd's own CDP receiver accepts, recovering exactly the advertised hostname, port, capabilities, addresses and lifetime.", "quantifier": "all system descriptions, interfaces and addresses that fit the struct fields", "why_tests_cant": "product of unbounded string spaces", "anchors": ["src/proto/cdp.c: cdp_packet, cdp_decode"]}
{"id": "C03", "title": "FDP advertisement round-trip", "statement": "For every local configuration and interface, the FDP frame that ladvd transmits is decoded by ladvd's own FDP receiver to exactly the advertised hostname, port, capability and lifetime (the frame also carries the addresses, which the receiver does not decode).", "quantifier": "all system descriptions, interfaces and addresses that fit the struct fields", "why_tests_cant": "product of unbounded string spaces", "anchors": ["src/proto/fdp.c: fdp_packet, fdp_decode"]}
{"id": "C04", "title": "EDP advertisement round-trip", "statement": "For every local configuration and interface, the EDP frame that ladvd transmits is decoded by ladvd's own EDP receiver to exactly the advertised hostname and a 180 second lifetime.", "quantifier": "all system descriptions, interfaces and vlan lists that fit the frame", "why_tests_cant": "product of unbounded string and list spaces", "anchors": ["src/proto/edp.c: edp_packet, edp_decode"]}
{"id": "C05", "title": "NDP advertisements are complete and accepted", "statement": "Every NDP frame that ladvd transmits is exactly 64 bytes, carries the advertised management address, and is accepted by ladvd's own NDP receiver with a 180 second lifetime.", "quantifier": "all interfaces and addresses", "why_tests_cant": "unbounded interface index space", "anchors": ["src/proto/ndp.c: ndp_packet, ndp_decode"]}
{"id": "C06", "title": "Transmitted frames respect the frame buffer and Ethernet limits", "statement": "No advertisement ever writes past the frame buffer it was given: a frame is either built completely, its reported length being exactly the number of bytes written and at most the buffer size, or the build reports failure (length 0). A successfully built frame satisfies the length range the privileged sender insists on (60..1518), so it cannot abort the privileged process.", "quantifier": "all configurations, all buffer sizes", "why_tests_cant": "overflow appears only at specific total lengths", "anchors": ["src/proto/*.c: *_packet", "src/proto/tlv.h: PUSH_*", "src/child.c: child_send", "src/parent.c: parent_send"]}
{"id": "C07", "title": "Decoders never read outside the received frame", "statement": "For every byte sequence received from the network, each of the five decoders finishes and reads only bytes of that frame.", "quantifier": "all frames (any contents, any length accepted from the capture layer)", "why_tests_cant": "a one-byte over-read is invisible to a test that does not instrument memory; the frame space is 256^1518", "anchors": ["src/proto/cdp.c: cdp_decode", "src/proto/lldp.c: lldp_decode", "src/proto/edp.c: edp_decode", "src/proto/fdp.c: fdp_decode", "src/proto/ndp.c: ndp_decode", "src/proto/tlv.h: GRAB_*"]}
{"id": "C08", "title": "Decoding depends only on the received frame", "statement": "The outcome of decoding a frame (lifetime, peer identity, accept/reject) is a function of the received bytes alone: stale bytes beyond the received length never influence it.", "quantifier": "all frames and all stale buffer contents", "why_tests_cant": "relational property over two runs", "anchors": ["src/proto/*.c: *_decode", "src/common.h: struct parent_msg"]}
{"id": "C09", "title": "LLDP grammar enforcement", "statement": "A received LLDP frame is accepted only if its payload is a well-formed sequence: chassis ID and port ID (2 to 256 bytes each) and TTL (2 bytes) first and in this order, then any number of TLVs of known types with at most one system name and no reserved type, terminated by an empty End TLV; everything else is rejected.", "quantifier": "all frames", "why_tests_cant": "acceptance is a property of the whole language of frames", "anchors": ["src/proto/lldp.c: lldp_decode"]}
{"id": "C10", "title": "Header checksums of transmitted CDP/FDP/EDP frames verify", "statement": "The checksum that ladvd places in CDP, FDP and EDP frames is the one prescribed by the protocol: a receiver summing the protocol data obtains the all-ones/zero verification value, for every content and for odd and even lengths.", "quantifier": "all payloads of any length", "why_tests_cant": "odd-length and sign-dependent tail handling; unbounded lengths", "anchors": ["src/util.c: my_chksum", "src/proto/cdp.c: cdp_packet", "src/proto/edp.c: edp_packet", "src/proto/fdp.c: fdp_packet"]}
{"id": "C11", "title": "Capture filter agrees with the frame checks", "statement": "The kernel capture filter installed on every raw socket never out-of-bounds-accepts or loops, and accepts a frame only if one of the supported protocols' frame checks accepts it; conversely every LLDP, CDP, EDP, FDP or NDP frame that a frame check would accept passes the filter.", "quantifier": "all frames, tagged or untagged", "why_tests_cant": "equivalence of two independently written predicates over all frames", "anchors": ["src/filter.h: proto_filter", "src/parent.c: parent_socket", "src/proto/*.c: *_check"]}
{"id": "C12", "title": "Untrusted strings are sanitised", "statement": "Every text that ladvd extracts from a received frame for logging, display or for the kernel interface description contains only printable characters and the documented safe controls, whatever bytes the peer sent.", "quantifier": "all byte strings", "why_tests_cant": "256^n inputs", "anchors": ["src/proto/tlv.c: tlv_str_copy, tlv_value_str", "src/compat/vis.c"]}
{"id": "C13", "title": "String sanitisation is lossless and fits its buffer", "statement": "Sanitising a peer supplied string never truncates it in the buffer allocated for it and two different peer strings are never displayed identically; the original bytes can be recovered from the displayed text.", "quantifier": "all byte strings without NUL", "why_tests_cant": "injectivity over unbounded strings", "anchors": ["src/compat/vis.c: strnvis", "src/proto/tlv.c: tlv_value_str, tlv_str_copy"]}
{"id": "C14", "title": "Bounded string copies", "statement": "Bounded copy and append never write outside the destination, always leave a terminated string when the size is nonzero, store the longest prefix that fits, and report the length they tried to create so truncation is detectable.", "quantifier": "all strings, all buffer sizes", "why_tests_cant": "unbounded lengths and off-by-one boundaries", "anchors": ["src/compat/strlcpy.c", "src/compat/strlcat.c"]}
{"id": "C15", "title": "Neighbour table holds one entry per neighbour", "statement": "After any history of received frames, expiries, interface removals and client sessions, the neighbour table contains at most one entry for every (interface, protocol, destination address, source address).", "quantifier": "all histories of receive/expire/link events", "why_tests_cant": "history property", "anchors": ["src/child.c: child_queue, child_expire"]}
{"id": "C16", "title": "Neighbour table reflects the latest advertisement", "statement": "Right after a valid advertisement with nonzero lifetime is received, the table contains exactly that frame with its own lifetime for that neighbour and every other entry is unchanged; invalid frames and frames on unknown interfaces never change the table's contents.", "quantifier": "all table states and all frames", "why_tests_cant": "all histories", "anchors": ["src/child.c: child_queue"]}
{"id": "C17", "title": "Entries expire exactly when their lifetime has elapsed", "statement": "An unlocked entry is removed by the periodic expiry if and only if its last reception time plus its advertised lifetime lies in the past; a neighbour that stops advertising is therefore gone by the first expiry run after its lifetime, and never earlier; shutdown announcements (lifetime 0) disappear on the next run.", "quantifier": "all tables, clocks and lifetimes", "why_tests_cant": "history and clock dependent", "anchors": ["src/child.c: child_expire, child_queue"]}
{"id": "C18", "title": "Entries of one neighbour stay adjacent", "statement": "At any time all table entries with the same interface and source address are adjacent in the table, so a neighbour speaking several protocols is counted as one neighbour.", "quantifier": "all histories", "why_tests_cant": "history property", "anchors": ["src/child.c: child_queue", "src/util.c: netif_descr"]}
{"id": "C19", "title": "Client sessions never touch freed entries", "statement": "While a command line client is reading the neighbour table, the entry its session will send next is never freed, whatever frames arrive, expiries run or other clients connect; and when the session ends the entry it held can expire normally again.", "quantifier": "all interleavings of client sessions, receptions and expiries", "why_tests_cant": "schedule property; use after free needs a specific interleaving", "anchors": ["src/child.c: child_cli_accept, child_cli_write, child_queue, child_expire"]}
{"id": "C20", "title": "Expired neighbours are not displayed and messages do not bleed into each other", "statement": "The command line client displays for each table entry only data decoded from that entry, and displays no entry whose lifetime has elapsed.", "quantifier": "all sequences of table entries and clocks", "why_tests_cant": "depends on sequences of entries", "anchors": ["src/cli.c: cli_main", "src/proto/tlv.c"]}
{"id": "C21", "title": "Batch output cannot be broken out of", "statement": "In batch mode each displayed neighbour field is enclosed in single quotes and contains no single quote, whatever the peer sent, so a shell evaluating the output only sees assignments.", "quantifier": "all peer strings", "why_tests_cant": "adversarial strings", "anchors": ["src/cli.c: batch_write, swapchr", "src/proto/tlv.c"]}
{"id": "C22", "title": "Advertisements are sent only where permitted", "statement": "ladvd never transmits on excluded interfaces, nor on wireless interfaces without -w, tap interfaces without -t, invalid or vlan interfaces, nor at all in silent (receive only) mode, and never with a protocol that is neither enabled nor auto-enabled by a received frame.", "quantifier": "all option sets, interface lists, neighbour tables", "why_tests_cant": "combinatorial", "anchors": ["src/child.c: child_send", "src/util.c: netif_iter, netif_excluded, netif_protos"]}
{"id": "C23", "title": "Every permitted interface is advertised on", "statement": "In one periodic round, every usable physical interface that is selected gets exactly one frame per enabled protocol.", "quantifier": "all interface lists", "why_tests_cant": "combinatorial; traversal over linked structures", "anchors": ["src/child.c: child_send", "src/util.c: netif_iter, subif_iter"]}
{"id": "C24", "title": "Link flapping is rate limited", "statement": "Between two periodic rounds at most four link-up events per interface cause an immediate advertisement, no matter how often the link flaps.", "quantifier": "all event sequences", "why_tests_cant": "unbounded event sequences", "anchors": ["src/child.c: child_link_cb, child_send"]}
{"id": "C25", "title": "Privileged process validates requests", "statement": "No request sent by the unprivileged process, however malformed, makes the privileged process access memory outside its request buffer, perform an operation outside the fixed set, or transmit a frame which is not a valid advertisement of a supported protocol; a reply has always the size the client insists on.", "quantifier": "all byte sequences on the request socket", "why_tests_cant": "adversarial inputs", "anchors": ["src/parent.c: parent_req, parent_check, parent_send", "src/util.c: my_mreq"]}
{"id": "C26", "title": "One raw socket per interface", "statement": "After any sequence of requests and capture errors the privileged process has at most one raw socket per interface index; a close releases it.", "quantifier": "all request sequences", "why_tests_cant": "history property", "anchors": ["src/parent.c: parent_open, parent_close, parent_recv", "src/parent.h: rfd_byindex"]}
{"id": "C27", "title": "Multicast membership is symmetric", "statement": "Opening an interface joins exactly the multicast groups of the enabled protocols and closing it leaves exactly those.", "quantifier": "all sets of enabled protocols", "why_tests_cant": "combinatorial", "anchors": ["src/parent.c: parent_multi"]}
{"id": "C28", "title": "Received frames are classified and bounded before forwarding", "statement": "The privileged process forwards a captured frame only if it is at least 60 bytes, truncates it to 1518 bytes, tags it with the protocol owning its destination address and the interface it was captured on; nothing else reaches the unprivileged process.", "quantifier": "all captured frames", "why_tests_cant": "adversarial frames", "anchors": ["src/parent.c: parent_recv"]}
{"id": "C29", "title": "Interface traversal visits each selected interface once", "statement": "Traversing the interface list yields each selected interface exactly once in order and terminates; traversing the ports of an aggregate yields each of its member ports exactly once; a plain interface yields itself.", "quantifier": "all interface lists and option sets", "why_tests_cant": "linked structure of any length", "anchors": ["src/util.c: netif_iter, subif_iter"]}
{"id": "C30", "title": "Privileges are dropped irrevocably and in the right order", "statement": "Before the unprivileged process handles its first event it is confined to the empty directory and has no supplementary groups, and its real, effective and saved user and group ids are the unprivileged ones; if any step fails it terminates instead of continuing.", "quantifier": "all outcomes of each system call", "why_tests_cant": "failure combinations", "anchors": ["src/util.c: my_chroot, my_drop_privs", "src/child.c: child_init"]}
{"id": "C31", "title": "Port name abbreviation", "statement": "Abbreviating a port name never lengthens it, keeps the first characters and everything after the recognised media word (in particular slot/port numbers), and leaves names without a media word unchanged.", "quantifier": "all strings", "why_tests_cant": "unbounded strings", "anchors": ["src/util.c: portname_abbr"]}
{"id": "C32", "title": "Interface description reflects the neighbours", "statement": "The description written to the kernel for an interface is empty iff no usable neighbour is known, names the neighbour if there is exactly one, gives the number of distinct neighbours otherwise, and always fits the kernel limit enforced by the privileged process.", "quantifier": "all neighbour tables", "why_tests_cant": "table dependent", "anchors": ["src/util.c: netif_descr", "src/parent.c: parent_check, parent_descr"]}
{"id": "C33", "title": "A client session delivers the neighbour table", "statement": "A command line client connected to the daemon gets each table entry at most once and in table order, only entries that are in the table at the moment they are written, and, if the session ends without a write error, every entry that was in the table when it connected and still is; whatever is received or expires and whoever else connects while it is reading.", "quantifier": "all histories of receptions, expiries and interleaved client sessions, all patterns of blocking writes", "why_tests_cant": "the delivery may be suspended at any entry and the table changed arbitrarily before it is resumed", "anchors": ["src/child.c:child_cli_accept", "src/child.c:child_cli_write", "src/child.c:child_queue", "src/child.c:child_expire"]}
{"id": "C34", "title": "Management address choice", "statement": "The address advertised for an interface is its own first IPv4 / first non-link-local IPv6 address; with a management interface or address selected, the selected address is advertised on all interfaces.", "quantifier": "all address lists", "why_tests_cant": "unbounded lists", "anchors": ["src/netif.c: netif_addrs"]}
{"id": "C35", "title": "Only consistent option combinations start the daemon", "statement": "For every command line, the daemon starts only when at least one protocol is enabled or auto-detection is on; auto-detection and interface descriptions always imply receiving; debug or foreground never run in the background; the order of the options does not matter, except that the last argument counts for an option with a single value that is given more than once.", "quantifier": "all option sequences", "why_tests_cant": "unbounded option sequences", "anchors": ["src/main.c: main"]}
{"id": "C36", "title": "CDP, FDP, EDP and NDP frames mean what the wire formats say", "statement": "For every received CDP, FDP, EDP or NDP frame, ladvd accepts it if and only if its payload is a header of the supported version followed by a gapless sequence of TLVs whose lengths add up to the payload and whose known TLVs have legal contents, and what it learns (lifetime, names, capabilities, addresses, vlan) is exactly what these TLVs say, the first of several values winning.", "quantifier": "all frames of 26 to 1518 bytes, all contents", "why_tests_cant": "Acceptance is a statement about every byte string, including all malformed ones; tests contain a few dozen captured frames.", "anchors": ["src/proto/cdp.c: cdp_decode", "src/proto/fdp.c: fdp_decode", "src/proto/edp.c: edp_decode", "src/proto/ndp.c: ndp_decode", "src/proto/tlv.h: GRAB_CDP_TLV, GRAB_EDP_TLV"]}
{"id": "C37", "title": "Repeated mandatory LLDP TLVs", "statement": "A received LLDP frame that repeats the chassis ID, port ID or TTL is discarded, as IEEE 802.1AB demands; at the very least a repetition never changes what is learnt from the frame.", "quantifier": "all LLDP frames, any number and position of repetitions", "why_tests_cant": "Needs all positions and contents of the repeated TLV.", "anchors": ["src/proto/lldp.c: lldp_decode"]}
{"id": "C38", "title": "Every advertisement consists of exactly the documented fields", "statement": "Byte for byte, a transmitted CDP, FDP, EDP or LLDP frame is the protocol's multicast destination, the port's address, the encapsulation header, and the encoding of exactly the documented TLVs for the configuration (names, capabilities, addresses of the aggregate or management interface, VLANs in scope, MTU, duplex, location, inventory), in the documented order, with correct length fields.", "quantifier": "all system descriptions, interfaces, VLAN lists and options that fit the struct fields", "why_tests_cant": "every optional field is a branch, the combinations and string contents are unbounded", "anchors": ["src/proto/cdp.c: cdp_packet", "src/proto/fdp.c: fdp_packet", "src/proto/edp.c: edp_packet", "src/proto/lldp.c: lldp_packet"]}
{"id": "C39", "title": "No frame on the wire crashes the unprivileged process", "statement": "Whatever frames arrive on an interface, every frame that passes the capture filter and is handed to the unprivileged process is either decoded or refused there; no assertion fails and nothing behind the frame (beyond the two bytes of the LLDP look-ahead) is read.", "quantifier": "all sequences of frames on the wire, all protocols, tagged or untagged", "why_tests_cant": "depends on three independently written predicates (kernel filter, classification by address, frame check) agreeing on all frames", "anchors": ["src/filter.h: proto_filter", "src/parent.c: parent_recv", "src/child.c: child_queue", "src/proto/*.c: *_check, *_decode"]}
{"id": "C40", "title": "The interface list mirrors the system", "statement": "After a refresh ladvd knows exactly the Ethernet interfaces that are up and of a known kind: those known before keep their place and what was learnt about them (received protocols, link events), new ones are added in the kernel's order, vanished ones are removed and their sockets closed; each has the name, kind, alias and hardware address the kernel reports (VLANs being those for which the kernel's VLAN query succeeds); the refresh counts as failed exactly if there is nothing to use or an interface given on the command line is unusable.", "quantifier": "all kernel interface lists, all previous states, all command lines", "why_tests_cant": "depends on every combination of old and new interface lists", "anchors": ["src/netif.c: netif_fetch, netif_addrs", "src/netif_linux.c: netif_type"]}
{"id": "C41", "title": "References between interfaces stay valid", "statement": "After any sequence of refreshes, whatever the kernel and the privileged process answer, no interface index occurs twice in ladvd's list and the aggregate of a port, the next port of an aggregate and the management interface are always interfaces in the list, never ones that were freed.", "quantifier": "all sequences of refreshes and arbitrary, even inconsistent, kernel answers", "why_tests_cant": "a dangling pointer appears only after particular sequences of changes", "anchors": ["src/netif.c: netif_fetch", "src/netif_linux.c: netif_bond, netif_bridge, netif_team"]}
{"id": "C42", "title": "The neighbour table shows one line per neighbour that fits the terminal", "statement": "In the client's table every displayed neighbour occupies exactly one line which, on a terminal, is exactly as wide as the terminal (80 columns at least), whatever names the peer sent.", "quantifier": "all frames a peer can send, all terminal widths", "why_tests_cant": "peer texts are arbitrary and of any length; the columns depend on several branches of the width computation", "anchors": ["src/cli.c: cli_header, cli_write", "src/tlv.c: tlv_value_str"]}
{"id": "C43", "title": "Fields of the HTTP request cannot be forged by a peer", "statement": "When the client posts neighbours to a web server, the body of the request consists of exactly the eight documented fields with the values of that neighbour; a peer cannot add, remove or change other fields through the texts it advertises.", "quantifier": "all tables of neighbours, all texts advertised by peers", "why_tests_cant": "peer texts are arbitrary", "anchors": ["src/cli.c: http_request, http_dispatch"]}
{"id": "C44", "title": "Client options select what they say", "statement": "ladvdc accepts exactly the documented options (with a post target at most once) and known interfaces; it displays exactly the neighbours of the protocols whose letters were given, or of all protocols if none was, on the interfaces named, or on all; the last output mode option wins.", "quantifier": "all option sequences, all interface lists, all tables", "why_tests_cant": "options combine arbitrarily", "anchors": ["src/cli.c: cli_main", "doc/ladvdc.8.in"]}
{"id": "C45", "title": "The control socket is never open to strangers", "statement": "From its creation on, the control socket is accessible to nobody but root, the group of the starting process and the group of the daemon's user; when the daemon runs, it belongs to that group, root and the group can use it, and it accepts clients exactly if the daemon receives.", "quantifier": "all outcomes of each system call, all moments during the start", "why_tests_cant": "the window between two system calls and failing calls are not observable in a test", "anchors": ["src/child.c: child_init"]}
{"id": "C46", "title": "One daemon at a time, with its number in the pid file", "statement": "However many daemons are started in the background and however their starts interleave or fail, at most one of them is running; its process number is the first line of the pid file.", "quantifier": "all numbers of daemons, all interleavings of their system calls, all failures", "why_tests_cant": "interleavings of concurrent starts", "anchors": ["src/main.c: main"]}
{"id": "C47", "title": "The privileged process keeps only the capabilities it needs", "statement": "Unless it is a debug run, the privileged process holds exactly the capabilities for administering the network, raw sockets, broadcasts and signalling when it accepts its first request, whatever capabilities it was started with.", "quantifier": "all initial capabilities, all outcomes of each system call", "why_tests_cant": "capabilities of the test process are fixed", "anchors": ["src/parent.c: parent_init"]}
{"id": "C48", "title": "Only the unprivileged process is signalled", "statement": "Starting and stopping the daemon signals no process but the unprivileged one; when the privileged process stops, the unprivileged one has ended or is signalled, and the control socket is removed.", "quantifier": "all outcomes of each system call", "why_tests_cant": "failing forks cannot be provoked portably", "anchors": ["src/parent.c: parent_signal", "src/util.c: __my_fatal", "src/main.c: main"]}
{"id": "C49", "title": "What a system says about itself comes from the system", "statement": "After a start the system description, platform, host name, software version, hardware inventory, location and LLDP-MED class that ladvd will announce are those of the system: distribution and kernel names, the resolver's host name unless that is localhost, the first lines of the inventory files cut to 32 bytes, the first three numbers of the kernel release, country and location of the command line. They fit the packet fields and do not change while the daemon runs.", "quantifier": "all outputs of lsb_release, all kernel names, resolver answers, inventory files, forwarding files and command lines", "why_tests_cant": "the answers of the system under test are fixed; texts of any length and content occur", "anchors": ["src/sysinfo.c: sysinfo_fetch, sysinfo_forwarding", "src/util.c: read_line", "src/main.c: main"]}
{"id": "C50", "title": "Announced capabilities follow the system", "statement": "The capabilities announced are: a station always, a router if the kernel can forward IPv4 or IPv6 packets and an active one if one of these settings is 1, a wireless device or bridge exactly if the kernel lists such an Ethernet interface and an active one exactly if one is up; an interface that disappears is no longer counted. Active capabilities are always available ones.", "quantifier": "all histories of events since the start, all kernels", "why_tests_cant": "depends on the whole history of refreshes", "anchors": ["src/netif.c: netif_fetch", "src/sysinfo.c: sysinfo_forwarding", "src/common.h: CAP_HOST, CAP_ROUTER, CAP_BRIDGE, CAP_WLAN"]}
{"id": "C51", "title": "Details of an interface are those the kernel reports", "statement": "After every refresh, the kind of aggregation of a bond or team, the interface below a VLAN and its id, the device name, the role (active or backup) and LACP position of every port, and the chassis address are those the kernel reports: of the bond's or team's own port list, of the VLAN driver, of the device lookup made when the interface was first seen, and of the first interface. Interfaces that are not ports have no role.", "quantifier": "all kernel answers, all lists of interfaces in all orders, all earlier states", "why_tests_cant": "depends on the order of the kernel's list, on aggregations naming interfaces before or after them, and on earlier refreshes", "anchors": ["src/netif_linux.c: netif_bond, netif_team, netif_bridge, netif_vlan, netif_device_id", "src/netif.c: netif_fetch"]}
{"id": "C52", "title": "Frames describe the interface as it is", "statement": "Every frame sent in a round is built from the interface list as just refreshed and from the link properties kernel and driver report at that moment: MTU, duplex, auto-negotiation and the advertised modes, media type by cable, speed and duplex. It is sent with the interface's own source address, except on standby ports of a failover aggregate where the address is zero. EDP frames are numbered consecutively since the start.", "quantifier": "all histories of events, all kernel and driver answers, all frames of a round", "why_tests_cant": "depends on the whole history, on the order of kernel answers and on a large table of driver replies", "anchors": ["src/child.c: child_send", "src/netif.c: netif_media", "src/netif_linux.c: netif_physical", "src/proto/edp.c: edp_packet"]}
{"id": "C53", "title": "What one ladvd announces another one shows", "statement": "Every frame the unprivileged process builds is transmitted by the privileged process unchanged and on the interface it was built for; the privileged process never takes one for invalid. Another ladvd that hears the frame lets it pass its capture filter, forwards it under the right protocol and shows in its table, for 180 seconds, an entry with the sender's host name and the name of the interface it was sent on, provided the frame's source address is not one of its own; its other entries do not change.", "quantifier": "all starts, all histories of events, all kernels of the sender, all states of the receiver, all protocols", "why_tests_cant": "the path crosses four processes on two machines and depends on both their histories", "anchors": ["src/child.c: child_send, child_queue", "src/parent.c: parent_send, parent_recv", "src/filter.h: proto_filter", "src/proto/*.c: *_packet, *_decode"]}
{"id": "C54", "title": "The full report says what the frames say", "statement": "`ladvdc -f` prints for every LLDP and CDP neighbour, in the order of the TLVs of the frame stored by the daemon, one labelled line or paragraph per TLV with the decoded value: ids, names, descriptions, capabilities, addresses, VLANs, duplex, and the seconds until the entry expires. The report of a neighbour is complete, and followed by an empty line, exactly if the frame is valid. With `-o` only the first one is printed. Nothing is printed for neighbours that the command line does not ask for.", "quantifier": "all frames, all sequences of neighbours, all times, all histories of the daemon", "why_tests_cant": "the output depends on all combinations and orders of TLVs and on what was printed before", "anchors": ["src/cli.c: cli_main", "src/proto/lldp.c: lldp_decode and its print functions", "src/proto/cdp.c: cdp_decode and its print functions", "src/proto/tlv.c: tlv_str_addr, tlv_str_copy"]}
{"id": "C55", "title": "Neighbours cannot tamper with the full report", "statement": "Whatever frames neighbours send, `ladvdc -f` writes printable characters, line feeds and the control characters BEL, BS, TAB and CR only, never escape sequences. A line that begins with the label of a kind of TLV appears only for neighbours that sent a TLV of that kind.", "quantifier": "all frames, all sequences of neighbours", "why_tests_cant": "ranges over all byte strings a hostile neighbour may send", "anchors": ["src/proto/tlv.c: tlv_str_copy", "src/proto/lldp.c: lldp_descr_print, lldp_system_name", "src/proto/cdp.c: cdp_descr_print, cdp_system_name"]}
{"id": "C56", "title": "The daemon keeps running", "statement": "Whatever frames arrive on the network, however the interfaces change and whatever clients do, the unprivileged process handles every event: it does not fail an assertion, does not loop for ever, and does not access memory outside live objects.", "quantifier": "all histories of rounds, link events, captured frames and client sessions of any length, all configurations", "why_tests_cant": "a crash may need a particular interleaving of client, neighbour and timer events; the space of histories is infinite", "anchors": ["src/child.c: child_send, child_queue, child_expire, child_cli_write, child_link_cb", "src/parent.c: parent_recv", "src/filter.h: proto_filter", "src/netif.c: netif_fetch"]}
{"id": "C57", "title": "Link notifications are answered", "statement": "Whenever the kernel notifies the daemon that the link of an Ethernet interface has come up, the daemon sends the advertisements due on exactly that interface at once (unless the limit for link events is reached). Notifications about anything else, such as links going down, interfaces that are not Ethernet, other changes of an interface or its deletion, have no effect. This holds however the notifications are packed into datagrams, between whichever control messages they arrive and whichever reads fail, and no byte outside a notification is read.", "quantifier": "all sequences of reads from the notification socket, each failing or delivering a datagram with any list of messages with any contents, in all states of the daemon", "why_tests_cant": "the notifications come from the kernel in arbitrary batches and orders, interleaved with errors and control messages; a test sends a few", "anchors": ["src/child.c:child_link", "src/child.c:child_link_cb", "src/child.c:child_link_fd", "src/child.c:child_send"]}
{"id": "C58", "title": "Process titles leave arguments and environment intact", "statement": "Setting the process titles that show which process is the privileged one overwrites nothing but the memory of the strings of the command line and the environment; the daemon itself still sees the arguments and the environment it was called with. What ps shows afterwards is the name of the program, a colon and the text, cut to the memory there is, followed by nothing of the old strings (but one character), and consists of printable characters whatever the program was called.", "quantifier": "all command lines and environments wherever their strings lie in memory, all program names, all sequences of titles", "why_tests_cant": "the layout of the strings and their lengths are the caller's choice; an overflow shows only in layouts a test does not have", "anchors": ["src/compat/setproctitle.c:compat_init_setproctitle", "src/compat/setproctitle.c:setproctitle", "src/main.c:main", "src/compat/vis.c:strnvis"]}
{"id": "C59", "title": "Messages between processes arrive intact and in order", "statement": "Messages that a process composes for another one with the message passing library of the project arrive in the order they were accepted, each with the type, the ids, the data and the file descriptor it was composed with, however writing and reading split and join them. Messages that are too long are refused and nothing of them is queued. No state is a dead end: what was accepted can always be delivered. Descriptors are closed by the sender exactly once, after they were handed over, and none gets lost on the way.", "quantifier": "all messages, all interleavings of composing, writing, reading and taking messages, all ways the kernel splits the stream of bytes", "why_tests_cant": "the kernel decides how many bytes each call transfers; the mix of partial writes, descriptors and several messages per read has no bound a test could exhaust", "anchors": ["src/compat/imsg.c:imsg_compose", "src/compat/imsg.c:imsg_composev", "src/compat/imsg.c:imsg_read", "src/compat/imsg.c:imsg_get", "src/compat/imsg-buffer.c:msgbuf_write", "src/compat/imsg-buffer.c:msgbuf_drain"]}
{"id": "C60", "title": "Dumps are capture files of exactly the frames", "statement": "With -d, ladvdc writes to its standard output a file that readers of capture files accept: Ethernet, one complete record for every neighbour shown, in order and with the bytes of the frame received from it. The daemon called with -d writes such a file with exactly the advertisements it would have sent, and nothing else is sent on the network and no socket for receiving is opened. Both refuse to write to a terminal or when the output can not be opened.", "quantifier": "all frames received and sent, all lists of neighbours, all histories of messages to the privileged process, all readings of the clock", "why_tests_cant": "a reader has to find every record boundary whatever the bytes and lengths of the frames; that nothing leaves the host has to hold for all messages", "anchors": ["src/util.c:my_pcap_init", "src/util.c:my_pcap_write", "src/util.c:my_pcap_close", "src/cli.c:debug_write", "src/parent.c:parent_send"]}
{"id": "C61", "title": "Neighbours are posted to the given URL", "statement": "ladvdc -p URL posts every neighbour shown, one request each and in order, to the host, port and path of the URL, and closes the connection with the last one. Whatever names a neighbour claims, the form the server decodes has exactly the documented fields with exactly the values shown. The program ends with success exactly if all requests were answered without an error.", "quantifier": "all URLs with and without port and path, all neighbours with arbitrary names, all replies and missing replies of the server", "why_tests_cant": "names come from other hosts and may contain anything that is special in a form; the order and outcome of replies is the server's choice", "anchors": ["src/cli.c:cli_main", "src/cli.c:http_connect", "src/cli.c:http_request", "src/cli.c:http_reply", "src/cli.c:http_dispatch"]}
{"id": "C62", "title": "FreeBSD: the interface list mirrors the system", "statement": "On FreeBSD a refresh of the interface list yields exactly the Ethernet interfaces and bridges that are up and of a usable kind, each once, with the index, name, description, kind and the addresses the kernel reports, in the kernel's order for new ones, keeping what was known about interfaces that stay. The kind follows from the kernel's answers: wireless, VLAN, tunnel, aggregation, bridge, regular; firewall pseudo devices are left out. The number returned is that of the interfaces to announce on.", "quantifier": "all address lists and answers of the kernel, all earlier lists, all options and interface names given", "why_tests_cant": "the list is read from a live kernel; combinations of interface kinds, drivers, units and failing queries are unbounded", "anchors": ["src/netif.c:netif_fetch", "src/netif_bsd.c:netif_type", "src/netif_bsd.c:netif_driver", "src/netif_bsd.c:netif_descr"]}
{"id": "C63", "title": "BSD: ports of aggregations and bridges are those of the kernel", "statement": "On BSD systems the ports of an aggregation or a bridge are exactly its member interfaces the kernel names that are in the list and can be ports, in the kernel's order; exactly these refer back to it, with the mode, the activity and the number of the port in the aggregation. Walking the ports always ends. All members of a bridge are seen, however many there are.", "quantifier": "all sets of interfaces and memberships, any number of members", "why_tests_cant": "member lists have no bound, the buffer of a bridge grows by repeated queries; aggregates need root and a kernel", "anchors": ["src/netif_bsd.c:netif_bond", "src/netif_bsd.c:netif_bridge", "src/netif.c:netif_fetch"]}
{"id": "C64", "title": "FreeBSD: VLANs have their parent and their id", "statement": "On FreeBSD every VLAN interface has the parent interface and the VLAN id that the kernel reports for it, all others have none.", "quantifier": "all sets of interfaces with any number of VLANs in any order", "why_tests_cant": "whether the answer belongs to the VLAN depends on the order of the kernel's address list", "anchors": ["src/netif_bsd.c:netif_vlan", "src/netif.c:netif_fetch"]}
{"id": "C65", "title": "FreeBSD: the device description is that of the network card", "statement": "On FreeBSD the inventory description of a regular interface is the one the kernel has for the device with the interface's driver name and unit number; it is looked up once per interface and kept while the interface stays. Names and descriptions of any length stay within their buffers.", "quantifier": "all driver names, unit numbers and descriptions, all earlier lists", "why_tests_cant": "driver names and descriptions are free text of the drivers; an unterminated buffer is not visible in a test", "anchors": ["src/netif_bsd.c:netif_device_id", "src/netif_bsd.c:netif_driver"]}
{"id": "C66", "title": "FreeBSD: link properties are those the kernel reports", "statement": "On FreeBSD the announced MTU, duplex mode, autonegotiation support and state, advertised modes and media type of an interface are those of the kernel's media report, following the tables of IEEE 802.1AB and RFC 4836; without a report or without link they are announced as unknown. Nothing else of the interface changes.", "quantifier": "all media reports with any list of possible media, all interfaces", "why_tests_cant": "most media types are not available on a test machine; the set of advertised modes ranges over all subsets", "anchors": ["src/netif_bsd.c:netif_physical", "src/netif.c:netif_media"]}
{"id": "C67", "title": "FreeBSD: link notifications are answered for the right interface", "statement": "On FreeBSD a message of the routing socket triggers an announcement exactly if it reports an Ethernet interface that is up and running and whose link is not down, and the announcement is made on the interface reported. Errors, short messages and messages of other types or versions trigger nothing.", "quantifier": "all byte strings read from the routing socket", "why_tests_cant": "the messages come from the kernel in binary form; all combinations of flags, states and other bytes cannot be tried", "anchors": ["src/child.c:child_link"]}
{"id": "C68", "title": "FreeBSD: what a system says about itself comes from the system", "statement": "On FreeBSD the daemon starts if the kernel tells its names. The announced description is the kernel version and machine, the platform is system, release and machine, the host name is the resolver's unless that is localhost; the inventory consists of the SMBIOS variables of the kernel environment and the release, cut to 32 bytes, the EDP version of the first three numbers of the release. The router capability is announced if forwarding of IPv4 or IPv6 can be asked for, as active if one of these settings is 1; the location capability exactly if country and location were given.", "quantifier": "all kernel names, resolver answers, kernel environments, forwarding settings, countries and locations", "why_tests_cant": "the answers of the system under test are fixed; texts of any length and content occur", "anchors": ["src/sysinfo.c:sysinfo_fetch", "src/sysinfo.c:sysinfo_forwarding"]}
{"id": "C69", "title": "FreeBSD: multicast groups are joined exactly while an interface is open", "statement": "On FreeBSD, where multicast groups belong to the interface and outlive the daemon, a receiving daemon joins the groups of exactly the enabled protocols (all when protocols are detected automatically; EDP has no multicast address) on the interfaces it has open and leaves them when it closes them; the other groups of the interface are not touched, so that after the daemon's end every interface has the groups it had before.", "quantifier": "all configurations, all histories of opening and closing interfaces, all groups joined before", "why_tests_cant": "needs root on a FreeBSD system and every order of opening and closing", "anchors": ["src/parent.c:parent_multi", "src/parent.c:parent_open", "src/parent.c:parent_close"]}
{"id": "C70", "title": "LLDP advertisements conform to the standards", "statement": "Every LLDP frame that is sent carries a data unit as IEEE 802.1AB, its 802.1 and 802.3 annexes and TIA-1057 require it: chassis id, port id and lifetime first and in this order, End last; every TLV has a value of the prescribed form and length, with correct inner lengths; active capabilities are available ones; port description, system name, system description and capabilities occur at most once, and so do the organisationally specific TLVs other than VLAN names; management addresses are all different; the LLDP-MED capabilities precede all other LLDP-MED TLVs.", "quantifier": "all interfaces, addresses, names, capabilities, inventories, locations, numbers of VLANs, and all histories of the daemon", "why_tests_cant": "the standards restrict every combination of optional parts and every length; a test compares single frames with expected bytes", "anchors": ["src/proto/lldp.c:lldp_packet", "src/proto/lldp.h", "src/sysinfo.c:sysinfo_fetch", "src/child.c:child_send"]}
{"id": "C71", "title": "What one system announces is displayed on its neighbour", "statement": "When ladvd on one system announces itself and the frame reaches another system that runs ladvd, then from the reception until the announced lifetime is over ladvdc on the other system lists the first one: on the interface the frame arrived on, with its protocol, the remaining lifetime, and names that read back as the host name of the first system and the name of the interface it sent on; and a script that evaluates the batch output finds the same values in its variables.", "quantifier": "all configurations, command lines and histories of both systems, everything else received, sent, expired and requested in between, all other contents of the table", "why_tests_cant": "needs two systems, two processes on each, and every interleaving of the events in between; tests exercise each stage alone", "anchors": ["src/child.c:child_send", "src/child.c:child_queue", "src/child.c:child_expire", "src/child.c:child_cli_write", "src/parent.c:parent_send", "src/parent.c:parent_recv", "src/cli.c:cli_main", "src/cli.c:batch_write", "src/main.c:main"]}
{"id": "C72", "title": "The receiving process neither leaks memory nor uses it after release", "statement": "Whatever is received, replaced, rejected, expired and delivered to clients: the texts and records that are allocated are exactly those that the neighbour table and the open client sessions refer to, each belongs to one owner, so the memory in use is bounded by eight texts per neighbour; nothing is released twice or used after its release; what a neighbour announced stays unchanged until its entry is replaced or removed; and at the end of the process everything belonging to the table is released.", "quantifier": "all histories of frames of any content, expiry runs, interface changes and client sessions, and all histories of the whole daemon", "why_tests_cant": "a leak or a dangling pointer depends on the order of receptions, failed decodes, expiries and client stalls; leak checkers observe single runs", "anchors": ["src/common.h:peer_free", "src/child.c:child_queue", "src/child.c:child_expire", "src/child.c:child_free", "src/child.c:child_cli_write", "src/util.c:netif_descr", "src/proto/tlv.c:tlv_str_copy", "src/proto/lldp.c:lldp_private"]}
{"id": "C73", "title": "The linked lists hold what was put into them", "statement": "After every history of received messages and expiries the linked elements of the neighbour table, followed from the first to the last, are exactly the entries that should be in it, each once and in the specified order; exactly their memory is in use; inserting, removing and traversing touch no released memory, also where entries are removed during a traversal and their memory is used again for new ones; a traversal that continues behind an entry visits all entries behind it.", "quantifier": "all histories of receptions and expiries, all addresses the allocator returns, and all well-formed lists for each list operation", "why_tests_cant": "a wrong back pointer shows only after particular sequences of insertions and removals at the first, middle and last position", "anchors": ["src/compat/sys-queue.h:TAILQ_INSERT_TAIL", "src/compat/sys-queue.h:TAILQ_INSERT_AFTER", "src/compat/sys-queue.h:TAILQ_REMOVE", "src/compat/sys-queue.h:TAILQ_FOREACH", "src/child.c:child_queue", "src/child.c:child_expire"]}
{"id": "C74", "title": "The log tells which neighbours there are", "statement": "Whenever a neighbour that announces a name enters the table, the log says so, with name, protocol and the interface or aggregate; whenever one leaves it, the log says so; nothing else is reported as new or removed, so that reports of new neighbours less those of removed ones give the number of neighbours present; the automatic activation of a protocol is logged exactly when it happens; each message is one line, contains no unprintable characters, and goes to the system log of a daemon or to the standard error otherwise, whatever the verbosity.", "quantifier": "all histories of received frames of any content, expiry runs, interface changes and client sessions; all numbers of -v options", "why_tests_cant": "whether a report is missing or wrong depends on the history of the neighbour: new, known, renamed, replaced, expired together with others, saying goodbye", "anchors": ["src/child.c:child_queue", "src/child.c:child_expire", "src/util.c:__my_log", "src/util.c:my_vlog", "src/util.h:my_log"]}
{"id": "C75", "title": "The two processes of the daemon never block each other", "statement": "Whatever the order in which the processes run and frames arrive: each reply is taken for the request that it answers; received frames are handled and packets transmitted once each, in order; the processes come to rest after finitely many steps, and then every handler has finished, every request is answered, every frame is handled and every packet transmitted; the processes never wait for each other forever.", "quantifier": "all interleavings of the two processes, all arrival times and numbers of frames, all sequences of requests and packets of the handlers, all capacities of the socket queues", "why_tests_cant": "a deadlock needs a particular interleaving of two processes with bursts of traffic; tests run one process at a time with mocked peers", "anchors": ["src/util.c:my_socketpair", "src/util.c:my_mreq", "src/child.c:child_send", "src/child.c:child_queue", "src/parent.c:parent_recv", "src/parent.c:parent_req", "src/parent.c:parent_send"]}
{"id": "C76", "title": "Visual encoding is reversible with every flag and truncates between characters", "statement": "For every combination of flags that writes backslashes, a text encoded for display reads back, by the rules of the manual page, as exactly the bytes that were encoded, NUL bytes included; in a buffer of limited size the encodings of as many leading bytes as fit are stored, never a part of an escape sequence; the result is the length that the whole encoding needs, so that a caller can tell whether its buffer was large enough.", "quantifier": "all flag sets, all byte strings, all buffer sizes", "why_tests_cant": "reversibility over unbounded strings, 256 flag sets and all pairs of neighbouring bytes; the boundaries depend on buffer size and content together", "anchors": ["src/compat/vis.c:vis", "src/compat/vis.c:strvis", "src/compat/vis.c:strnvis", "src/compat/vis.c:strvisx"]}
{"id": "C77", "title": "The client is told what the daemon knows, and clients coming and going do not stop the daemon", "statement": "Each entry that the daemon takes as delivered to a client arrives there complete and unchanged (interface, protocol, time of reception, frame), in order and without anything else, whichever type of local socket the system offers; whatever a client does, disconnecting before or while it is served included, the daemon keeps running, its table and the other clients' connections are unaffected.", "quantifier": "all histories of received frames, expiry, interface changes and client sessions, all results of the write calls, both types of socket, all splittings of a byte stream", "why_tests_cant": "short reads and writes and the moment at which a client leaves are decided by the system; tests use one socket pair within one process and ignore the signal", "anchors": ["src/child.c:child_init", "src/child.c:child_cli_accept", "src/child.c:child_cli_write", "src/cli.c:cli_main", "src/common.h:PARENT_MSG_MAX"]}
{"id": "C78", "title": "Advertisements are renewed long before they expire, and silent neighbours vanish in time", "statement": "Whatever else happens, the daemon starts a round every 30 seconds: on every interface on which a protocol is enabled and permitted an advertisement is sent within 30 seconds after any moment. A neighbour that falls silent is removed from the table at most 30 seconds after the end of its announced lifetime. So a system connected to another one is in its table all the time from the first frame on, even if up to four advertisements in a row are lost.", "quantifier": "all histories of timer expiries, link events, received frames and client sessions with their times, all delays of the event loop, all pairs of systems and links that lose or delay frames", "why_tests_cant": "the claim is about unbounded runs in real time, about every interleaving of the timer with other events, and about two daemons together; tests call the timer's function once", "anchors": ["src/child.c:child_init", "src/child.c:child_send", "src/child.c:child_expire", "src/child.c:child_queue", "src/common.h:SLEEPTIME", "src/common.h:LADVD_TTL"]}
{"id": "C79", "title": "With -z the kernel's description of an interface follows its neighbours", "statement": "With -z the alias of each interface in the kernel names the neighbour heard there (with its port), or the number of neighbours if there are several, and is removed when there is none left; it is brought up to date with the frame or the expiry that changes it, and put right after a refresh of the interfaces with the next frame. Only interfaces on which frames are received are touched, texts written are at most 63 bytes, and without -z no alias is ever changed.", "quantifier": "all histories of timer expiries, link events, received frames and client sessions, all initial aliases, all names of interfaces and neighbours", "why_tests_cant": "the daemon compares with a stored copy of the description that is renewed only now and then, and writes through another process and a kernel file with its own rules for empty and multi-line texts; tests replace both ends by mocks", "anchors": ["src/util.c:netif_descr", "src/child.c:child_queue", "src/child.c:child_expire", "src/netif_linux.c:netif_fetch", "src/parent.c:parent_descr", "src/util.c:my_mreq", "src/util.c:write_line", "src/util.c:read_line"]}
{"id": "C80", "title": "The table holds the latest advertisement of every neighbour, whatever others do", "statement": "What the daemon knows about a neighbour (interface, protocol, destination and source address) is, as long as its lifetime has not ended, exactly the latest valid advertisement received from it: with its time of reception, lifetime, frame and decoded names, and nothing if the latest one announced a lifetime of zero. Frames of other neighbours, expiry runs, link events and clients that connect, stall or disappear do not change this. A client that reads the table displays one row for each such neighbour it was asked for, and no other rows.", "quantifier": "all histories of received messages (valid or not), timer expiries, interface changes, link events and client sessions, all neighbours, and all later points in time", "why_tests_cant": "the claim relates the table to the whole history: replacement, deletion, expiry and the lock counts of clients all act on the same list, and an error in any of them shows only in a particular interleaving", "anchors": ["src/child.c:child_queue", "src/child.c:child_expire", "src/child.c:child_cli_accept", "src/child.c:child_cli_write", "src/cli.c:cli_main"]}
{"id": "C81", "title": "The two processes of the daemon end together", "statement": "When either process of the daemon ends, for whatever reason (exit, fatal error, any signal, crash), the other one ends as well within a bounded number of its own steps and is never left blocked; SIGINT or SIGTERM to the daemon ends both and removes the control socket; the exit status tells an orderly end from a failure; and merely stopping and continuing a process ends nothing.", "quantifier": "all interleavings of the steps of both processes, requests, replies, packets and received frames in any number, and signals and failures at any time", "why_tests_cant": "it is a matter of what each process is doing, and what lies unread in the sockets, at the moment the other one ends; the harmful moments are short and tests cannot place signals there", "anchors": ["src/parent.c:parent_init", "src/parent.c:parent_signal", "src/parent.c:parent_req", "src/parent.c:parent_recv", "src/child.c:child_init", "src/child.c:child_free", "src/child.c:child_send", "src/util.c:my_mreq", "src/util.c:__my_fatal", "src/util.c:my_socketpair"]}
{"id": "C82", "title": "With -o every advertisement is transmitted before the daemon ends", "statement": "With -o (run once) the daemon transmits each advertisement of its single round exactly once and in order, and only then ends.", "quantifier": "all rounds with any number of interfaces and protocols, and all interleavings of the two processes", "why_tests_cant": "the process that makes the advertisements exits after writing them to a socket, and whether the other one sees the exit before it has read them all depends on the scheduler", "anchors": ["src/child.c:child_init", "src/child.c:child_send", "src/parent.c:parent_send", "src/parent.c:parent_signal"]}
{"id": "C83", "title": "With -a the announced protocols follow the neighbours", "statement": "With -a, a protocol that was not enabled on the command line is announced on an interface (or on all ports of an aggregate) exactly while the neighbour table holds a neighbour that speaks it on that interface (or on one of those ports): it starts with the first received frame and stops when the last such neighbour expires or says goodbye.", "quantifier": "all histories of received frames, goodbyes, expiries, interface refreshes, link changes and client sessions, and all interface configurations with and without aggregates", "why_tests_cant": "depends on the whole history of arrivals and expiries for every port of an aggregate and on when the interface list is refreshed in between", "anchors": ["src/child.c:child_queue", "src/child.c:child_expire", "src/child.c:child_send", "src/util.c:netif_protos", "src/util.c:subif_iter"]}
{"id": "C84", "title": "The neighbour table is bounded by the neighbours, and nothing but their number bounds it", "statement": "The neighbour table, and with it the memory of the daemon and the length of what a client is sent, never holds more entries than there are distinct neighbours (interface, protocol, addresses) that sent a valid advertisement within the longest lifetime, however often each of them speaks; frames from made-up source addresses cannot make it grow without limit.", "quantifier": "all histories of captured frames, rounds, link changes and client sessions, all numbers of source addresses", "why_tests_cant": "a bound over histories of any length and any number of senders; the second half fails only under a flood", "anchors": ["src/child.c:child_queue", "src/child.c:child_expire", "src/parent.c:parent_recv"]}
{"id": "C85", "title": "On FreeBSD, with -z the description of an interface in the kernel follows its neighbours", "statement": "On FreeBSD with -z, whenever the text that befits an interface (nothing without neighbours, 'connected to NAME (PORT)' for one, 'connected to N peers' for more, cut to 63 bytes) changes, it becomes the description of that interface in the kernel, including the empty text when the last neighbour leaves; after a refresh of the interfaces the next frame heard sets right whatever else was there. The privileged process sets a description only for an existing interface, with exactly the bytes it was sent, and never dies of a request the daemon makes; all other requests than opening, closing and describing end it. Without -z, and for interfaces the daemon does not know, descriptions are never touched.", "quantifier": "all histories of frames, expiries, refreshes with any list of interfaces, client sessions, and changes of descriptions by others; all datagrams on the request socket; all configurations", "why_tests_cant": "needs a FreeBSD kernel, both processes and long interleavings of neighbours coming and going with refreshes and other administrators; tests run on Linux and call the functions one at a time", "anchors": ["src/parent.c:parent_req", "src/parent.c:parent_check", "src/parent.c:parent_descr", "src/util.c:netif_descr", "src/netif.c:netif_fetch", "src/child.c:child_queue", "src/child.c:child_expire"]}
{"id": "C86", "title": "The table and the full report of a neighbour agree", "statement": "Everything the table of ladvdc (plain or with -b) shows of a neighbour - its name, port, port description, capabilities, IPv4, IPv6 and Ethernet address, VLAN and the seconds it has left - stands on a line of its own, behind the label of that protocol, in the report that ladvdc -f prints of the same neighbour at the same time; for EDP, FDP and NDP the report is empty. A neighbour reported to the end is also in the table.", "quantifier": "all entries of all protocols with any frame of any content, all times, all selections of interfaces and protocols, all histories of the daemon that delivers them", "why_tests_cant": "two passes of the same decoders with different flags over frames of arbitrary content have to agree; tests compare single frames with fixed texts", "anchors": ["src/cli.c:cli_main", "src/cli.c:batch_write", "src/proto/lldp.c:lldp_decode", "src/proto/cdp.c:cdp_decode", "src/proto/tlv.c:tlv_value_str", "src/cli.c:cli_write"]}
{"id": "C87", "title": "In a network of ladvd systems the table lists the systems heard, and nobody else", "statement": "If a system has heard nothing but frames that systems running ladvd transmitted, then every neighbour in its table is one of those systems: the frame kept is one that system sent from an interface it had, received at the time and on the interface in the table, kept for 180 seconds, and the names shown read back as its host name and the name of that interface. A system that keeps announcing itself in intervals of at most 180 seconds stays in the table the whole time, whatever else happens and whoever else is heard.", "quantifier": "all sets of systems, all ways of starting them, all their histories (rounds, link events, readers), all histories of the listening system, all times", "why_tests_cant": "the claim joins the whole sending side of any number of systems at any time of their lives with the whole receiving side of another one over all interleavings", "anchors": ["src/child.c:child_send", "src/child.c:child_queue", "src/child.c:child_expire", "src/parent.c:parent_recv", "src/parent.c:parent_send", "src/proto/lldp.c:lldp_packet", "src/sysinfo.c:sysinfo_fetch", "src/netif.c:netif_fetch"]}
{"id": "C88", "title": "On FreeBSD the daemon keeps running, and what it announces its neighbours show", "statement": "On FreeBSD the daemon starts exactly if its command line is accepted and the kernel tells the name of the system. From then on it handles every round, every report of the kernel on the routing socket, every frame received and every reader, in any order; it never fails an assertion, never loops for ever and never accesses memory it should not. Every advertisement it builds is transmitted unchanged on the interface it was built for, and another ladvd that receives it lists the host name of the sender and the name of that interface for 180 seconds.", "quantifier": "all answers of the FreeBSD kernel that fit its interfaces, all command lines, all histories of rounds, link reports, frames and readers, all enabled protocols, all receiving systems", "why_tests_cant": "the claim ranges over unbounded histories and all answers of a FreeBSD kernel, and the project's tests are run for the platform they are compiled on", "anchors": ["src/child.c:child_send", "src/child.c:child_link", "src/child.c:child_init", "src/netif_bsd.c:netif_fetch", "src/sysinfo.c:sysinfo_fetch", "src/main.c:main", "src/parent.c:parent_send"]}
{"id": "C89", "title": "On FreeBSD advertisements are sent exactly where and when they are due", "statement": "On FreeBSD every round sends on the interfaces of the command line, or on all that are no ports of another interface, on all the ports of a lagg or bridge, one advertisement per protocol that is enabled or was heard there, and nowhere else. When the kernel reports on the routing socket that the link of an interface went up, the advertisements due on that interface are sent at once, at most four times between two rounds; anything else read from that socket has no effect. Every advertisement describes the interface, its link properties and the system as the kernel reports them at that moment, with the source address zero exactly on standby ports of a failover lagg.", "quantifier": "all answers of the FreeBSD kernel that fit its interfaces, all options, all histories of rounds, link reports, frames and readers", "why_tests_cant": "the limit and the content of a round depend on the whole history, and the sets of interfaces, ports and messages on the routing socket are unbounded", "anchors": ["src/child.c:child_send", "src/child.c:child_link", "src/netif_bsd.c:netif_fetch", "src/netif_bsd.c:netif_media", "src/netif_bsd.c:netif_bond", "src/netif_bsd.c:netif_bridge"]}
{"id": "C90", "title": "On FreeBSD the table holds the latest valid advertisement of every neighbour", "statement": "On FreeBSD too, after any history, the table says about every neighbour whose lifetime has not ended exactly what its latest advertisement said; it has one entry per interface, protocol, destination and source, with the entries of one station adjacent; a round removes exactly the entries whose lifetime has ended and that no reader is at, and nothing without reception enabled; and a client displays exactly one row for every such neighbour.", "quantifier": "all histories of rounds, messages on the routing socket, frames and readers, all answers of the FreeBSD kernel that fit its interfaces, all neighbours and times", "why_tests_cant": "the claim ranges over unbounded histories with arbitrary frames and clocks", "anchors": ["src/child.c:child_queue", "src/child.c:child_expire", "src/child.c:child_send", "src/child.c:child_link", "src/child.c:child_cli_write", "src/cli.c:main"]}
{"id": "C91", "title": "Linux and FreeBSD systems on one segment know each other, and nobody else", "statement": "On a segment of systems running ladvd, some with Linux and some with FreeBSD, every neighbour a system lists was transmitted by one of the systems present, under that system's name and with a life time it announced, whatever the systems were started with and whatever happened to them since; and a system that is heard again before its announced life time is over stays listed, on a Linux listener as well as on a FreeBSD one.", "quantifier": "all numbers of systems of either kind, all their configurations, kernels' answers and histories, all histories of the listener, all delays and losses of frames", "why_tests_cant": "It speaks about arbitrarily many systems of two operating systems with arbitrary, interleaved histories; a test would need a laboratory of machines and could only try a few histories.", "anchors": ["src/child.c:child_send", "src/child.c:child_queue", "src/child.c:child_expire", "src/netif_bsd.c:netif_fetch", "src/netif_linux.c:netif_fetch", "src/main.c:main"]}
{"id": "C92", "title": "Flushing and clearing a message queue loses and leaks nothing", "statement": "Flushing a message queue does what single writes would do, ends successfully exactly when everything queued has been handed to the kernel, and with an error exactly at the first error of the kernel; if the kernel always takes something it ends after at most as many calls as bytes are queued. Clearing both ends of a connection closes every descriptor that is still held, each once. The room announced for a buffer is exactly what can still be added to it, and seeking in a buffer succeeds exactly within the bytes written.", "quantifier": "all histories of composing, writing, reading and receiving on a connection, all answers of the kernel, all buffers, positions and lengths", "why_tests_cant": "The answers of the kernel (partial writes, errors, nothing taken) cannot be enumerated, and neither can queues, positions and lengths up to the limits of size_t.", "anchors": ["src/compat/imsg.c:imsg_flush", "src/compat/imsg.c:imsg_clear", "src/compat/imsg-buffer.c:msgbuf_clear", "src/compat/imsg-buffer.c:ibuf_left", "src/compat/imsg-buffer.c:ibuf_seek", "src/compat/imsg-buffer.c:ibuf_write"]}
{"id": "C93", "title": "Setting the clock delays or hastens expiry by no more than it was set, and changes nothing else", "statement": "However the system clock is set while the daemon runs, the neighbour table never shows anything but the latest advertisement of a neighbour. If the clock is never more than a given number of seconds fast or slow, a neighbour stays in the table for its announced life time but for twice that number, is gone after the first round later than that unless a client is just reading it, and the hold time shown for it is the true time left within the same bounds.", "quantifier": "all histories of the daemon with arbitrary clock readings, all bounds on the error of the clock, all neighbours and life times, all readings of the client's clock within the bound", "why_tests_cant": "Tests use one clock that runs evenly; the claim ranges over all ways in which the clock may be set between any two events.", "anchors": ["src/child.c:child_queue", "src/child.c:child_expire", "src/cli.c:cli_main"]}
{"id": "C94", "title": "FreeBSD systems advertise and forget in time, and systems of either kind see each other across a lossy link", "statement": "On FreeBSD, too, there is a round of advertisements at the start and then within 30 seconds after any moment, plus the lateness of the event loop, rounds are at least 30 seconds apart, every protocol that is enabled on an interface is sent in each of them, and a neighbour that falls silent is gone 30 seconds after its life time unless a client is reading it. Of two systems, each with Linux or FreeBSD, connected by a link that loses and delays frames, one that advertises is in the table of the other from its first frame on, as long as not all frames of any window are lost and window and delay together are shorter than the life time.", "quantifier": "all histories of both systems with all answers of their kernels, all latenesses of the event loops, all losses and delays within the bounds, all protocols and interfaces", "why_tests_cant": "The claim ranges over unbounded runs with arbitrary interleavings of timeouts, reports of the kernel, receptions and clients on two systems, and over all patterns of loss; tests observe a few rounds on one system.", "anchors": ["src/child.c:child_init", "src/child.c:child_send", "src/child.c:child_link", "src/child.c:child_queue", "src/child.c:child_expire", "src/netif_bsd.c:netif_fetch"]}
{"id": "C95", "title": "ladvdc tells why it cannot list neighbours, and lists them under the right headings", "statement": "ladvdc prints its help, and does nothing else, exactly for command lines it does not understand or that ask for it, and the help names exactly the options it accepts. While the daemon runs, root and members of the daemon's group reach it exactly if it receives and are told to enable receiving otherwise, and everyone else is told to join the group; when the daemon has ended, in whatever way, nobody is asked to change its configuration. The exit status is 0 exactly if the daemon was reached, the output could be written and the list is complete; otherwise there is a message. In the table every column stands under its heading.", "quantifier": "all command lines, answers of the system, users, options of the daemon and failures during its start, terminal widths, neighbours and messages from the daemon", "why_tests_cant": "the messages depend on permissions of a socket, group membership and the state of another program, in combination with all options; tests run with one user, one terminal and one daemon", "anchors": ["src/cli.c:cli_main", "src/cli.c:cli_header", "src/cli.c:cli_write", "src/cli.c:usage", "src/util.c:my_vlog", "src/util.c:my_pcap_init", "src/child.c:child_init", "src/parent.c:parent_signal"]}
{"id": "C96", "title": "Other starts of ladvd leave the control socket of a running daemon alone", "statement": "As long as a daemon that receives is running, clients that open the control socket reach it, whatever other instances of ladvd are started, fail to start, end or are killed on the same host in the meantime; and whatever socket was left behind, a new daemon can be started and reached once the old one has ended.", "quantifier": "all sequences of starts (with any options, directories, users and failing system calls), orderly ends and kills of any number of instances on a host", "why_tests_cant": "needs several instances on one host, sharing a file and a lock, in all orders of starting and ending", "anchors": ["src/main.c:main", "src/child.c:child_init", "src/parent.c:parent_init", "src/parent.c:parent_signal", "src/util.c:__my_fatal"]}
{"id": "C97", "title": "The command lines of both programs mean what POSIX and the manuals say, and users are told why one is refused", "statement": "Options may be grouped, with their argument in the same word or the next one, and -- ends them; with glibc operands may stand anywhere, elsewhere the first one ends the options. However a command line is written, the daemon starts with the settings that its options mean, and the client does what its options mean, and both show their help with exit status 1 exactly if the line cannot be read that way, an option is not acceptable or no protocol is requested. The help lists the options that are accepted. A user whose command line is refused, or whose daemon cannot start, sees the reason and an exit status other than 0.", "quantifier": "every list of words, every host (interfaces, addresses, users), both ways in which C libraries treat operands", "why_tests_cant": "there are unboundedly many ways to write a command line, and unit tests call the functions behind it with ready made options; where messages go depends on options further along the line", "anchors": ["src/main.c: main, usage", "src/cli.c: cli_main", "src/util.c: my_vlog, __my_log, __my_fatal", "doc/ladvd.8.in", "doc/ladvdc.8.in"]}
{"id": "C98", "title": "What is typed on one system is what appears on the terminal of its neighbour", "statement": "A daemon started with some command line sends, in each periodic round, exactly what the words ask for: with each protocol whose letter was typed (or which was received), on each interface named as operand, or without operands on all, except kinds and names that the options leave out; with -s nothing, without -a nothing but the protocols typed. If a system on the same link whose daemon was started with its own command line hears such a frame, then a user there who types ladvdc, with words that leave the output a table and include the protocol and the interface, sees within the lifetime a line with the interface, the protocol, the remaining lifetime and names that read back as those of the first system, and the exit status is 0.", "quantifier": "all command lines of the daemons and the client, all hosts and kernels on both systems, all histories before, in between and after, all frames sent, all arrival times within the lifetime", "why_tests_cant": "it spans two daemons and a client from their command lines on, over unbounded histories; unit tests call single functions with prepared structures", "anchors": ["src/main.c: main", "src/child.c: child_send, child_queue, child_cli_write", "src/parent.c: parent_recv", "src/cli.c: cli_main, cli_write", "src/sysinfo.c: sysinfo_fetch"]}
{"id": "C99", "title": "Whoever types ladvdc, whenever, sees the neighbours that keep sending", "statement": "Two systems, each running Linux or FreeBSD and from their command lines on, are connected by a link that may lose and delay frames, as long as of the frames sent in any window of a given length one arrives within a given delay, and window and delay together stay below the announced lifetime. Then, at every moment after the first frame has arrived, a user on the second system who types ladvdc (with words that leave the output a table and include the protocol and the interface) sees a line for the first system: with the receiving interface, the protocol, the name of the first system, contents taken from one frame the first system sent, and a remaining lifetime of at least 180 seconds less window and delay. The client exits with status 0 and writes nothing to standard error.", "quantifier": "all pairs of systems, configurations, kernels and histories, all patterns of loss and delay within the bound, all moments, all client command lines that keep the table output, all widths of the terminal", "why_tests_cant": "it is a liveness claim about two event loops over unbounded time and every pattern of loss; a test observes one schedule", "anchors": ["src/child.c: child_send, child_queue, child_cli_accept, child_cli_write", "src/parent.c: parent_recv", "src/cli.c: cli_main, cli_write", "src/proto/lldp.c: lldp_packet, lldp_decode"]}
{"id": "C100", "title": "Receiving messages with descriptors neither loses nor leaks any", "statement": "Reading from a message socket changes the descriptors of the process only as follows: if a file was sent along, it is open afterwards under exactly one number that was free before and that is handed out with the message; further files sent along are closed again, and the descriptors opened only to find out how many are free are all closed. If the read fails, or fewer than two descriptors are free, it returns -1 and neither descriptors nor buffered bytes have changed, so the message can be read later. The question whether n descriptors are free is answered by yes exactly if n is at most 256, that many numbers are free and the system grants the sockets. On a socket that does not block and has nothing to read, the call does not return.", "quantifier": "all descriptor tables and limits, all sequences of answers of the kernel to socket and recvmsg, all bytes and lists of files received, all buffer states", "why_tests_cant": "shortage of descriptors and refusals at each single call depend on the state of the whole system; a test sees the few it provokes", "anchors": ["src/compat/imsg.c: available_fds, imsg_read, imsg_init"]}
{"id": "C101", "title": "From the words typed on two systems, whichever they run, to the terminal", "statement": "On FreeBSD, as on Linux, the daemon started with a command line does what the words ask for: it starts with the settings they mean, in every periodic round it sends exactly the protocols whose letters were typed (or that were received) on the interfaces named, or without operands on all, except kinds and names left out; with -s it never sends anything, without -a it sends no protocols but those typed. Two systems, each with either operating system and started with some command line, connected by a link with bounded loss and delay: as long as the words typed on the first ask for a protocol on an interface, a user on the second who types ladvdc with words that ask for it sees the first system, at any moment, with its name and a remaining lifetime of at least 180 seconds less window and delay.", "quantifier": "all command lines of both daemons and of the client, both operating systems on either side, all kernels and histories, all patterns of loss and delay within the bound, all moments", "why_tests_cant": "it spans three programs from their command lines on, two operating systems and unbounded time", "anchors": ["src/main.c: main", "src/sysinfo.c: sysinfo_fetch", "src/child.c: child_send, child_queue, child_cli_write", "src/netif_bsd.c: netif_fetch", "src/cli.c: cli_main, cli_write"]}
{"id": "C102", "title": "An expired advertisement can spoil at most the next one displayed", "statement": "Whatever in the daemon's table has expired, a user who types ladvdc gets the whole table read and exit status 0. Every advertisement has at most one line, in the order of the table, with its own interface, lifetime, remaining lifetime and frame, and those that were not asked for or have expired have none. An advertisement that has not expired is shown exactly as received, unless the one asked for directly before it has expired.", "quantifier": "all runs of the daemon from its start, all tables they lead to, all clocks, all command lines of the client that leave the output a table, all C libraries", "why_tests_cant": "the damage depends on what was left behind by the previous entry, so all sequences of live and expired entries in all protocols have to be covered", "anchors": ["src/cli.c: cli_main", "src/child.c: child_cli_write", "src/proto/lldp.c: lldp_decode", "src/proto/cdp.c: cdp_decode", "src/proto/tlv.c"]}
{"id": "C103", "title": "The privileged process touches only files of the interface asked about", "statement": "Whatever datagram the unprivileged process sends, the privileged one looks at, reads and writes no files but those the operation stands for, in the directory the kernel keeps for the interface with the given index: the description is written to and read from ifalias there, the device and its maker are looked up below device. The name in the request has no influence, paths are never cut, and files of different interfaces are different. Nothing but ifalias is ever written, with exactly the text sent.", "quantifier": "all datagrams, all interface names, all contents of the file system, all states of the process", "why_tests_cant": "a compromised process can send any bytes, and what matters is that no path outside can be reached with any of them", "anchors": ["src/parent.c: parent_req, parent_check, parent_descr, parent_device, parent_device_id", "src/util.c: read_line, write_line"]}
{"id": "C104", "title": "A script that evaluates ladvdc -b gets the variables of the neighbours asked for and nothing else", "statement": "A daemon has run for a while, and a script evaluates the output of ladvdc -b, with any protocols and interfaces on the command line. The client ends with status 0 and the shell makes exactly these assignments: for some entries of the daemon's table, in its order and numbered from zero, one for each of twelve values. Entries that were not asked for or have expired are not among them. An entry asked for that has not expired is, with the values of its frame, unless the one asked for directly before has expired.", "quantifier": "all runs of the daemon from its start, all frames it heard, all clocks, all command lines of the client with -b, all C libraries", "why_tests_cant": "the frames come from untrusted stations and end up in a shell, so every byte sequence in every table has to be covered", "anchors": ["src/cli.c: cli_main, batch_write", "src/child.c: child_cli_write", "src/main.c: main"]}
