{
 "claims": [
  {
   "property": "C01",
   "status": "proved",
   "theorems": [
    "Ladvd.Props.C01_roundtrip"
   ],
   "note": "for every configuration that fits the structure fields (EnvOk) and whose active capabilities are available ones (CapsOk, established by sysinfo.c and netif.c)"
  },
  {
   "property": "C02",
   "status": "proved",
   "theorems": [
    "Ladvd.Props.C02_roundtrip"
   ],
   "note": "both protocol versions"
  },
  {
   "property": "C03",
   "status": "proved",
   "theorems": [
    "Ladvd.Props.C03_roundtrip"
   ],
   "note": ""
  },
  {
   "property": "C04",
   "status": "proved",
   "theorems": [
    "Ladvd.Props.C04_roundtrip"
   ],
   "note": ""
  },
  {
   "property": "C05",
   "status": "proved",
   "theorems": [
    "Ladvd.Props.C05_ndp"
   ],
   "note": ""
  },
  {
   "property": "C06",
   "status": "proved",
   "theorems": [
    "Ladvd.Props.C06_built",
    "Ladvd.Props.C06_fits"
   ],
   "note": "minimum length 60 for CDP/FDP needs 9 bytes of host name, system string and platform together"
  },
  {
   "property": "C07",
   "status": "partial",
   "theorems": [
    "Ladvd.Props.C07_cdp",
    "Ladvd.Props.C07_edp",
    "Ladvd.Props.C07_fdp",
    "Ladvd.Props.C07_ndp",
    "Ladvd.Props.C07_lldp_partial",
    "Ladvd.Props.C07_lldp_overread"
   ],
   "note": "CDP/EDP/FDP/NDP fully; the LLDP decoder reads up to two bytes behind the frame (witness), proved to stay within two bytes"
  },
  {
   "property": "C08",
   "status": "proved",
   "theorems": [
    "Ladvd.Props.C08_cdp",
    "Ladvd.Props.C08_fdp",
    "Ladvd.Props.C08_edp",
    "Ladvd.Props.C08_ndp",
    "Ladvd.Props.C08_lldp"
   ],
   "note": "LLDP: two bytes must be readable behind the frame (see C07)"
  },
  {
   "property": "C09",
   "status": "proved",
   "theorems": [
    "Ladvd.Props.C09_accept_iff",
    "Ladvd.Props.C09_grammar",
    "Ladvd.Props.C09_reject"
   ],
   "note": ""
  },
  {
   "property": "C10",
   "status": "proved",
   "theorems": [
    "Ladvd.Props.C10_cdp",
    "Ladvd.Props.C10_fdp",
    "Ladvd.Props.C10_edp",
    "Ladvd.Props.C10_chksum"
   ],
   "note": ""
  },
  {
   "property": "C11",
   "status": "partial",
   "theorems": [
    "Ladvd.Props.C11_exact",
    "Ladvd.Props.C11_sound_partial",
    "Ladvd.Props.C11_complete_partial",
    "Ladvd.Props.C11_edp_rejected",
    "Ladvd.Props.C11_mistyped_accepted",
    "Ladvd.Props.C11_send_only"
   ],
   "note": "termination and the exact accepted set are proved for all frames; the claimed agreement is false for EDP: the filter has 0e:2b where EDP uses e0:2b"
  },
  {
   "property": "C12",
   "status": "proved",
   "theorems": [
    "Ladvd.Props.C12_copy_safe",
    "Ladvd.Props.C12_value_safe",
    "Ladvd.Props.C12_peer_safe"
   ],
   "note": ""
  },
  {
   "property": "C13",
   "status": "proved",
   "theorems": [
    "Ladvd.Props.C13_copy_lossless",
    "Ladvd.Props.C13_value_lossless",
    "Ladvd.Props.C13_injective",
    "Ladvd.Props.C13_fits"
   ],
   "note": "texts longer than 511 bytes are cut by the TLV layer before sanitising (no protocol carries longer LLDP values; CDP can)"
  },
  {
   "property": "C14",
   "status": "proved",
   "theorems": [
    "Ladvd.Props.C14_strlcpy",
    "Ladvd.Props.C14_strlcat",
    "Ladvd.Props.C14_strlcpy_string"
   ],
   "note": ""
  },
  {
   "property": "C15",
   "status": "proved",
   "theorems": [
    "Ladvd.Props.C15_unique"
   ],
   "note": ""
  },
  {
   "property": "C16",
   "status": "proved",
   "theorems": [
    "Ladvd.Props.C16_latest",
    "Ladvd.Props.C16_ignored"
   ],
   "note": ""
  },
  {
   "property": "C17",
   "status": "proved",
   "theorems": [
    "Ladvd.Props.C17_exact",
    "Ladvd.Props.C17_not_earlier",
    "Ladvd.Props.C17_gone",
    "Ladvd.Props.C17_shutdown"
   ],
   "note": "an entry locked by a client session is kept; see C19 for leaked locks"
  },
  {
   "property": "C18",
   "status": "proved",
   "theorems": [
    "Ladvd.Props.C18_grouped"
   ],
   "note": ""
  },
  {
   "property": "C19",
   "status": "partial",
   "theorems": [
    "Ladvd.Props.C19_partial",
    "Ladvd.Props.C19_use_after_free",
    "Ladvd.Props.C19_lock_leaked"
   ],
   "note": "false in general: a reception resets the lock count (use after free, witness) and a timed out session never releases its lock (witness); proved for histories without these two"
  },
  {
   "property": "C20",
   "status": "partial",
   "theorems": [
    "Ladvd.Props.C20_ttl",
    "Ladvd.Props.C20_expired",
    "Ladvd.Props.C20_run",
    "Ladvd.Props.C20_own_partial",
    "Ladvd.Props.C20_bleed",
    "Ladvd.Props.C20_hidden",
    "Ladvd.Props.C20_print_expired",
    "Ladvd.Props.C20_daemon",
    "Ladvd.Props.C20_delivered",
    "Ladvd.Props.C20_once"
   ],
   "note": "For every table: what is displayed is decoded from the entry itself as long as no expired entry precedes it; an expired entry's data is not released and reaches the next neighbour (C20_bleed) or hides it (C20_hidden), and -f prints expired entries (C20_print_expired), so the unconditional statement is false."
  },
  {
   "property": "C21",
   "status": "proved",
   "theorems": [
    "Ladvd.Props.C21_batch"
   ],
   "note": "A model of the shell's quoting reads every line as the assignments of exactly the displayed values; the interface name, which the kernel supplies, must not contain a quote."
  },
  {
   "property": "C22",
   "status": "proved",
   "theorems": [
    "Ladvd.Props.C22_permitted"
   ],
   "note": "for every history of events; the daemon starts with an empty list and table"
  },
  {
   "property": "C23",
   "status": "partial",
   "theorems": [
    "Ladvd.Props.C23_round_partial",
    "Ladvd.Props.C23_no_overlap",
    "Ladvd.Props.C23_frames",
    "Ladvd.Props.C23_overlap"
   ],
   "note": "Exactly the messages due, for every history; one per interface and protocol only if the command line does not name an aggregate together with one of its ports: then the port is sent to twice (C23_overlap), so the unconditional statement is false. The kernel's interface list must be consistent (Sane), VLANs at most ten, system texts not tiny."
  },
  {
   "property": "C24",
   "status": "partial",
   "theorems": [
    "Ladvd.Props.C24_limit_partial",
    "Ladvd.Props.C24_immediate",
    "Ladvd.Props.C24_renewed",
    "Ladvd.Props.C24_vanished"
   ],
   "note": "At most four events between periodic rounds, for every history, as long as the interface stays in the kernel's list; when a refresh happens while it is gone the counter starts again (C24_vanished), so the unconditional statement is false."
  },
  {
   "property": "C25",
   "status": "proved",
   "theorems": [
    "Ladvd.Props.C25_safe",
    "Ladvd.Props.C25_safe_run",
    "Ladvd.Props.C25_refused",
    "Ladvd.Props.C25_request",
    "Ladvd.Props.C25_reply",
    "Ladvd.Props.C25_frames",
    "Ladvd.Props.C25_history"
   ],
   "note": "for all datagrams and all answers of the kernel within its own limits; what is not a request makes the process terminate (exactly characterised)"
  },
  {
   "property": "C26",
   "status": "partial",
   "theorems": [
    "Ladvd.Props.C26_unique",
    "Ladvd.Props.C26_open",
    "Ladvd.Props.C26_close_partial",
    "Ladvd.Props.C26_gone",
    "Ladvd.Props.C26_quit",
    "Ladvd.Props.C26_filter",
    "Ladvd.Props.C26_close_vanished",
    "Ladvd.Props.C26_debug"
   ],
   "note": "Uniqueness for every history. A close releases the socket only of an interface that still exists (C26_close_vanished) and not in a debug run (C26_debug), so that part is false in general."
  },
  {
   "property": "C27",
   "status": "partial",
   "theorems": [
    "Ladvd.Props.C27_open",
    "Ladvd.Props.C27_groups",
    "Ladvd.Props.C27_send_only",
    "Ladvd.Props.C27_close_calls",
    "Ladvd.Props.C27_symmetric_partial",
    "Ladvd.Props.C27_close_rejoins"
   ],
   "note": "Memberships of open sockets are exact for every history. On closing the calls are symmetric only with a single protocol; with more the first group is dropped and the others are requested again (C27_close_calls, C27_close_rejoins); the socket is closed right after, which ends all memberships."
  },
  {
   "property": "C28",
   "status": "proved",
   "theorems": [
    "Ladvd.Props.C28_exact",
    "Ladvd.Props.C28_forward",
    "Ladvd.Props.C28_complete",
    "Ladvd.Props.C28_listening"
   ],
   "note": "a batch is abandoned at the first packet with an unknown destination"
  },
  {
   "property": "C29",
   "status": "partial",
   "theorems": [
    "Ladvd.Props.C29_traverse",
    "Ladvd.Props.C29_ports_partial",
    "Ladvd.Props.C29_selected_partial",
    "Ladvd.Props.C29_parent_partial",
    "Ladvd.Props.C29_duplicate_port"
   ],
   "note": "Traversal of the list for all lists. Traversal of ports for the list after any refresh with a kernel that reports every port once and for one aggregate; for a port reported twice the traversal does not end (C29_duplicate_port), so the unconditional statement is false."
  },
  {
   "property": "C30",
   "status": "partial",
   "theorems": [
    "Ladvd.Props.C30_confined_partial",
    "Ladvd.Props.C30_no_crash",
    "Ladvd.Props.C30_irrevocable",
    "Ladvd.Props.C30_reaches",
    "Ladvd.Props.C30_debug"
   ],
   "note": "Proved for every run but a debug run (-d), in which the process handling packets keeps all privileges (C30_debug)."
  },
  {
   "property": "C31",
   "status": "proved",
   "theorems": [
    "Ladvd.Props.C31_media",
    "Ladvd.Props.C31_ethernet",
    "Ladvd.Props.C31_other",
    "Ladvd.Props.C31_shortens",
    "Ladvd.Props.C31_abbr"
   ],
   "note": "not idempotent: FastEthernetstEthernet0 -> FastEthernet0 -> Fa0"
  },
  {
   "property": "C32",
   "status": "partial",
   "theorems": [
    "Ladvd.Props.C32_text_partial",
    "Ladvd.Props.C32_zero_source",
    "Ladvd.Props.C32_fits",
    "Ladvd.Props.C32_request",
    "Ladvd.Props.C32_request_partial",
    "Ladvd.Props.C32_modulo",
    "Ladvd.Props.C32_wraps"
   ],
   "note": "false for neighbours with an all-zero source address (witness) and, since the number is kept in 16 bits, once 65536 neighbours are known (C32_wraps: a flood within a second clears the description at any time); proved for all others and fewer than 65536 neighbours; C32_modulo gives the text for any number"
  },
  {
   "property": "C33",
   "status": "proved",
   "theorems": [
    "Ladvd.Props.C33_once_in_order",
    "Ladvd.Props.C33_complete",
    "Ladvd.Props.C33_current",
    "Ladvd.Props.C33_whole"
   ],
   "note": "entries are written whole (SOCK_SEQPACKET)"
  },
  {
   "property": "C34",
   "status": "partial",
   "theorems": [
    "Ladvd.Props.C34_own",
    "Ladvd.Props.C34_shared",
    "Ladvd.Props.C34_by_name",
    "Ladvd.Props.C34_by_address_partial",
    "Ladvd.Props.C34_stale",
    "Ladvd.Props.C34_secondary"
   ],
   "note": "Own addresses, -n and selection by name for all address lists and states. Selection by address only from a state without management interface: the choice is not revised when the address moves (C34_stale), and an address that is not the first of its interface is not found (C34_secondary)."
  },
  {
   "property": "C35",
   "status": "proved",
   "theorems": [
    "Ladvd.Props.C35_starts",
    "Ladvd.Props.C35_options",
    "Ladvd.Props.C35_values",
    "Ladvd.Props.C35_order",
    "Ladvd.Props.C35_silent",
    "Ladvd.Props.C35_asked",
    "Ladvd.Props.C35_twice",
    "Ladvd.Props.C35_country"
   ],
   "note": "getopt itself is not modelled: the theorems range over all sequences of parsed options. C35_twice and C35_country are witnesses: repeated options depend on the order, and -c accepts any two characters."
  },
  {
   "property": "C36",
   "status": "proved",
   "theorems": [
    "Ladvd.Props.C36_cdp",
    "Ladvd.Props.C36_fdp",
    "Ladvd.Props.C36_edp",
    "Ladvd.Props.C36_ndp"
   ],
   "note": ""
  },
  {
   "property": "C37",
   "status": "partial",
   "theorems": [
    "Ladvd.Props.C37_duplicate_accepted",
    "Ladvd.Props.C37_duplicate_ignored_partial"
   ],
   "note": "discarding is false (witness); repetitions are proved not to change the outcome"
  },
  {
   "property": "C38",
   "status": "proved",
   "theorems": [
    "Ladvd.Props.C38_cdp",
    "Ladvd.Props.C38_fdp",
    "Ladvd.Props.C38_edp",
    "Ladvd.Props.C38_lldp"
   ],
   "note": "NDP: see C05_ndp"
  },
  {
   "property": "C39",
   "status": "proved",
   "theorems": [
    "Ladvd.Props.C39_checked",
    "Ladvd.Props.C39_no_crash"
   ],
   "note": ""
  },
  {
   "property": "C40",
   "status": "proved",
   "theorems": [
    "Ladvd.Props.C40_indexes",
    "Ladvd.Props.C40_record",
    "Ladvd.Props.C40_kind",
    "Ladvd.Props.C40_vlan",
    "Ladvd.Props.C40_vlan_driver",
    "Ladvd.Props.C40_hwaddr",
    "Ladvd.Props.C40_closed",
    "Ladvd.Props.C40_count",
    "Ladvd.Props.C40_argv",
    "Ladvd.Props.C40_failure"
   ],
   "note": "For all kernel answers in which the usable interfaces have distinct indexes and names of at most 15 bytes, and all previous lists with distinct indexes (guaranteed by C41). VLANs are recognised by the kernel's VLAN query only: C40_vlan_driver shows that the comparison with the driver name never succeeds."
  },
  {
   "property": "C41",
   "status": "proved",
   "theorems": [
    "Ladvd.Props.C41_references"
   ],
   "note": "No assumptions about the kernel's answers."
  },
  {
   "property": "C42",
   "status": "partial",
   "theorems": [
    "Ladvd.Props.C42_width",
    "Ladvd.Props.C42_columns",
    "Ladvd.Props.C42_piped",
    "Ladvd.Props.C42_one_line_partial",
    "Ladvd.Props.C42_glob",
    "Ladvd.Props.C42_injected"
   ],
   "note": "Width for every neighbour. One line for EDP, FDP and NDP neighbours and for others whose texts have no line ends; LLDP and CDP texts may contain them and then add lines (C42_injected), so the unconditional statement is false."
  },
  {
   "property": "C43",
   "status": "proved",
   "theorems": [
    "Ladvd.Props.C43_fields",
    "Ladvd.Props.C43_run"
   ],
   "note": "libevent's percent encoding is a parameter of which only the absence of & in its output is assumed"
  },
  {
   "property": "C44",
   "status": "partial",
   "theorems": [
    "Ladvd.Props.C44_options",
    "Ladvd.Props.C44_accepted",
    "Ladvd.Props.C44_cdp1",
    "Ladvd.Props.C20_run"
   ],
   "note": "Everything except that -C does not select CDP version 1 neighbours (C44_cdp1)."
  },
  {
   "property": "C45",
   "status": "proved",
   "theorems": [
    "Ladvd.Props.C45_protected",
    "Ladvd.Props.C45_open"
   ],
   "note": "The group of the starting process is the one the socket has between bind and chown."
  },
  {
   "property": "C46",
   "status": "proved",
   "theorems": [
    "Ladvd.Props.C46_single",
    "Ladvd.Props.C46_pidfile",
    "Ladvd.Props.C46_stale",
    "Ladvd.Props.C46_foreground"
   ],
   "note": "Witnesses: the file is not truncated, so later lines may be stale (C46_stale); foreground daemons take no lock (C46_foreground)."
  },
  {
   "property": "C47",
   "status": "proved",
   "theorems": [
    "Ladvd.Props.C47_capabilities"
   ],
   "note": ""
  },
  {
   "property": "C48",
   "status": "partial",
   "theorems": [
    "Ladvd.Props.C48_signals_partial",
    "Ladvd.Props.C48_everyone",
    "Ladvd.Props.C48_ends"
   ],
   "note": "Proved if the fork succeeds; if it fails, SIGTERM goes to every process of the system (C48_everyone)."
  },
  {
   "property": "C49",
   "status": "partial",
   "theorems": [
    "Ladvd.Props.C49_starts",
    "Ladvd.Props.C49_texts",
    "Ladvd.Props.C49_distribution_unique",
    "Ladvd.Props.C49_inventory",
    "Ladvd.Props.C49_release_partial",
    "Ladvd.Props.C49_capabilities",
    "Ladvd.Props.C49_med",
    "Ladvd.Props.C49_started",
    "Ladvd.Props.C49_kept",
    "Ladvd.Props.C49_minus"
   ],
   "note": "Every field of the system information, from the system's answers and the command line; false for releases in which a minus sign follows a letter and precedes a number (C49_minus), proved for all others.  C49_started discharges the hypotheses about the initial state used elsewhere."
  },
  {
   "property": "C50",
   "status": "proved",
   "theorems": [
    "Ladvd.Props.C50_capabilities",
    "Ladvd.Props.C50_other_value"
   ],
   "note": "After any history, from the kernel's list of the latest refresh. Only the setting 1 counts as forwarding: C50_other_value is a system that forwards and is not announced as an active router."
  },
  {
   "property": "C51",
   "status": "proved",
   "theorems": [
    "Ladvd.Props.C51_mode",
    "Ladvd.Props.C51_vlan",
    "Ladvd.Props.C51_device",
    "Ladvd.Props.C51_role",
    "Ladvd.Props.C51_role_unique",
    "Ladvd.Props.C51_chassis"
   ],
   "note": "After one refresh from any earlier state whose indexes are distinct; C51_role assumes that the kernel reports every port of an aggregation once (KernelOk). Teams never give their ports an LACP position (x = 0)."
  },
  {
   "property": "C52",
   "status": "proved",
   "theorems": [
    "Ladvd.Props.C52_link",
    "Ladvd.Props.C52_mau_unique",
    "Ladvd.Props.C52_frames",
    "Ladvd.Props.C52_sequence",
    "Ladvd.Props.C52_autoneg_misreported"
   ],
   "note": "C52_frames holds after any history with consistent kernels. C52_sequence assumes that every frame could be built (Workable). LinkIs says what is reported for devices that can not negotiate; C52_autoneg_misreported shows that the announcement made of this is wrong."
  },
  {
   "property": "C53",
   "status": "partial",
   "theorems": [
    "Ladvd.Props.C53_transmitted",
    "Ladvd.Props.C53_learned_partial",
    "Ladvd.Props.C53_edp_unheard"
   ],
   "note": "C53_transmitted is complete. Missing from C53_learned_partial: EDP, whose frames the receiver's filter drops (C53_edp_unheard), and the names for NDP, which does not carry them."
  },
  {
   "property": "C54",
   "status": "partial",
   "theorems": [
    "Ladvd.Props.C54_unique",
    "Ladvd.Props.C54_entry_partial",
    "Ladvd.Props.C54_run_partial",
    "Ladvd.Props.C54_daemon_partial",
    "Ladvd.Props.C54_null",
    "Ladvd.Props.C54_expired",
    "Ladvd.Props.C54_cut",
    "Ladvd.Props.C54_network_id"
   ],
   "note": "Missing: LLDP port ids that are malformed Ethernet addresses, for which the client passes a null pointer to printf (C54_null), and runs over expired entries, which are printed nonetheless and cut the next report (C54_expired). C54_cut: a frame the daemon accepts whose report breaks off. The text of an IPv6 address is libc's."
  },
  {
   "property": "C55",
   "status": "partial",
   "theorems": [
    "Ladvd.Props.C55_safe",
    "Ladvd.Props.C55_lldp_partial",
    "Ladvd.Props.C55_cdp_partial",
    "Ladvd.Props.C55_forged"
   ],
   "note": "C55_safe is complete, for interface names and IPv6 notations that are safe themselves. Missing from the statement about lines: names and ids with line feeds, which can forge lines (C55_forged)."
  },
  {
   "property": "C56",
   "status": "partial",
   "theorems": [
    "Ladvd.Props.C56_only_clients",
    "Ladvd.Props.C56_no_clients",
    "Ladvd.Props.C56_partial",
    "Ladvd.Props.C56_use_after_free"
   ],
   "note": "C56_only_clients covers every history: the process handles everything, except that a session may continue at a freed entry. Missing: histories in which that happens (C56_use_after_free). Hypotheses: the kernel answers consistently within a round; frames come through the privileged process and its filter."
  },
  {
   "property": "C57",
   "status": "partial",
   "theorems": [
    "Ladvd.Props.C57_rounds_partial",
    "Ladvd.Props.C57_quiet",
    "Ladvd.Props.C57_up",
    "Ladvd.Props.C57_only",
    "Ladvd.Props.C57_any_report",
    "Ladvd.Props.C57_exhausted"
   ],
   "note": "exact for every sequence of reads and messages: one round per report of an Ethernet interface whose link is up; false for the other kinds of notifications about interfaces that are up, which count as link events (witnesses C57_any_report, C57_exhausted)"
  },
  {
   "property": "C58",
   "status": "partial",
   "theorems": [
    "Ladvd.Props.C58_safe_partial",
    "Ladvd.Props.C58_title",
    "Ladvd.Props.C58_empty_name"
   ],
   "note": "missing: a call with the empty string as program name and nothing behind it, for which the length wraps around (C58_empty_name)"
  },
  {
   "property": "C59",
   "status": "partial",
   "theorems": [
    "Ladvd.Props.C59_order_partial",
    "Ladvd.Props.C59_complete",
    "Ladvd.Props.C59_written",
    "Ladvd.Props.C59_arrives",
    "Ladvd.Props.C59_accepted",
    "Ladvd.Props.C59_descriptors",
    "Ladvd.Props.C59_queued",
    "Ladvd.Props.C59_wrapped"
   ],
   "note": "all messages whose pieces are shorter than 65536 bytes, all interleavings and splits; for longer pieces imsg_composev drops bytes and reports success (C59_wrapped). Allocation and system calls succeed."
  },
  {
   "property": "C60",
   "status": "proved",
   "theorems": [
    "Ladvd.Props.C60_client",
    "Ladvd.Props.C60_table",
    "Ladvd.Props.C60_daemon",
    "Ladvd.Props.C60_silent",
    "Ladvd.Props.C60_adverts",
    "Ladvd.Props.C60_terminal"
   ],
   "note": "the file format is that of pcap-savefile(5), read by a reader written independently; the clock is arbitrary but in the range of 32 bits"
  },
  {
   "property": "C61",
   "status": "partial",
   "theorems": [
    "Ladvd.Props.C61_target_partial",
    "Ladvd.Props.C61_form",
    "Ladvd.Props.C61_exit",
    "Ladvd.Props.C61_hostname",
    "Ladvd.Props.C61_port",
    "Ladvd.Props.C61_https",
    "Ladvd.Props.C61_interface"
   ],
   "note": "for URLs without a port, and names of interfaces and of this host that need no encoding; with a port the requests go to the default port (C61_port), an interface with an ampersand in its name adds fields (C61_interface). The last value ends with two line ends."
  },
  {
   "property": "C62",
   "status": "proved",
   "theorems": [
    "Ladvd.Props.C62_list",
    "Ladvd.Props.C62_record",
    "Ladvd.Props.C62_kind",
    "Ladvd.Props.C62_addresses",
    "Ladvd.Props.C62_count",
    "Ladvd.Props.C62_capabilities",
    "Ladvd.Props.C62_closed",
    "Ladvd.Props.C62_management"
   ],
   "note": "for answers that fit the buffers of the code (BsdOk)"
  },
  {
   "property": "C63",
   "status": "partial",
   "theorems": [
    "Ladvd.Props.C63_ports_partial",
    "Ladvd.Props.C63_selected_partial",
    "Ladvd.Props.C63_roles_partial",
    "Ladvd.Props.C63_members",
    "Ladvd.Props.C63_macos_first",
    "Ladvd.Props.C63_macos_endless"
   ],
   "note": "FreeBSD, no interface a member of two aggregates; on macOS false (C63_macos_first, C63_macos_endless)"
  },
  {
   "property": "C64",
   "status": "partial",
   "theorems": [
    "Ladvd.Props.C64_vlan_partial",
    "Ladvd.Props.C64_vlan_last",
    "Ladvd.Props.C64_vlan_wrong"
   ],
   "note": "only the VLAN whose link level address is listed last; all others get that one's parent and id (C64_vlan_wrong)"
  },
  {
   "property": "C65",
   "status": "partial",
   "theorems": [
    "Ladvd.Props.C65_device_partial",
    "Ladvd.Props.C65_driver_long",
    "Ladvd.Props.C65_text_long"
   ],
   "note": "driver names of up to 15 and descriptions of up to 63 characters; longer ones leave their buffers (C65_driver_long, C65_text_long)"
  },
  {
   "property": "C66",
   "status": "proved",
   "theorems": [
    "Ladvd.Props.C66_link",
    "Ladvd.Props.C66_unique"
   ],
   "note": ""
  },
  {
   "property": "C67",
   "status": "proved",
   "theorems": [
    "Ladvd.Props.C67_report",
    "Ladvd.Props.C67_other"
   ],
   "note": "layout of the messages as on a 64 bit FreeBSD"
  },
  {
   "property": "C68",
   "status": "partial",
   "theorems": [
    "Ladvd.Props.C68_starts",
    "Ladvd.Props.C68_texts",
    "Ladvd.Props.C68_inventory",
    "Ladvd.Props.C68_release_partial",
    "Ladvd.Props.C68_capabilities",
    "Ladvd.Props.C68_med",
    "Ladvd.Props.C68_minus",
    "Ladvd.Props.C68_other_value"
   ],
   "note": "kenv as documented for FreeBSD; false for releases in which a minus sign follows a letter and precedes a number (C68_minus); only the forwarding setting 1 counts (C68_other_value)"
  },
  {
   "property": "C69",
   "status": "partial",
   "theorems": [
    "Ladvd.Props.C69_groups",
    "Ladvd.Props.C69_enabled",
    "Ladvd.Props.C69_send_only",
    "Ladvd.Props.C69_restored_partial",
    "Ladvd.Props.C69_foreign"
   ],
   "note": "groups that another program had joined are left when the daemon closes the interface (C69_foreign); complete otherwise"
  },
  {
   "property": "C70",
   "status": "partial",
   "theorems": [
    "Ladvd.Props.C70_conformant_partial",
    "Ladvd.Props.C70_daemon_partial",
    "Ladvd.Props.C70_location_wraps",
    "Ladvd.Props.C70_vlan_ids",
    "Ladvd.Props.C70_negotiation"
   ],
   "note": "announced locations of at most 250 characters, VLAN ids below 4095, ports that negotiate or whose driver says nothing; the code violates the standards otherwise (proved)"
  },
  {
   "property": "C71",
   "status": "partial",
   "theorems": [
    "Ladvd.Props.C71_displayed_partial"
   ],
   "note": "EDP frames are not received by ladvd (C53_edp_unheard), NDP frames carry no names, and entries that have expired but are still in the table can falsify what follows them (C20_bleed); complete otherwise"
  },
  {
   "property": "C72",
   "status": "partial",
   "theorems": [
    "Ladvd.Props.C72_exact",
    "Ladvd.Props.C72_bound",
    "Ladvd.Props.C72_exit",
    "Ladvd.Props.C72_shows",
    "Ladvd.Props.C72_daemon",
    "Ladvd.Props.C72_dangling",
    "Ladvd.Props.C72_defined_partial",
    "Ladvd.Props.C72_use_after_free"
   ],
   "note": "a client session can continue at a released entry (C72_use_after_free), which is shown to be the only invalid access; complete otherwise"
  },
  {
   "property": "C73",
   "status": "proved",
   "theorems": [
    "Ladvd.Props.C73_append",
    "Ladvd.Props.C73_after",
    "Ladvd.Props.C73_remove",
    "Ladvd.Props.C73_foreach",
    "Ladvd.Props.C73_sweep",
    "Ladvd.Props.C73_table",
    "Ladvd.Props.C73_read",
    "Ladvd.Props.C73_total"
   ],
   "note": "the hypothesis is that malloc does not return memory in use"
  },
  {
   "property": "C74",
   "status": "partial",
   "theorems": [
    "Ladvd.Props.C74_appears",
    "Ladvd.Props.C74_new_only",
    "Ladvd.Props.C74_departs_partial",
    "Ladvd.Props.C74_removed_only",
    "Ladvd.Props.C74_balance_partial",
    "Ladvd.Props.C74_enabling",
    "Ladvd.Props.C74_written",
    "Ladvd.Props.C74_lines_partial",
    "Ladvd.Props.C74_safe",
    "Ladvd.Props.C74_silent",
    "Ladvd.Props.C74_farewell",
    "Ladvd.Props.C74_renamed",
    "Ladvd.Props.C74_forged"
   ],
   "note": "false for neighbours that say goodbye over LLDP, are renamed or have line feeds in their names, and for 128 options -v (witnesses proved); complete otherwise"
  },
  {
   "property": "C75",
   "status": "partial",
   "theorems": [
    "Ladvd.Props.C75_replies",
    "Ladvd.Props.C75_frames",
    "Ladvd.Props.C75_packets",
    "Ladvd.Props.C75_finite",
    "Ladvd.Props.C75_halted",
    "Ladvd.Props.C75_done_partial",
    "Ladvd.Props.C75_sending",
    "Ladvd.Props.C75_forever",
    "Ladvd.Props.C75_deadlock"
   ],
   "note": "false for bursts of frames larger than the socket queue while a request is open (C75_deadlock); order, completeness and termination are proved for all interleavings, and the deadlock is shown to be the only way to get stuck"
  },
  {
   "property": "C76",
   "status": "partial",
   "theorems": [
    "Ladvd.Props.C76_block",
    "Ladvd.Props.C76_string",
    "Ladvd.Props.C76_truncated",
    "Ladvd.Props.C76_length_partial",
    "Ladvd.Props.C76_one",
    "Ladvd.Props.C76_noslash"
   ],
   "note": "false for a buffer of one byte, for which the length is reported as 0 (C76_one); everything else is proved for all flags, texts and sizes; flag sets without backslashes are not reversible by design (C76_noslash)"
  },
  {
   "property": "C77",
   "status": "partial",
   "theorems": [
    "Ladvd.Props.C77_packets",
    "Ladvd.Props.C77_stream_partial",
    "Ladvd.Props.C77_shown",
    "Ladvd.Props.C77_survives_partial",
    "Ladvd.Props.C77_others",
    "Ladvd.Props.C77_killed",
    "Ladvd.Props.C77_short_write",
    "Ladvd.Props.C77_short_read"
   ],
   "note": "false over byte streams, where a short write or read loses or garbles entries (C77_short_write, C77_short_read), and on systems where writing to a departed client raises SIGPIPE (C77_killed); proved for message-preserving sockets without such a signal, as on Linux"
  },
  {
   "property": "C78",
   "status": "partial",
   "theorems": [
    "Ladvd.Props.C78_period",
    "Ladvd.Props.C78_renewed",
    "Ladvd.Props.C78_stale_partial",
    "Ladvd.Props.C78_stale_served",
    "Ladvd.Props.C78_stale_alone",
    "Ladvd.Props.C78_leaked",
    "Ladvd.Props.C78_seen_partial"
   ],
   "note": "rounds and advertisements are proved in full; false for neighbours marked by a client that was dropped, which stay for ever (C78_leaked), and for EDP, of which no frame is heard (C53_edp_unheard); the lateness of the event loop is a parameter of every theorem"
  },
  {
   "property": "C79",
   "status": "partial",
   "theorems": [
    "Ladvd.Props.C79_read",
    "Ladvd.Props.C79_served",
    "Ladvd.Props.C79_refresh",
    "Ladvd.Props.C79_exact",
    "Ladvd.Props.C79_follows_partial",
    "Ladvd.Props.C79_settles_partial",
    "Ladvd.Props.C79_off",
    "Ladvd.Props.C79_written",
    "Ladvd.Props.C79_never_empty",
    "Ladvd.Props.C79_stays",
    "Ladvd.Props.C79_returns",
    "Ladvd.Props.C79_newline"
   ],
   "note": "false when the last neighbour vanishes, since writing no bytes leaves the alias as it was (C79_stays, C79_never_empty), when a description returns to what the last refresh found (C79_returns), and for names with a line feed (C79_newline); proved otherwise, for Linux"
  },
  {
   "property": "C80",
   "status": "proved",
   "theorems": [
    "Ladvd.Props.C80_table",
    "Ladvd.Props.C80_alone",
    "Ladvd.Props.C80_daemon",
    "Ladvd.Props.C80_shown"
   ],
   "note": "as a map from histories to the valid information about each neighbour; decoding itself is C01-C09 and others; C80_shown requires that no expired entry is left in the table (C20_bleed)"
  },
  {
   "property": "C81",
   "status": "partial",
   "theorems": [
    "Ladvd.Props.C81_parent_follows",
    "Ladvd.Props.C81_child_follows",
    "Ladvd.Props.C81_quits",
    "Ladvd.Props.C81_both_partial",
    "Ladvd.Props.C81_orphan",
    "Ladvd.Props.C81_orphaned",
    "Ladvd.Props.C81_deaf",
    "Ladvd.Props.C81_stopped",
    "Ladvd.Props.C81_status"
   ],
   "note": "the privileged process always follows the other one; the reverse is false with -r when a request is under way (C81_orphan, C81_orphaned); false when both wait for each other (C81_deaf, see C75) and when the unprivileged process is stopped (C81_stopped); the exit status is always zero (C81_status)"
  },
  {
   "property": "C82",
   "status": "partial",
   "theorems": [
    "Ladvd.Props.C82_once_partial",
    "Ladvd.Props.C82_lost"
   ],
   "note": "false: any number of advertisements may be lost, since the end of the unprivileged process may be noticed before its packets are read (C82_lost); order, uniqueness and completeness up to unread packets are proved"
  },
  {
   "property": "C83",
   "status": "partial",
   "theorems": [
    "Ladvd.Props.C83_round_partial",
    "Ladvd.Props.C83_link_partial",
    "Ladvd.Props.C83_stale",
    "Ladvd.Props.C83_forgotten"
   ],
   "note": "exact as long as the interface stays listed with the same ports; false otherwise: a port leaving its aggregate leaves its protocols behind for good (C83_stale), an interface going down and up loses them (C83_forgotten)"
  },
  {
   "property": "C84",
   "status": "partial",
   "theorems": [
    "Ladvd.Props.C84_bound_partial",
    "Ladvd.Props.C84_recent_partial",
    "Ladvd.Props.C84_flood",
    "Ladvd.Props.C84_unlimited"
   ],
   "note": "the bound by the number of neighbours holds; false for made-up addresses: every one of them gets an entry, there is no limit (C84_flood, C84_unlimited)"
  },
  {
   "property": "C85",
   "status": "partial",
   "theorems": [
    "Ladvd.Props.C85_request",
    "Ladvd.Props.C85_served",
    "Ladvd.Props.C85_exact",
    "Ladvd.Props.C85_follows_partial",
    "Ladvd.Props.C85_settles",
    "Ladvd.Props.C85_written",
    "Ladvd.Props.C85_returns",
    "Ladvd.Props.C85_lost"
   ],
   "note": "false when a text returns to what the last refresh found (C85_returns); proved otherwise, also for the empty text"
  },
  {
   "property": "C86",
   "status": "partial",
   "theorems": [
    "Ladvd.Props.C86_entry_partial",
    "Ladvd.Props.C86_daemon_partial",
    "Ladvd.Props.C86_cut",
    "Ladvd.Props.C86_blank"
   ],
   "note": "false for frames whose report breaks off while the table shows them (C86_cut); proved for all that are reported to the end"
  },
  {
   "property": "C87",
   "status": "partial",
   "theorems": [
    "Ladvd.Props.C87_real",
    "Ladvd.Props.C87_kept_partial",
    "Ladvd.Props.C87_standby"
   ],
   "note": "every neighbour listed is real; staying listed is false for stations that send from one address, such as the standby ports of aggregates (C87_standby), proved otherwise"
  },
  {
   "property": "C88",
   "status": "partial",
   "theorems": [
    "Ladvd.Props.C88_starts",
    "Ladvd.Props.C88_started",
    "Ladvd.Props.C88_only_clients",
    "Ladvd.Props.C88_no_clients",
    "Ladvd.Props.C88_transmitted",
    "Ladvd.Props.C88_learned_partial",
    "Ladvd.Props.C88_edp_unheard",
    "Ladvd.Props.C88_use_after_free"
   ],
   "note": "false for readers that wait too long (C88_use_after_free) and for EDP, which other ladvds do not hear (C88_edp_unheard); proved otherwise"
  },
  {
   "property": "C89",
   "status": "partial",
   "theorems": [
    "Ladvd.Props.C89_round_partial",
    "Ladvd.Props.C89_immediate",
    "Ladvd.Props.C89_ignored",
    "Ladvd.Props.C89_limit_partial",
    "Ladvd.Props.C89_renewed",
    "Ladvd.Props.C89_frames",
    "Ladvd.Props.C89_overlap",
    "Ladvd.Props.C89_vanished"
   ],
   "note": "false for an aggregate on the command line together with its port (C89_overlap) and for interfaces that vanish between two refreshes (C89_vanished); proved otherwise"
  },
  {
   "property": "C90",
   "status": "partial",
   "theorems": [
    "Ladvd.Props.C90_table",
    "Ladvd.Props.C90_unique",
    "Ladvd.Props.C90_expiry",
    "Ladvd.Props.C90_shown_partial"
   ],
   "note": "the display is false for tables with expired entries asked for (C20_bleed); proved otherwise"
  },
  {
   "property": "C91",
   "status": "partial",
   "theorems": [
    "Ladvd.Props.C91_linux_real",
    "Ladvd.Props.C91_bsd_real",
    "Ladvd.Props.C91_linux_kept_partial",
    "Ladvd.Props.C91_bsd_kept_partial"
   ],
   "note": "As C87: staying listed needs that no other system transmits the protocol from the same address (C87_standby), and leaves out EDP."
  },
  {
   "property": "C92",
   "status": "partial",
   "theorems": [
    "Ladvd.Props.C92_flush",
    "Ladvd.Props.C92_flushed",
    "Ladvd.Props.C92_zero",
    "Ladvd.Props.C92_plain_write",
    "Ladvd.Props.C92_clear",
    "Ladvd.Props.C92_room",
    "Ladvd.Props.C92_reserve",
    "Ladvd.Props.C92_seek_partial",
    "Ladvd.Props.C92_seek_wraps"
   ],
   "note": "A kernel that takes nothing keeps imsg_flush busy for ever (C92_zero); ibuf_seek accepts positions whose sum with the length exceeds size_t (C92_seek_wraps)."
  },
  {
   "property": "C93",
   "status": "partial",
   "theorems": [
    "Ladvd.Props.C93_latest",
    "Ladvd.Props.C93_kept",
    "Ladvd.Props.C93_round",
    "Ladvd.Props.C93_shown_partial",
    "Ladvd.Props.C93_early",
    "Ladvd.Props.C93_late",
    "Ladvd.Props.C93_wraps"
   ],
   "note": "The hold time is a number of 16 bits: for life times close to 65535 seconds it wraps around, even with a correct clock when the advertisement arrives after the client has read the clock (C93_wraps); proved for all others. C93_early and C93_late show that the bounds depend on the error of the clock."
  },
  {
   "property": "C94",
   "status": "partial",
   "theorems": [
    "Ladvd.Props.C94_period",
    "Ladvd.Props.C94_renewed",
    "Ladvd.Props.C94_stale_partial",
    "Ladvd.Props.C94_stale_alone",
    "Ladvd.Props.C94_seen_partial"
   ],
   "note": "As C78: an entry a client is just reading stays, also if the mark of that client is never removed (C78_leaked); EDP frames are not heard (C88_edp_unheard)."
  },
  {
   "property": "C95",
   "status": "partial",
   "theorems": [
    "Ladvd.Props.C95_usage",
    "Ladvd.Props.C95_documented",
    "Ladvd.Props.C95_reason",
    "Ladvd.Props.C95_ended",
    "Ladvd.Props.C95_killed",
    "Ladvd.Props.C95_status_partial",
    "Ladvd.Props.C95_cut",
    "Ladvd.Props.C95_headings"
   ],
   "note": "false for daemons whose processes were both killed, of which users are told to enable receiving (C95_killed), and for connections that end early, which are not noticed (C95_cut); proved otherwise, the exit status without -p (see C61)"
  },
  {
   "property": "C96",
   "status": "partial",
   "theorems": [
    "Ladvd.Props.C96_kept_partial",
    "Ladvd.Props.C96_reachable_partial",
    "Ladvd.Props.C96_recovers",
    "Ladvd.Props.C96_taken",
    "Ladvd.Props.C96_removed",
    "Ladvd.Props.C96_once"
   ],
   "note": "proved for daemons started in the background; false for others: a daemon in the foreground takes the socket (C96_taken), and the end of any instance removes it, even of one that never had a socket (C96_removed, C96_once)"
  },
  {
   "property": "C97",
   "status": "partial",
   "theorems": [
    "Ladvd.Props.C97_written",
    "Ladvd.Props.C97_starts",
    "Ladvd.Props.C97_client",
    "Ladvd.Props.C97_help",
    "Ladvd.Props.C97_reason",
    "Ladvd.Props.C97_untold",
    "Ladvd.Props.C97_user",
    "Ladvd.Props.C97_documented_partial",
    "Ladvd.Props.C97_undocumented",
    "Ladvd.Props.C97_no_default",
    "Ladvd.Props.C97_order",
    "Ladvd.Props.C97_status"
   ],
   "note": "the meaning of command lines is proved in full; false: in the background users see no reason on the terminal (C97_untold, C97_user, C97_order), -y is not in the help (C97_undocumented), the default of the manual does not exist (C97_no_default), failures behind the fork into the background leave status 0 (C97_status)"
  },
  {
   "property": "C98",
   "status": "partial",
   "theorems": [
    "Ladvd.Props.C98_typed",
    "Ladvd.Props.C98_unique",
    "Ladvd.Props.C98_round_partial",
    "Ladvd.Props.C98_only",
    "Ladvd.Props.C98_displayed_partial",
    "Ladvd.Props.C98_shown_partial"
   ],
   "note": "composed from words to terminal; missing: EDP, tables where an expired entry the user asks for comes directly before (C102), names in NDP (which has none), and duplicates when an aggregate and one of its ports are named"
  },
  {
   "property": "C99",
   "status": "partial",
   "theorems": [
    "Ladvd.Props.C99_watched_partial",
    "Ladvd.Props.C99_hidden"
   ],
   "note": "two systems of either kind, lossy link, client from its words on; missing: EDP, names in NDP (which has none), tables where an expired entry asked for comes directly before, where the claim is false (C99_hidden)"
  },
  {
   "property": "C100",
   "status": "proved",
   "theorems": [
    "Ladvd.Props.C100_available",
    "Ladvd.Props.C100_read",
    "Ladvd.Props.C100_spins",
    "Ladvd.Props.C100_returns"
   ],
   "note": "the descriptor table before and after, for all answers of the kernel; the endless retry on EAGAIN is part of the claim as a finding"
  },
  {
   "property": "C101",
   "status": "partial",
   "theorems": [
    "Ladvd.Props.C101_typed",
    "Ladvd.Props.C101_round_partial",
    "Ladvd.Props.C101_only",
    "Ladvd.Props.C101_watched_partial"
   ],
   "note": "composed; missing: EDP, names in NDP, tables where an expired entry asked for comes directly before (C99_hidden), and duplicates when an aggregate and one of its ports are named (C89_overlap)"
  },
  {
   "property": "C102",
   "status": "proved",
   "theorems": [
    "Ladvd.Props.C102_spoiled",
    "Ladvd.Props.C102_either",
    "Ladvd.Props.C102_third"
   ],
   "note": "the daemon from its start, the client from its words on; C102_third is a table with one expired and two live entries"
  },
  {
   "property": "C103",
   "status": "proved",
   "theorems": [
    "Ladvd.Props.C103_same",
    "Ladvd.Props.C103_touched",
    "Ladvd.Props.C103_done",
    "Ladvd.Props.C103_apart"
   ],
   "note": "C103_same ties the model with paths to the one C25 to C28 are about; the files libpci reads by itself are outside the model"
  },
  {
   "property": "C104",
   "status": "proved",
   "theorems": [
    "Ladvd.Props.C104_script",
    "Ladvd.Props.C104_found",
    "Ladvd.Props.C104_either"
   ],
   "note": "assumes as C21 that interface names and the IPv6 addresses formatted by libc have no single quote; with -b and without -d, -f, -p, -o and -h"
  }
 ]
}