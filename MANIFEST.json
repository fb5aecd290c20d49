{
 "claims": [
  {
   "property": "C01",
   "status": "proved",
   "theorems": [
    "Nbd.Props.C01_request_header_meaning",
    "Nbd.Props.C01_request_header_roundtrip"
   ],
   "note": "both host byte orders"
  },
  {
   "property": "C02",
   "status": "proved",
   "theorems": [
    "Nbd.Props.C02_simple_reply_layout",
    "Nbd.Props.C02_simple_reply_roundtrip"
   ],
   "note": ""
  },
  {
   "property": "C03",
   "status": "partial",
   "theorems": [
    "Nbd.Props.C03_structured_read_partial",
    "Nbd.Props.C12_false_structured",
    "Nbd.Props.C48_false_structured",
    "Nbd.Props.C47_false_structured"
   ],
   "note": "Exports without copy-on-write or waitfile, all ways the reads can be split and fail; with splice only on encrypted sessions. With splice on other sessions the reply is a simple one (C48_false_structured); a copy-on-write read that crosses a saved block runs into undefined behaviour (C12_false_structured). On an export that waits for its file two chunks of one answer can be for the same place (C47_false_structured)."
  },
  {
   "property": "C04",
   "status": "partial",
   "theorems": [
    "Nbd.Props.C04_C05_session",
    "Nbd.Props.C04_C05_session_plain_partial",
    "Nbd.Props.C04_C05_every_layout_partial",
    "Nbd.Props.C04_false_tls_splice",
    "Nbd.Props.C04_C05_cow_partial"
   ],
   "note": "Any export and store: one answer per request carried out, in order, all requests unless the process dies. On files it never dies, whatever their sizes and layout. False: a splice export over TLS crashes on the first write. On copy-on-write exports it does not die either, if the requests are gentle, also when the store fails."
  },
  {
   "property": "C05",
   "status": "partial",
   "theorems": [
    "Nbd.Props.C04_C05_session",
    "Nbd.Props.C04_C05_session_plain_partial",
    "Nbd.Props.C04_C05_every_layout_partial",
    "Nbd.Props.C04_false_tls_splice",
    "Nbd.Props.C04_C05_cow_partial"
   ],
   "note": "Any export: the requests carried out are a prefix of those sent, with their payloads, and all of them unless the process dies, which it does on splice exports over TLS. On files of any layout it does not. The same on copy-on-write exports for gentle requests."
  },
  {
   "property": "C06",
   "status": "proved",
   "theorems": [
    "Nbd.Props.C06_readonly",
    "Nbd.Props.C06_auto_readonly",
    "Nbd.Props.C06_threads",
    "Nbd.Props.C06_threads_cow"
   ],
   "note": "C06_threads, C06_threads_cow: also with any number of clients and worker threads at once, every system call a step of its own."
  },
  {
   "property": "C07",
   "status": "partial",
   "theorems": [
    "Nbd.Props.C07_frame",
    "Nbd.Props.C07_out_of_range_partial",
    "Nbd.Props.C07_false_unknown_size",
    "Nbd.Props.C07_threads_partial",
    "Nbd.Props.C07_threads_tree_partial",
    "Nbd.Props.C07_false_cow_threads"
   ],
   "note": "refusal proved for exports up to 2^63 bytes (what an off_t can hold); false when size detection failed and the size is UINT64_MAX; C07_threads_partial: with any number of clients and worker threads, a byte on the disk that no in-range request covers keeps its value, also over a crash at any moment (one export of plain or spliced files); C07_threads_tree_partial: the same on writable trees (where a trim is one step and each client has one worker thread); C07_false_cow_threads: false of a copy-on-write session with two worker threads (two writes mix up their places in the diff file, and a byte neither is about changes)"
  },
  {
   "property": "C08",
   "status": "partial",
   "theorems": [
    "Nbd.Props.C08_flat_array_partial",
    "Nbd.Props.C08_exact_partial",
    "Nbd.Props.C08_no_spurious_errors",
    "Nbd.Props.C08_no_spurious_errors_tree",
    "Nbd.Props.C08_false"
   ],
   "note": "Requests of any length: C08_exact_partial says exactly what happens; the property is false of write-zeroes above 64 MiB, of which only the first 64 MiB are carried out. C08_no_spurious_errors_tree: on trees blocks without a file do not make requests fail."
  },
  {
   "property": "C09",
   "status": "partial",
   "theorems": [
    "Nbd.Props.C09_write_zeroes_partial",
    "Nbd.Props.C09_false",
    "Nbd.Props.C09_exact_partial"
   ],
   "note": "false above 64 MiB: acknowledged but not zeroed Any length: C09_exact_partial (the first 64 MiB)."
  },
  {
   "property": "C10",
   "status": "partial",
   "theorems": [
    "Nbd.Props.C10_trim_partial",
    "Nbd.Props.C10_false"
   ],
   "note": "Every layout, with or without empty files. False of an export that waits for its file: there a trim crashes."
  },
  {
   "property": "C11",
   "status": "partial",
   "theorems": [
    "Nbd.Props.C11_partial",
    "Nbd.Props.C11_configured_partial",
    "Nbd.Props.C11_parallel_partial"
   ],
   "note": "Any number of sessions, any bytes, any order, any kernel: no file but the diff files changes, and neither the original nor any other session is affected; also with any number of threads per session, every system call and page-map access interleaved (C11_parallel_partial). No configuration file or command line gives an export with copy-on-write and splice (C11_configured_partial). Missing: requests that run into undefined behaviour (C12_false_read shows that there are some), after which nothing can be said."
  },
  {
   "property": "C12",
   "status": "partial",
   "theorems": [
    "Nbd.Props.C12_partial",
    "Nbd.Props.C12_one_partial",
    "Nbd.Props.C12_any_partial",
    "Nbd.Props.C12_false_read",
    "Nbd.Props.C12_false_structured",
    "Nbd.Props.C12_false_empty",
    "Nbd.Props.C12_false_odd",
    "Nbd.Props.C12_false_sparse",
    "Nbd.Props.C12_false_failure",
    "Nbd.Props.C12_false_long",
    "Nbd.Props.C12_one_thread_partial",
    "Nbd.Props.C12_false_parallel"
   ],
   "note": "False of the code as it stands: see the C12_false theorems. Proved for interleaved sessions when no call fails, the export is whole blocks and at most 4 GiB, and reads touch a block written before only as their last block. On any kernel (failing and short calls), with other sessions doing anything, the same holds up to the first write that is answered with an error (C12_any_partial; C12_false_failure shows what happens after it). With one worker thread the same holds of every execution (C12_one_thread_partial); with two threads two acknowledged writes can end up in each other's block (C12_false_parallel). On exports of more than 4 GiB an acknowledged write is read back as another block even if nothing fails (C12_false_long)."
  },
  {
   "property": "C13",
   "status": "partial",
   "theorems": [
    "Nbd.Props.C13_layout_partial",
    "Nbd.Props.C13_every_offset",
    "Nbd.Props.C13_stays_inside",
    "Nbd.Props.C13_false_empty_file"
   ],
   "note": "false when a file in the middle is empty"
  },
  {
   "property": "C14",
   "status": "proved",
   "theorems": [
    "Nbd.Props.C14_same_block",
    "Nbd.Props.C14_path"
   ],
   "note": ""
  },
  {
   "property": "C15",
   "status": "partial",
   "theorems": [
    "Nbd.Props.C15_short_io_partial",
    "Nbd.Props.C12_any_partial",
    "Nbd.Props.C12_false_failure"
   ],
   "note": "Simple replies on exports without copy-on-write or waitfile; structured reads in C03; copy-on-write sessions (both kinds of reply, until a write fails) in C12_any_partial. False of copy-on-write after a write that failed (C12_false_failure: a short write is reported, and damages a block written later)."
  },
  {
   "property": "C16",
   "status": "proved",
   "theorems": [
    "Nbd.Props.C16_receive",
    "Nbd.Props.C16_receive_progress",
    "Nbd.Props.C16_receive_short",
    "Nbd.Props.C16_receive_tls",
    "Nbd.Props.C16_consume"
   ],
   "note": "All kernel answer sequences, all lengths."
  },
  {
   "property": "C17",
   "status": "partial",
   "theorems": [
    "Nbd.Props.C17_send_partial",
    "Nbd.Props.C17_send_tls",
    "Nbd.Props.C17_false_duplicate",
    "Nbd.Props.C17_false_outside"
   ],
   "note": "Plain send exact when no write would block (server sockets are blocking); refuted for would-block results; TLS send proved in full."
  },
  {
   "property": "C18",
   "status": "proved",
   "theorems": [
    "Nbd.Props.C18_ring_fifo"
   ],
   "note": "Every capacity and every operation sequence within the offered spans."
  },
  {
   "property": "C19",
   "status": "partial",
   "theorems": [
    "Nbd.Props.C19_proxy_stream_partial",
    "Nbd.Props.C19_false_both_ends",
    "Nbd.Props.C19_false_would_block"
   ],
   "note": "Prefix property for every run; full delivery on the two orderly exits; refuted when both sides end together and after a would-block on the TLS side."
  },
  {
   "property": "C20",
   "status": "partial",
   "theorems": [
    "Nbd.Props.C20_fua_partial",
    "Nbd.Props.C20_session_partial",
    "Nbd.Props.C20_later",
    "Nbd.Props.C20_false",
    "Nbd.Props.C20_tree_false"
   ],
   "note": "Acknowledged FUA writes (or any write on a sync export) survive every crash, over whole sessions, if no system call failed. False when fdatasync fails (result ignored) and for tree exports when the write creates a block file (directory not synced). Not for copy-on-write or waiting exports; write-zeroes up to 64 MiB (C09)."
  },
  {
   "property": "C21",
   "status": "partial",
   "theorems": [
    "Nbd.Props.C21_flush_partial",
    "Nbd.Props.C21_session_partial",
    "Nbd.Props.C20_later",
    "Nbd.Props.C21_false"
   ],
   "note": "An acknowledged flush makes every byte of the export survive every crash, whatever the kernel does; whole sessions. False on waitfile exports after the file appeared (only the diff file is synced). Copy-on-write excluded."
  },
  {
   "property": "C22",
   "status": "partial",
   "theorems": [
    "Nbd.Props.C22_errno_mapping",
    "Nbd.Props.C22_reply_errors",
    "Nbd.Props.C22_failure_reported_partial",
    "Nbd.Props.C22_false_fua"
   ],
   "note": "Every errno, every reply of every session on any export. A failing system call of a read, flush or unsynced write gives an error reply. False of FUA writes: the result of fdatasync is ignored. Failing trims are ignored too."
  },
  {
   "property": "C23",
   "status": "proved",
   "theorems": [
    "Nbd.Props.C23_whole_replies",
    "Nbd.Props.C23_every_request_answered",
    "Nbd.Props.C23_tree",
    "Nbd.Props.C23_splice"
   ],
   "note": "Any export, any number of worker threads, any order of their steps and any splitting of socket writes; messages are sent under the client's lock as in the code. A thread's storage work is one step here (the replies interleave freely). Socket write failures end the session and are not modelled in this module. C23_tree: the same on writable trees with every system call on a block file a step. C23_splice: on exports of plain files with or without splice = true, likewise."
  },
  {
   "property": "C24",
   "status": "proved",
   "theorems": [
    "Nbd.Props.C24_invisible",
    "Nbd.Props.C24_not_served"
   ],
   "note": "Noninterference over whole sessions, any options: what a client without TLS sees and gets is the same whatever TLS-only exports exist (except that a name it says itself is confirmed by the TLS-required error); and a client served without TLS is served a non-TLS-only export."
  },
  {
   "property": "C25",
   "status": "proved",
   "theorems": [
    "Nbd.Props.C25_forced",
    "Nbd.Props.C25_refused"
   ],
   "note": "Whole sessions; plus the exact effect of each option."
  },
  {
   "property": "C26",
   "status": "partial",
   "theorems": [
    "Nbd.Props.C26_starttls_partial",
    "Nbd.Props.C26_false"
   ],
   "note": "True when no GO/EXPORT_NAME named a visible export before STARTTLS. False otherwise: a refused GO leaves the size, the closed answer socket and the commit state behind (C26_false, concrete witness)."
  },
  {
   "property": "C27",
   "status": "partial",
   "theorems": [
    "Nbd.Props.C27_agree",
    "Nbd.Props.C27_unknown_partial",
    "Nbd.Props.C27_tls_required_partial",
    "Nbd.Props.C27_false"
   ],
   "note": "Agreement is proved in full for both methods, with and without TLS. Failure for an unknown export is proved for GO; with -g it is false (C27_false): the client goes on with uninitialised values."
  },
  {
   "property": "C28",
   "status": "partial",
   "theorems": [
    "Nbd.Props.C28_padding_partial",
    "Nbd.Props.C28_false"
   ],
   "note": "True for a process that serves one client. False for a non-forking server: the no-zeroes flag of an earlier client is kept (C28_false)."
  },
  {
   "property": "C29",
   "status": "proved",
   "theorems": [
    "Nbd.Props.C29_unknown"
   ],
   "note": "From every state, every option number the server does not know and every payload."
  },
  {
   "property": "C30",
   "status": "partial",
   "theorems": [
    "Nbd.Props.C30_list_partial",
    "Nbd.Props.C30_false"
   ],
   "note": "Exact reply for names of at most 1020 bytes. A longer name makes the server read past its buffer (C30_false)."
  },
  {
   "property": "C31",
   "status": "partial",
   "theorems": [
    "Nbd.Props.C31_framing_partial",
    "Nbd.Props.C31_no_ub_partial",
    "Nbd.Props.C31_false_framing",
    "Nbd.Props.C31_false_memory"
   ],
   "note": "Framing for well-formed options; no undefined behaviour for clients that say less than 4 GiB. False in general: LIST with data and short INFO lose framing; a 2^32-1 name length writes out of bounds."
  },
  {
   "property": "C32",
   "status": "partial",
   "theorems": [
    "Nbd.Props.C32_network_partial",
    "Nbd.Props.C32_host_partial",
    "Nbd.Props.C32_nobody_partial",
    "Nbd.Props.C32_false_malformed",
    "Nbd.Props.C32_false_mixed",
    "Nbd.Props.C32_several_partial",
    "Nbd.Props.C32_mixed_partial"
   ],
   "note": "Proved for address/prefix entries except an IPv4 client with an IPv6 entry (false); a malformed prefix matches everybody. C32_mixed_partial says exactly what an IPv6 entry means to an IPv4 client (the prefix is counted from the embedded address on)."
  },
  {
   "property": "C33",
   "status": "partial",
   "theorems": [
    "Nbd.Props.C33_within_partial",
    "Nbd.Props.C33_false"
   ],
   "note": "Reads stay within the addresses except for an IPv6 (also v4-mapped) client and an IPv4 entry with no prefix or one above 32."
  },
  {
   "property": "C34",
   "status": "partial",
   "theorems": [
    "Nbd.Props.C34_lines_partial",
    "Nbd.Props.C34_open",
    "Nbd.Props.C34_empty",
    "Nbd.Props.C34_false_long_line",
    "Nbd.Props.C34_false_unix",
    "Nbd.Props.C34_served"
   ],
   "note": "Proved for lines shorter than 255 bytes; the tail of a longer line counts as an entry, and a Unix-socket client aborts the process. C34_served is about whole negotiations."
  },
  {
   "property": "C35",
   "status": "partial",
   "theorems": [
    "Nbd.Props.C35_limit",
    "Nbd.Props.C35_answers_partial",
    "Nbd.Props.C35_false",
    "Nbd.Props.C35_name",
    "Nbd.Props.C35_asked",
    "Nbd.Props.C35_delivered_partial",
    "Nbd.Props.C35_false_split"
   ],
   "note": "The limit is never exceeded, in every history. A client is refused only if the limit has been reached counting all admissions since the start: the count is never decreased (C35_false). However the name a child asks about is delivered, the parent looks up that name, if the four bytes of its length are read in one piece; false if they are not (the loop reads to the beginning again)."
  },
  {
   "property": "C36",
   "status": "proved",
   "theorems": [
    "Nbd.Props.C36_go",
    "Nbd.Props.C36_export_name",
    "Nbd.Props.C36_long_name",
    "Nbd.Props.C36_unknown"
   ],
   "note": "Bit by bit, with GO and with EXPORT_NAME, on the wire."
  },
  {
   "property": "C37",
   "status": "partial",
   "theorems": [
    "Nbd.Props.C37_honoured_partial",
    "Nbd.Props.C37_false"
   ],
   "note": "Plain-file exports on a working store: every offered command and flag succeeds. False for DF: advertised under structured replies, always refused (C37_false)."
  },
  {
   "property": "C38",
   "status": "proved",
   "theorems": [
    "Nbd.Props.C38_reload",
    "Nbd.Props.C38_history"
   ],
   "note": "For every history of a started server."
  },
  {
   "property": "C39",
   "status": "proved",
   "theorems": [
    "Nbd.Props.C39_lifetime",
    "Nbd.Props.C39_overrelease",
    "Nbd.Props.C39_table"
   ],
   "note": "For every balanced sequence of takes and releases of one definition, and for the table of the parent in every history."
  },
  {
   "property": "C40",
   "status": "partial",
   "theorems": [
    "Nbd.Props.C40_partial",
    "Nbd.Props.C40_false_stale",
    "Nbd.Props.C40_false_length",
    "Nbd.Props.C40_over_partial",
    "Nbd.Props.C40_threads_partial",
    "Nbd.Props.C40_log_first_partial"
   ],
   "note": "Proved for every session of well-formed requests on an export whose log file is new: an independent reader and nbd-trdump get back exactly the requests (with data if logged) and reply headers in order. False of the code for a log file that existed before (not truncated, not appended to) and for the length of structured replies printed by nbd-trdump (negations proved). C40_over_partial: also for a log file that existed, if it has at most 28 bytes per request of the session. C40_threads_partial: the same with any number of worker threads, in any order of their steps: whole records only, the requests in order with their data, and for each request its record followed by those of its replies. C40_log_first_partial: at every moment, also if the process dies then, the log has every simple reply that was sent."
  },
  {
   "property": "C41",
   "status": "partial",
   "theorems": [
    "Nbd.Props.C41_partial",
    "Nbd.Props.C41_false_stale",
    "Nbd.Props.C41_false_structured",
    "Nbd.Props.C41_false_unaligned_read",
    "Nbd.Props.C41_refused_replayed",
    "Nbd.Props.C41_over_partial",
    "Nbd.Props.C41_threads_partial",
    "Nbd.Props.C41_false_threads"
   ],
   "note": "Proved for every session of aligned reads, flushes and accepted writes / write-zeroes with simple replies, every image, block size and block limit: the replay gives the image after exactly that many blocks, and the session's final contents without limit, unless the kernel reports an error. False of the code for stale log files, structured read replies and unaligned reads in the log (negations proved). C41_over_partial: also for a log file that existed, if it has at most 28 bytes per request. C41_threads_partial: the same with any number of worker threads and requests in flight, every system call a step of its own, if no write is sent while an earlier one that overlaps with it is unanswered; without that condition it is false (C41_false_threads)."
  },
  {
   "property": "C42",
   "status": "partial",
   "theorems": [
    "Nbd.Props.C42_size_partial",
    "Nbd.Props.C42_false"
   ],
   "note": "Every decimal size with suffix below 2^63 bytes is understood as documented, for every order of options. False above: undefined shift or silent cut."
  },
  {
   "property": "C43",
   "status": "partial",
   "theorems": [
    "Nbd.Props.C43_size",
    "Nbd.Props.C43_reconnect",
    "Nbd.Props.C43_never_more",
    "Nbd.Props.C43_false_32bit"
   ],
   "note": "Proved for 64-bit machines; on 32-bit machines the device can be short by more than a block (C43_false_32bit)."
  },
  {
   "property": "C44",
   "status": "partial",
   "theorems": [
    "Nbd.Props.C44_memory",
    "Nbd.Props.C44_memory_go_partial",
    "Nbd.Props.C44_identified_partial",
    "Nbd.Props.C44_ends",
    "Nbd.Props.C44_false_identified",
    "Nbd.Props.C44_false_memory"
   ],
   "note": "Memory safety holds for all byte streams for -l and -g; with GO it is false (three witnesses) and proved for the answers described by Spec.Harmless. Any second magic but the old one is accepted (C44_false_identified)."
  },
  {
   "property": "C45",
   "status": "partial",
   "theorems": [
    "Nbd.Props.C45_size",
    "Nbd.Props.C45_readonly_partial",
    "Nbd.Props.C45_false"
   ],
   "note": "The size is kept through every reconnect; read-only is kept only if it comes from the server, not from -R (C45_false)."
  },
  {
   "property": "C46",
   "status": "partial",
   "theorems": [
    "Nbd.Props.C46_text",
    "Nbd.Props.C46_entry_partial",
    "Nbd.Props.C46_absent",
    "Nbd.Props.C46_false_port",
    "Nbd.Props.C46_false_duplicate",
    "Nbd.Props.C46_numbers_partial",
    "Nbd.Props.C46_device"
   ],
   "note": "One entry for the device: configured from it alone; but the default port is lost unless the entry comes first, and duplicate entries are mixed."
  },
  {
   "property": "C47",
   "status": "partial",
   "theorems": [
    "Nbd.Props.C47_partial",
    "Nbd.Props.C47_switch_partial",
    "Nbd.Props.C47_errors_partial",
    "Nbd.Props.C47_false_stuck",
    "Nbd.Props.C47_false_damage",
    "Nbd.Props.C47_false_race",
    "Nbd.Props.C47_false_trim",
    "Nbd.Props.C47_false_big",
    "Nbd.Props.C47_false_structured",
    "Nbd.Props.C53_false_wait_read"
   ],
   "note": "Proved for every schedule of the copying thread and whole requests (a request is one turn), reads within a block and writes of whole blocks, exports of whole blocks up to 2 GiB, and an operating system that does not fail while requests are handled: no write is lost, the file holds the written array at the switch, later requests operate on it, and the switch is reached. Errors and short transfers while the thread copies lose nothing either (C47_errors_partial). False otherwise: a refused partial write stops the switch for ever and can put a later block in the wrong place; a write that races with the switch is acknowledged and lost; trims while waiting and exports over 2 GiB are undefined behaviour. A read of several saved blocks is wrong with structured replies (C47_false_structured) and undefined with simple ones (C53_false_wait_read)."
  },
  {
   "property": "C48",
   "status": "partial",
   "theorems": [
    "Nbd.Props.C48_splice_partial",
    "Nbd.Props.C48_splice_tls_partial",
    "Nbd.Props.C48_false_structured"
   ],
   "note": "Sessions without structured replies, and encrypted sessions, where nothing is spliced past TLS. False with structured replies otherwise: the spliced answer is a simple reply."
  },
  {
   "property": "C49",
   "status": "proved",
   "theorems": [
    "Nbd.Props.C49_export_size",
    "Nbd.Props.C49_accepted"
   ],
   "note": "C49_accepted: an export of files is set up exactly when its first file is usable and the files provide the configured size (a single empty file is extended to it)."
  },
  {
   "property": "C50",
   "status": "proved",
   "theorems": [
    "Nbd.Props.C50_flags",
    "Nbd.Props.C50_fields",
    "Nbd.Props.C50_accepted",
    "Nbd.Props.C50_style",
    "Nbd.Props.C50_style_octal_false"
   ],
   "note": "GLib's key file getters are a parameter."
  },
  {
   "property": "C51",
   "status": "partial",
   "theorems": [
    "Nbd.Props.C51_plain",
    "Nbd.Props.C51_escape_partial",
    "Nbd.Props.C51_false"
   ],
   "note": "Exact characterisation: without an escape always safe; with one, safe iff the text before it plus the error text is shorter than 150 bytes."
  },
  {
   "property": "C52",
   "status": "partial",
   "theorems": [
    "Nbd.Props.C52_none",
    "Nbd.Props.C52_ipliteral",
    "Nbd.Props.C52_own_file",
    "Nbd.Props.C52_cidr_partial",
    "Nbd.Props.C52_unmarked",
    "Nbd.Props.C52_false_cidr",
    "Nbd.Props.C52_false_cidr_v6",
    "Nbd.Props.C52_false_cidr_mapped",
    "Nbd.Props.C52_false_iphash",
    "Nbd.Props.C52_false_wait",
    "Nbd.Props.C52_false_format",
    "Nbd.Props.C52_percent",
    "Nbd.Props.C52_false_iphash_name"
   ],
   "note": "Holds without virtualization and for ipliteral with one %s. False of cidrhash with any prefix shorter than the address (the mask is applied from the port number on), of iphash (no file is assigned), of waitfile exports (the template itself is opened), and of other % signs. The text of IPv6 addresses is the C library's, with the contract V6Text."
  },
  {
   "property": "C53",
   "status": "partial",
   "theorems": [
    "Nbd.Props.C53_every_layout_partial",
    "Nbd.Props.C53_no_crash_partial",
    "Nbd.Props.C04_false_tls_splice",
    "Nbd.Props.C53_cow_partial",
    "Nbd.Props.C12_false_read",
    "Nbd.Props.C12_false_structured",
    "Nbd.Props.C12_false_empty",
    "Nbd.Props.C53_wait_partial",
    "Nbd.Props.C53_false_wait_read",
    "Nbd.Props.C53_false_wait_empty",
    "Nbd.Props.C47_false_trim",
    "Nbd.Props.C53_threads_partial",
    "Nbd.Props.C53_threads_tree_partial"
   ],
   "note": "All streams, stores, sizes and file layouts that setupexport can produce; false of splice exports over TLS. Copy-on-write exports of any size, also sparse_cow: every stream whose requests avoid the three proved crashes (reads and writes of nothing, reads that go on behind a block written before), on any kernel that does not end a file early, also after failed writes. Exports that wait for their file: every order of requests, steps of the waiting thread and failures, if the requests avoid three proved crashes (trim, empty reads and writes, simple reads of several saved blocks). C53_threads_partial: any number of clients sending any bytes, any number of worker threads, every system call a step of its own, plain files with or without splicing; the process exits only because of a wrong magic number. C53_threads_tree_partial: the same on trees if no system call fails."
  },
  {
   "property": "C54",
   "status": "partial",
   "theorems": [
    "Nbd.Props.C54_false"
   ],
   "note": "The code violates the property: INFO before a choice of export always reports size 0; proved for every export and every session."
  },
  {
   "property": "C55",
   "status": "partial",
   "theorems": [
    "Nbd.Props.C55_unknown_partial",
    "Nbd.Props.C55_false"
   ],
   "note": "Holds when the name is unknown or TLS-only. False after a GO that was refused by policy: the next GO has undefined behaviour in a forking server."
  },
  {
   "property": "C56",
   "status": "proved",
   "theorems": [
    "Nbd.Props.C56_list",
    "Nbd.Props.C56_denied"
   ],
   "note": "Names of at most 1020 bytes (the server aborts on longer ones, C30)."
  },
  {
   "property": "C57",
   "status": "partial",
   "theorems": [
    "Nbd.Props.C57_options_partial",
    "Nbd.Props.C57_false"
   ],
   "note": "Holds when the entry is the first; false otherwise."
  },
  {
   "property": "C58",
   "status": "partial",
   "theorems": [
    "Nbd.Props.C58_false",
    "Nbd.Props.C58_false_netlink",
    "Nbd.Props.C58_false_relative"
   ],
   "note": "False of the whole program, for every table, server and kernel: with netlink no device looked up in the table is ever configured; without, a name relative to the current directory is opened."
  },
  {
   "property": "C59",
   "status": "partial",
   "theorems": [
    "Nbd.Props.C59_enforced_partial",
    "Nbd.Props.C59_false",
    "Nbd.Props.C59_served_partial"
   ],
   "note": "A list that cannot be opened lets everybody in."
  },
  {
   "property": "C60",
   "status": "partial",
   "theorems": [
    "Nbd.Props.C60_false"
   ],
   "note": "False for every configuration without tlsprio: proved that no priority string is set."
  },
  {
   "property": "C61",
   "status": "partial",
   "theorems": [
    "Nbd.Props.C61_section_partial",
    "Nbd.Props.C61_false"
   ],
   "note": "Everything but the connection limit, which is not printed."
  },
  {
   "property": "C62",
   "status": "proved",
   "theorems": [
    "Nbd.Props.C62_include",
    "Nbd.Props.C62_started"
   ],
   "note": "stat failing on a directory entry is excluded."
  },
  {
   "property": "C63",
   "status": "proved",
   "theorems": [
    "Nbd.Props.C63_cmdline",
    "Nbd.Props.C63_empty",
    "Nbd.Props.C63_relative",
    "Nbd.Props.C63_limit"
   ],
   "note": "For every first argument that is a port or an address with a port. An empty first argument is none of these; what happens then is C63_empty: undefined behaviour (the vector of g_strsplit is read behind its end)."
  },
  {
   "property": "C65",
   "status": "partial",
   "theorems": [
    "Nbd.Props.C65_reload_partial",
    "Nbd.Props.C65_false"
   ],
   "note": "A file that asks for oldstyle makes the reload read through a NULL pointer."
  },
  {
   "property": "C67",
   "status": "partial",
   "theorems": [
    "Nbd.Props.C67_cmdline_partial",
    "Nbd.Props.C67_nofile_partial",
    "Nbd.Props.C67_false"
   ],
   "note": "With a file that parse_cfile refuses the server runs without a table."
  },
  {
   "property": "C68",
   "status": "partial",
   "theorems": [
    "Nbd.Props.C68_port",
    "Nbd.Props.C68_false",
    "Nbd.Props.C68_false_listens"
   ],
   "note": "Proved: standard input is used exactly if the port is 0. False of the code: without -d no client is ever served (commit_client talks to descriptor 0, which is the client, and closes it), and TCP sockets on a free port are opened."
  },
  {
   "property": "C69",
   "status": "proved",
   "theorems": [
    "Nbd.Props.C69_own_diff",
    "Nbd.Props.C69_cowdir",
    "Nbd.Props.C69_same_directory"
   ],
   "note": "Sessions that run at the same time have different process numbers."
  },
  {
   "property": "C70",
   "status": "partial",
   "theorems": [
    "Nbd.Props.C70_commands_partial",
    "Nbd.Props.C70_false",
    "Nbd.Props.C70_percent",
    "Nbd.Props.C70_no_command",
    "Nbd.Props.C70_false_iphash"
   ],
   "note": "False of copy-on-write exports without cowdir: dirname() shortens the name in place, so that postrun gets the directory. False of iphash exports: the commands get the text (null). An export without a command runs none (C70_no_command)."
  },
  {
   "property": "C71",
   "status": "partial",
   "theorems": [
    "Nbd.Props.C71_ends",
    "Nbd.Props.C71_on_its_own_partial",
    "Nbd.Props.C71_any_export_partial",
    "Nbd.Props.C71_every_request_answered_partial",
    "Nbd.Props.C71_false_hangs",
    "Nbd.Props.C71_false_blocks_others",
    "Nbd.Props.C71_false_bad_magic",
    "Nbd.Props.C71_false_no_threads",
    "Nbd.Props.C71_ends_tree_cow",
    "Nbd.Props.C71_tree_on_its_own_partial",
    "Nbd.Props.C71_cow_on_its_own_partial",
    "Nbd.Props.C71_tree_answered_partial",
    "Nbd.Props.C71_tree_false"
   ],
   "note": "Proved: no endless execution, for any export and any input (C71_ends). Without logging of written data, each session can finish by its own steps alone whatever the others do (C71_on_its_own_partial, plain exports, any number of sessions; C71_any_export_partial, one session on any export), and on plain exports every well-formed request has its complete answer when no thread can move any more (C71_every_request_answered_partial). False with a data log (three concrete deadlocks: the semaphore of the log stays taken) and with max_threads=0 (nothing is ever answered). Assumed: the client keeps reading, so socket writes do not block; failing socket writes are not part of this model. On trees and copy-on-write exports, call by call: the same two statements (C71_ends_tree_cow, C71_tree_on_its_own_partial, C71_cow_on_its_own_partial). On writable trees every well-formed request is answered while no system call fails (C71_tree_answered_partial); when a block file cannot be created or extended the process exits, even for a read (C71_tree_false)."
  },
  {
   "property": "C72",
   "status": "partial",
   "theorems": [
    "Nbd.Props.C72_interleaving_partial",
    "Nbd.Props.C72_latest_write_partial",
    "Nbd.Props.C72_final_contents_partial",
    "Nbd.Props.C72_read_origin_partial",
    "Nbd.Props.C72_alone",
    "Nbd.Props.C72_splice_interleaving_partial",
    "Nbd.Props.C72_splice_latest_write_partial",
    "Nbd.Props.C72_splice_final_contents_partial",
    "Nbd.Props.C72_splice_read_origin_partial",
    "Nbd.Props.C72_splice_alone",
    "Nbd.Props.C72_tree_alone",
    "Nbd.Props.C72_tree_false",
    "Nbd.Props.C72_tree_interleaving_partial",
    "Nbd.Props.C72_tree_latest_write_partial",
    "Nbd.Props.C72_tree_final_contents_partial",
    "Nbd.Props.C72_tree_read_origin_partial",
    "Nbd.Props.C72_tree_readonly_partial",
    "Nbd.Props.C72_tree_readonly_reads_partial"
   ],
   "note": "Proved for exports of plain files (one or several), with or without splice = true (C72_splice_*), any number of sessions and threads; of a write-zeroes request the first 64 MiB count as stored (C09_false). False on tree exports with two connections: a read can destroy the last byte of an acknowledged write to a block that did not exist (C72_tree_false). C72_tree_*_partial: on writable trees every byte that is not the last of its 4096-byte block behaves as on a plain file, and a last byte is at worst zeroed. Copy-on-write exports: see C11 and C12 (each session has its own difference file; false with several threads). C72_tree_readonly_*_partial: on read-only trees no file changes and every read returns what was there. Not covered: wait-file exports; pages changed after a spliced reply was handed to the kernel."
  },
  {
   "property": "C73",
   "status": "partial",
   "theorems": [
    "Nbd.Props.C73_flush_partial",
    "Nbd.Props.C73_fua_partial",
    "Nbd.Props.C73_splice_flush_partial",
    "Nbd.Props.C73_splice_fua_partial",
    "Nbd.Props.C20_tree_false",
    "Nbd.Props.C21_false"
   ],
   "note": "For exports of plain files, with or without splice (no copy-on-write, tree, wait file), system call by system call, any number of sessions and threads. FUA under the hypothesis that no system call fails (the result of the fsync in rawexpwrite is ignored: C20_false). Of a write-zeroes request the first 64 MiB (C09_false). An example shows that a flush received before the write was acknowledged promises nothing. False of trees (C20_tree_false) and of exports with waitfile (C21_false), even with one thread and one request at a time."
  },
  {
   "property": "C74",
   "status": "partial",
   "theorems": [
    "Nbd.Props.C74_only_partial",
    "Nbd.Props.C74_addresses_partial",
    "Nbd.Props.C74_free_partial",
    "Nbd.Props.C74_false_unresolved",
    "Nbd.Props.C74_false_deaf",
    "Nbd.Props.C74_false_busy",
    "Nbd.Props.C74_false_long"
   ],
   "note": "Proved: only configured sockets (Unix names up to 107 bytes); every address of every name that resolves, unless in use; exactly the configured ones if none is in use. False of the code: names that do not resolve are skipped, even if nothing is left to listen on; an address in use is skipped if there is another socket; long Unix names are cut."
  },
  {
   "property": "C75",
   "status": "proved",
   "theorems": [
    "Nbd.Props.C75_identity",
    "Nbd.Props.C75_refused"
   ],
   "note": "For every answer of the operating system. Without a configured group the group stays that of the starter, as documented."
  },
  {
   "property": "C76",
   "status": "partial",
   "theorems": [
    "Nbd.Props.C76_pid_partial",
    "Nbd.Props.C76_foreground_partial",
    "Nbd.Props.C76_false_status",
    "Nbd.Props.C76_false_streams",
    "Nbd.Props.C76_false_foreground"
   ],
   "note": "Proved: the process file holds the number of the serving process; in the foreground the status is 1 on failure. False of the code: the status is 0 whatever happens after the first fork; the standard streams stay those of the starter (dup2 arguments swapped); no process file with -n."
  },
  {
   "property": "C77",
   "status": "partial",
   "theorems": [
    "Nbd.Props.C77_plain_partial",
    "Nbd.Props.C77_cow_partial",
    "Nbd.Props.C77_any_partial",
    "Nbd.Props.C77_tree_partial"
   ],
   "note": "Every execution of a session with one worker thread sends the bytes, and leaves the files, that processing each request before reading the next does; system call by system call for plain, tree and copy-on-write exports, request by request for the others. Missing: splice; what has been sent when a request crashes the process."
  },
  {
   "property": "C78",
   "status": "partial",
   "theorems": [
    "Nbd.Props.C78_host_partial",
    "Nbd.Props.C78_table_partial",
    "Nbd.Props.C78_false_port",
    "Nbd.Props.C78_false_default_export",
    "Nbd.Props.C78_addresses_partial"
   ],
   "note": "Clients that need the table: C78_table_partial, for well-formed tables with one entry for the device. False: the port given on the command line is not used; a server name that begins with nbd is taken for a device of the table when no export is named."
  },
  {
   "property": "C79",
   "status": "partial",
   "theorems": [
    "Nbd.Props.C79_netlink_partial",
    "Nbd.Props.C79_success_partial",
    "Nbd.Props.C79_ioctl_partial",
    "Nbd.Props.C79_table_partial",
    "Nbd.Props.C79_false_swap",
    "Nbd.Props.C79_false_sizes"
   ],
   "note": "C79_table_partial is for clients that look their device up in nbdtab, with the ioctl interface (with netlink such a device is never configured: C58_false_netlink). False: -swap has no effect with netlink; connections of one device may have exports of different sizes."
  },
  {
   "property": "C80",
   "status": "partial",
   "theorems": [
    "Nbd.Props.C80_rejoin_partial",
    "Nbd.Props.C80_steady_partial",
    "Nbd.Props.C80_false_netlink",
    "Nbd.Props.C80_false_table",
    "Nbd.Props.C80_false_connections",
    "Nbd.Props.C80_false_size",
    "Nbd.Props.C80_false_refused",
    "Nbd.Props.C80_false_preinit"
   ],
   "note": "Holds for one connection without netlink, -B and -P as long as kernel and server accept; false otherwise in the six ways shown."
  },
  {
   "property": "C81",
   "status": "partial",
   "theorems": [
    "Nbd.Props.C81_check",
    "Nbd.Props.C81_disconnect_netlink",
    "Nbd.Props.C81_disconnect_ioctl",
    "Nbd.Props.C81_disconnect_refused",
    "Nbd.Props.C81_disconnect_partial",
    "Nbd.Props.C81_false"
   ],
   "note": "-c in full for names of at most 240 bytes. -d with any other options, if they name no other device. With netlink a device must be written /dev/nbdN. False: more words after -d change the device that is disconnected."
  },
  {
   "property": "C82",
   "status": "partial",
   "theorems": [
    "Nbd.Props.C82_tls_partial",
    "Nbd.Props.C78_table_partial",
    "Nbd.Props.C82_false_table"
   ],
   "note": "Holds for every client that does not need the device table, and, for options of the entry (and of the command line if the entry is the first), for those that do. False with a table that lists another device first."
  },
  {
   "property": "C83",
   "status": "proved",
   "theorems": [
    "Nbd.Props.C83_stop",
    "Nbd.Props.C83_ends"
   ],
   "note": "The bound counts from the moment the signal interrupts pselect."
  },
  {
   "property": "C84",
   "status": "proved",
   "theorems": [
    "Nbd.Props.C84_rest"
   ],
   "note": ""
  },
  {
   "property": "C85",
   "status": "partial",
   "theorems": [
    "Nbd.Props.C85_survives_partial",
    "Nbd.Props.C85_false_idle",
    "Nbd.Props.C85_false_pipe"
   ],
   "note": "False: clients that connect and stay silent use up the descriptors, and then an unchecked socketpair (or FD_SET beyond 1024) is undefined behaviour; a child killed while it waits for an answer takes the server with it (SIGPIPE). Otherwise it holds."
  },
  {
   "property": "C86",
   "status": "partial",
   "theorems": [
    "Nbd.Props.C86_once_partial",
    "Nbd.Props.C86_usual_partial",
    "Nbd.Props.C86_false_magic",
    "Nbd.Props.C86_false_pipe",
    "Nbd.Props.C86_false_stop",
    "Nbd.Props.C86_false_setup",
    "Nbd.Props.C86_false_early"
   ],
   "note": "Holds when the client keeps to the protocol, no write fails and nobody kills the process; at most once always. False otherwise in five ways: bad magic, SIGPIPE, SIGTERM, an export that cannot be set up, a failing write while other requests are worked on."
  },
  {
   "property": "C87",
   "status": "partial",
   "theorems": [
    "Nbd.Props.C87_device_partial",
    "Nbd.Props.C87_disk_partial",
    "Nbd.Props.C87_tree_partial",
    "Nbd.Props.C87_cow_partial",
    "Nbd.Props.C87_many_partial",
    "Nbd.Props.C87_many_splice_partial",
    "Nbd.Props.C09_false"
   ],
   "note": "Composes C27 (negotiation), C13/C49 (layout, size), C08 (requests), C72 (interleavings) and C71 (progress). Partial: no wait, no empty files; write-zeroes of at most 64 MiB (C09 is false above). C87_device_partial: plain files, one request at a time. C87_disk_partial: if no system call fails and the files are as long as at start-up, every permitted request succeeds. C87_tree_partial: the same for tree exports, whose missing blocks read as zeroes. C87_cow_partial: copy-on-write exports, within the limits of C12 (C12 and C11 composed with the negotiation). C87_many_partial: any number of clients of one export of plain files, each negotiating, all their requests at the same time on any number of threads. C87_many_splice_partial: the same with splice = true, without TLS, but not that every session comes to its end (C96)."
  },
  {
   "property": "C88",
   "status": "partial",
   "theorems": [
    "Nbd.Props.C88_session_partial",
    "Nbd.Props.C88_clean_partial",
    "Nbd.Props.C88_false",
    "Nbd.Props.C88_threads_partial",
    "Nbd.Props.C88_false_zero"
   ],
   "note": "C88_session_partial: for every stream, export and behaviour of the system calls, the accounting finds no free or close of something not in use, and at a disconnect request descriptors are as before and memory is as before but for at most one block per failed structured read, no larger than the read. C88_clean_partial: without such failures exactly what was held before. C88_false: k structured reads of n bytes of a truncated file leave k*n bytes. C88_threads_partial: any number of worker threads in any order, allocations and other calls that fail; with descriptor 0 in use, otherwise a pipe may keep it (C88_false_zero). Not covered: endings other than a disconnect request (the process then exits)."
  },
  {
   "property": "C89",
   "status": "partial",
   "theorems": [
    "Nbd.Props.C89_bound_partial",
    "Nbd.Props.C89_false",
    "Nbd.Props.C89_false_writes"
   ],
   "note": "C89_bound_partial: in every execution a session holds at most the requests its client has got no message for, plus one per thread; their data accordingly. C89_false, C89_false_writes: the former is not limited; k writes of n bytes can be in memory, all threads idle and nothing sent, for every k and n. Memory limits of the operating system are not modelled."
  },
  {
   "property": "C90",
   "status": "partial",
   "theorems": [
    "Nbd.Props.C90_partial",
    "Nbd.Props.C90_last_options",
    "Nbd.Props.C90_bad_option",
    "Nbd.Props.C90_false_typo",
    "Nbd.Props.C90_false_truncated",
    "Nbd.Props.C90_false_truncated_write",
    "Nbd.Props.C90_threads_partial"
   ],
   "note": "Command line and replay proved, with the conditions of C41 on the session. False: a mistyped option gives status 0 with nothing replayed (C90_false_typo); a log cut off anywhere is replayed with status 0 (C90_false_truncated), even in the middle of a write (C90_false_truncated_write). C90_threads_partial: the same on the log of a session with any number of worker threads."
  },
  {
   "property": "C91",
   "status": "partial",
   "theorems": [
    "Nbd.Props.C91_partial",
    "Nbd.Props.C91_table_partial",
    "Nbd.Props.C91_false",
    "Nbd.Props.C91_false_unset",
    "Nbd.Props.C91_false_negative"
   ],
   "note": "Proved of clients that do not use the device table and are asked for at least one connection and not for -l with -P (C91_partial), and of clients that look their device up in a well-formed table with one entry for it, block size and number of connections above 0 (C91_table_partial). False: bs=0 in the table crashes the client, bs=1000 is given to the kernel (C91_false); -C 0 with -p or -l, and -l with -P, use descriptors that were never set (C91_false_unset); -b -512 is accepted (C91_false_negative)."
  },
  {
   "property": "C92",
   "status": "partial",
   "theorems": [
    "Nbd.Props.C92_verified_partial",
    "Nbd.Props.C92_program_partial",
    "Nbd.Props.C92_settings",
    "Nbd.Props.C92_table_partial",
    "Nbd.Props.C92_accepted",
    "Nbd.Props.C92_false_unchecked",
    "Nbd.Props.C92_false_unix",
    "Nbd.Props.C92_false_table",
    "Nbd.Props.C92_false_noopt"
   ],
   "note": "Proved for a client that has a file of authorities and a non-empty host name when it connects, for command lines naming a host and for table entries. False of the code: without -A nothing is checked, even with -H; -unix without -H switches the check off; -A is lost for a device whose table entry is not the first; with -g a failed handshake is ignored. What GnuTLS says about a chain is a parameter."
  },
  {
   "property": "C93",
   "status": "partial",
   "theorems": [
    "Nbd.Props.C93_verified_partial",
    "Nbd.Props.C93_accepted",
    "Nbd.Props.C93_false_unset",
    "Nbd.Props.C93_false_certfile"
   ],
   "note": "Proved for a server with cacertfile. False of the manual's statements: without cacertfile certificates are checked and fail; without certfile the key file is not used as the certificate. What GnuTLS says about a chain is a parameter, also whether it calls the verify function for a client without certificate."
  },
  {
   "property": "C94",
   "status": "partial",
   "theorems": [
    "Nbd.Props.C94_partial",
    "Nbd.Props.C94_refused",
    "Nbd.Props.C94_false_name"
   ],
   "note": "Every answer that fits a netlink attribute (up to 3276 devices), every argument that names a device. False: /dev/nbd-1 stands for all devices, what follows the number and its upper bits are ignored."
  },
  {
   "property": "C95",
   "status": "proved",
   "theorems": [
    "Nbd.Props.C95_block",
    "Nbd.Props.C95_directories",
    "Nbd.Props.C95_only"
   ],
   "note": "Names without symbolic links and the parts . and ..; what may be created where is a parameter. If something cannot be made the process ends (C95_only says what it may leave)."
  },
  {
   "property": "C96",
   "status": "partial",
   "theorems": [
    "Nbd.Props.C96_same_partial",
    "Nbd.Props.C96_reads_partial",
    "Nbd.Props.C96_writes_partial",
    "Nbd.Props.C96_others_partial",
    "Nbd.Props.C96_false_read",
    "Nbd.Props.C96_false_write"
   ],
   "note": "The claim is false: a read of at most 1 MiB that touches more than 256 pages, or a write whose payload arrives in more than 256 buffers, fills the pipe of 256 buffers and waits for ever (C96_false_read, C96_false_write). Proved: which reads get stuck, as an equivalence, for kernels that move all they are asked to and files that start at page boundaries; which writes get stuck; that every request that does not get stuck is served as in the model without a limit (any kernel, any usable export). That a pipe of 1 MiB has 256 buffers of one page is a fact about Linux, assumed."
  },
  {
   "property": "C97",
   "status": "partial",
   "theorems": [
    "Nbd.Props.C97_before_partial",
    "Nbd.Props.C97_signalled_partial",
    "Nbd.Props.C97_safe_partial",
    "Nbd.Props.C97_false_parent",
    "Nbd.Props.C97_false_early",
    "Nbd.Props.C97_false_diff"
   ],
   "note": "Proved: no session goes over before a signal; a session that is set up goes over after a signal to its own process with the file there; it does not crash then. False: a signal to the parent does nothing for sessions that have begun (C97_false_parent), and lets later ones go ahead before their table of saved blocks is there, which may crash (C97_false_early); the diff file is never removed (C97_false_diff). The copying itself is C47."
  },
  {
   "property": "C98",
   "status": "partial",
   "theorems": [
    "Nbd.Props.C98_one_partial",
    "Nbd.Props.C98_goes_on_partial",
    "Nbd.Props.C98_configured_partial",
    "Nbd.Props.C98_let_in",
    "Nbd.Props.C98_false_gone",
    "Nbd.Props.C98_false_unknown",
    "Nbd.Props.C98_false_padding",
    "Nbd.Props.C98_false_read_only",
    "Nbd.Props.C98_false_descriptors"
   ],
   "note": "Proved: at most one client is served, nobody is looked at after it, everybody turned away leaves the server listening with the configured exports (up to read-only marks), and only clients that were let in are served. False: a client that goes away during negotiation or names an unknown export ends the server; the no-zeroes flag and a read-only mark left by a client that was turned away change what the next one is told; the files opened for a refused client stay open, until no export can be opened any more."
  },
  {
   "property": "C99",
   "status": "partial",
   "theorems": [
    "Nbd.Props.C99_first_byte_partial",
    "Nbd.Props.C99_false_cow",
    "Nbd.Props.C99_false_twice",
    "Nbd.Props.C31_false_memory",
    "Nbd.Props.C47_false_trim",
    "Nbd.Props.C04_false_tls_splice",
    "Nbd.Props.C99_cow_partial",
    "Nbd.Props.C99_every_export_partial",
    "Nbd.Props.C99_threads_partial"
   ],
   "note": "Composes C31 (negotiation), the exports negotiation hands over (configured ones, set up with any files and sizes) and C53. Partial: no copy-on-write or waitfile exports, no splicing inside TLS, an export asked for once, less than 4 GiB sent before being served, names of at most 1020 bytes; each of the first four exceptions is a proved crash. With copy-on-write exports on offer the same holds if the requests on them avoid the proved crashes. C99_every_export_partial: exports of every kind on offer, with the conditions of C53 on the requests. C99_threads_partial: the same for any number of clients whose requests are worked on by any number of threads, one system call per step (no trees, no empty files)."
  },
  {
   "property": "C100",
   "status": "partial",
   "theorems": [
    "Nbd.Props.C100_partial",
    "Nbd.Props.C100_false_sequence",
    "Nbd.Props.C100_false_together"
   ],
   "note": "False of the code: the log is opened neither truncating nor appending, so every session overwrites it from the start. Proved: after a session the file begins with exactly that session's log, whatever it contained; of two sessions in sequence nothing of the first is left if the second records as much; of simultaneous sessions the file is only as long as the longest log."
  },
  {
   "property": "C101",
   "status": "partial",
   "theorems": [
    "Nbd.Props.C101_any",
    "Nbd.Props.C101_partial",
    "Nbd.Props.C101_names",
    "Nbd.Props.C101_determined",
    "Nbd.Props.C101_args",
    "Nbd.Props.C101_false_truncated"
   ],
   "note": "Any byte sequence as input: the lines printed read back as the numbers of the records found; for sessions these are the requests and replies of the session. False: a log cut off in the middle of a record is printed without a word about it and with status 0; the length of structured replies (C40_false_length)."
  },
  {
   "property": "C102",
   "status": "partial",
   "theorems": [
    "Nbd.Props.C102_one_name_partial",
    "Nbd.Props.C102_false"
   ],
   "note": "Sections with different names: both options and the parent process agree on the export. False for a name used in two included files: EXPORT_NAME serves the first export of that name, GO the last one, and the limit of the first is applied to both."
  },
  {
   "property": "C103",
   "status": "partial",
   "theorems": [
    "Nbd.Props.C103_frame",
    "Nbd.Props.C103_temporary_partial",
    "Nbd.Props.C103_created",
    "Nbd.Props.C103_missing",
    "Nbd.Props.C103_served",
    "Nbd.Props.C103_served_multi",
    "Nbd.Props.C103_described",
    "Nbd.Props.C103_false_left",
    "Nbd.Props.C103_false_tree"
   ],
   "note": "Files and names left alone, created, filled and served, for every file system and every answer of the kernel. False: a refused client can leave an empty file; `temporary` is ignored for trees."
  },
  {
   "property": "C104",
   "status": "proved",
   "theorems": [
    "Nbd.Props.C104_generic"
   ],
   "note": "GLib's reading of a key file is a parameter: what it answers for each key."
  },
  {
   "property": "C105",
   "status": "partial",
   "theorems": [
    "Nbd.Props.C105_crash_partial",
    "Nbd.Props.C105_false_shared"
   ],
   "note": "Proved at every moment of every execution with any number of worker threads, every system call a step of its own, for requests that are aligned, inside the export and have simple replies, if the writes answered so far were answered with success: every byte is as the last request received wants it, and as in the export where nothing is outstanding and no two requests that write the byte were in flight at once. Missing: what C41 lacks; several sessions on one log, of which it is false: an acknowledged write is overwritten in the log by the other session (C105_false_shared); a crash of the machine rather than of the process (the log is never synced)."
  }
 ]
}
