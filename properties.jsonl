{"id": "C01", "title": "Request headers survive the wire on any host", "statement": "Whatever 28-byte request header a client puts on the connection, the server acts on exactly the magic, command, flags, cookie, offset and length the protocol's big-endian layout assigns to those bytes, whether the server runs on a little- or a big-endian machine; and every header written in that layout is read back to the same field values.", "quantifier": "every 28-byte string, every value of every field, both byte orders", "why_tests_cant": "2^224 headers and two machine byte orders; the conversion is done by half-swapping code selected at compile time", "anchors": ["nbd-server.c:mainloop_threaded", "cliserv.c:ntohll", "nbd.h:struct nbd_request"]}
{"id": "C02", "title": "Simple replies carry the request's own cookie and status", "statement": "Every simple reply the server emits is exactly 16 header bytes (magic 0x67446698, big-endian error, the 8 cookie bytes of the request it answers, unchanged), and a client that decodes it recovers precisely that error and cookie.", "quantifier": "every cookie, every error number, every payload", "why_tests_cant": "2^96 cookie/error pairs; the cookie travels through the code as raw memory", "anchors": ["nbd-server.c:setup_reply", "nbd-server.c:send_reply", "nbd-server.c:complete_read"]}
{"id": "C03", "title": "Structured read replies are well framed and reassemble", "statement": "When structured replies were negotiated and a read succeeds, the bytes the server sends parse as a sequence of chunks each of whose declared payload length equals the payload that follows, all carrying the request's cookie, exactly the last one flagged DONE, and whose offset/data chunks put together are exactly the requested bytes.", "quantifier": "every read offset and length, every way the backing store splits the read into partial reads", "why_tests_cant": "the number and size of chunks depends on how many partial reads the kernel and the file layout produce", "anchors": ["nbd-server.c:complete_read", "nbd-server.c:send_structured_chunk_v", "nbd-server.c:confirm_read"]}
{"id": "C04", "title": "One request, one reply", "statement": "For any sequence of requests on a connection the server produces, for every request except disconnect, exactly one final reply carrying that request's cookie, and no reply that answers no request.", "quantifier": "every finite request history, every backing-store outcome", "why_tests_cant": "histories are unbounded and each request has many error paths; a test fixes one history", "anchors": ["nbd-server.c:handle_request", "nbd-server.c:handle_read", "nbd-server.c:handle_write", "nbd-server.c:handle_flush", "nbd-server.c:handle_trim", "nbd-server.c:handle_write_zeroes"]}
{"id": "C05", "title": "The request stream never loses synchronisation", "statement": "If the bytes on a connection are the concatenation of protocol requests (write requests followed by their payload), the server dispatches exactly those requests, in order, with exactly those payloads, including writes that it is going to refuse.", "quantifier": "every sequence of requests, every payload, every refused write", "why_tests_cant": "a single unconsumed payload byte shifts every later request; needs all payload contents and histories", "anchors": ["nbd-server.c:mainloop_threaded", "nbd-server.c:package_create", "nbd-server.c:handle_request"]}
{"id": "C06", "title": "A read-only export is never modified", "statement": "On an export that is read-only (configured, or auto-read-only because the file could not be opened for writing) no sequence of client requests changes any byte of the backing store, and every write, trim or write-zeroes request is answered with EPERM.", "quantifier": "every request sequence, every store content", "why_tests_cant": "universally quantified negative: a test shows one write is refused", "anchors": ["nbd-server.c:bad_write", "nbd-server.c:handle_request", "nbd-server.c:setupexport"]}
{"id": "C07", "title": "Requests never reach outside their range", "statement": "No request changes a byte of the export outside [offset, offset+length); a request whose range is not inside the export changes nothing at all and is answered with an error.", "quantifier": "every request, every export size, every prior content", "why_tests_cant": "64-bit offset plus 32-bit length arithmetic at all boundaries", "anchors": ["nbd-server.c:bad_range", "nbd-server.c:handle_request", "nbd-server.c:rawexpwrite"]}
{"id": "C08", "title": "A plain export behaves like one flat byte array", "statement": "For exports without copy-on-write (one file, several files concatenated, or a tree of block files), any sequence of in-range reads, writes and zeroings that succeed returns exactly what the same sequence returns on a flat array of exportsize bytes.", "quantifier": "every layout of files, every operation sequence, every split into partial reads and writes", "why_tests_cant": "all layouts x all histories x all short-I/O patterns", "anchors": ["nbd-server.c:get_filepos", "nbd-server.c:rawexpread_fully", "nbd-server.c:rawexpwrite_fully", "nbd-server.c:expread", "nbd-server.c:expwrite"]}
{"id": "C09", "title": "Write-zeroes zeroes its whole range", "statement": "After a successful write-zeroes request every byte in its range reads as zero and every other byte is unchanged.", "quantifier": "every offset and every length up to 2^32-1", "why_tests_cant": "needs requests larger than the 64 MiB internal chunk, and all contents", "anchors": ["nbd-server.c:expwrite_zeroes"]}
{"id": "C10", "title": "Trim never damages data outside the trimmed range", "statement": "A trim request leaves every byte of the export outside its range unchanged, and bytes inside its range either keep their value or become zero, for every backing-store layout.", "quantifier": "every offset and length, every multi-file or tree layout, every prior content", "why_tests_cant": "the damage would only show for particular layout/offset combinations", "anchors": ["nbdsrv.c:exptrim", "nbd-server.c:punch_hole", "treefiles.c:delete_treefile"]}
{"id": "C11", "title": "Copy-on-write never touches the original export", "statement": "On a copy-on-write export no sequence of reads, writes, zeroings, trims and flushes changes the original file(s); a client's changes are invisible to every other client and vanish with the session.", "quantifier": "every request sequence, any number of clients", "why_tests_cant": "universally quantified negative over histories and clients", "anchors": ["nbd-server.c:expwrite", "nbd-server.c:copyonwrite_prepare", "nbdsrv.c:exptrim"]}
{"id": "C12", "title": "Copy-on-write sessions read their own writes", "statement": "Within one copy-on-write session, any sequence of in-range reads and writes returns exactly what it returns on a private flat copy of the export.", "quantifier": "every request sequence, offsets, lengths, page alignments, export sizes", "why_tests_cant": "the page map makes the result depend on the whole history and on alignment; pages past 2^20 need terabytes", "anchors": ["nbd-server.c:expread", "nbd-server.c:expwrite", "nbd-server.c:copyonwrite_prepare"]}
{"id": "C13", "title": "Concatenated files: every export byte has exactly one home", "statement": "In a multi-file export each export offset below the export size is served from exactly one file at exactly one position, different offsets never share a position, files follow one another without gap or overlap, and one request never runs past the end of the file it was mapped to.", "quantifier": "every number of files, every sizes, every offset", "why_tests_cant": "binary search and prefix sums over unboundedly many files", "anchors": ["nbd-server.c:get_filepos", "nbd-server.c:setupexport"]}
{"id": "C14", "title": "Tree exports: one distinct file per block, path inside its buffer", "statement": "In a tree export two offsets map to the same file path if and only if they lie in the same 4096-byte block, the constructed path always stays below the export directory, and the path is never written outside the buffer provided for it.", "quantifier": "every export size, every offset, every base path and buffer length", "why_tests_cant": "radix-1024 path construction over all sizes; overflow only at particular lengths", "anchors": ["treefiles.c:construct_path", "treefiles.c:open_treefile"]}
{"id": "C15", "title": "Short reads and writes are invisible", "statement": "However the kernel splits reads and writes of the backing files into partial transfers, a read that reports success returned all requested bytes and a write that reports success stored all of them; otherwise an error is reported.", "quantifier": "every sequence of partial transfer sizes and failures", "why_tests_cant": "the kernel chooses the split; tests see one", "anchors": ["nbd-server.c:rawexpread_fully", "nbd-server.c:rawexpwrite_fully", "nbd-server.c:rawexpread", "nbd-server.c:rawexpwrite"]}
{"id": "C16", "title": "Receiving from a socket is exact", "statement": "A successful fixed-length receive yields exactly the next n bytes of the peer's stream, in order, consuming no byte more, regardless of how the network splits the stream; end of stream or an error is reported as failure. The same holds for the receive loop used after TLS was started.", "quantifier": "every stream, every n, every chunking, every interleaving of would-block results", "why_tests_cant": "the network chooses the chunking", "anchors": ["cliserv.c:readit", "nbd-server.c:readit_tls", "nbd-server.c:consume"]}
{"id": "C17", "title": "Sending to a socket is exact", "statement": "A successful fixed-length send puts exactly the n given bytes, in order, each once, on the connection, regardless of partial writes and would-block results.", "quantifier": "every buffer, every sequence of partial/would-block/error results", "why_tests_cant": "the kernel chooses the results; the would-block path is never reached in tests", "anchors": ["cliserv.c:writeit", "nbd-server.c:writeit_tls"]}
{"id": "C18", "title": "The TLS proxy's ring buffer is a FIFO", "statement": "For every sequence of buffer operations that respects the spans offered, bytes come out exactly as they went in, in order, none lost or duplicated; count plus free space equals the capacity, and offered spans never leave the buffer.", "quantifier": "every capacity, every operation sequence", "why_tests_cant": "wrap-around states reached only by particular sequences", "anchors": ["buffer.c:bufGetReadSpan", "buffer.c:bufGetWriteSpan", "buffer.c:bufDoneRead", "buffer.c:bufDoneWrite"]}
{"id": "C19", "title": "The TLS proxy is a faithful conduit", "statement": "In every run of the TLS proxy loop the bytes handed to the TLS layer are a prefix of the bytes received in plain text and vice versa, in order, with nothing added, lost in the middle or duplicated; on orderly end of one side everything received from it is delivered.", "quantifier": "every interleaving of readiness, partial transfers, would-block and end-of-file", "why_tests_cant": "infinitely many event schedules", "anchors": ["crypto-gnutls.c:tlssession_mainloop"]}
{"id": "C20", "title": "A FUA write is durable when acknowledged", "statement": "When a write (or write-zeroes) carrying FUA, or any write on a sync export, is acknowledged without error, its data survives a crash at any later moment.", "quantifier": "every crash point, every request history, every layout", "why_tests_cant": "crash points cannot be enumerated by tests; page-cache state is not observable", "anchors": ["nbd-server.c:rawexpwrite", "nbd-server.c:handle_write"]}
{"id": "C21", "title": "A flush makes all earlier acknowledged writes durable", "statement": "When a flush is acknowledged without error, every write acknowledged before the flush was received survives a crash at any later moment, in every file of the export; if any file could not be synced the flush is answered with an error.", "quantifier": "every crash point, history, number of files", "why_tests_cant": "crash points and fsync failures cannot be enumerated", "anchors": ["nbd-server.c:expflush", "nbd-server.c:handle_flush"]}
{"id": "C22", "title": "Errors are never reported as success", "statement": "Whenever the backing store fails with an errno, the client's reply carries a nonzero error code from the set the protocol defines (EPERM, EIO, ENOMEM, EINVAL, ENOSPC).", "quantifier": "every errno value", "why_tests_cant": "all integer errno values", "anchors": ["nbd-server.c:nbd_errno"]}
{"id": "C23", "title": "Concurrent replies are never interleaved", "statement": "With any number of requests being processed in parallel, the connection's byte stream is always a concatenation of whole replies (plus at most one reply in progress), each belonging to one request.", "quantifier": "every number of worker threads, every schedule, every splitting of the reply into writes", "why_tests_cant": "schedules are unbounded; races are not reproducible", "anchors": ["nbd-server.c:send_reply", "nbd-server.c:complete_read", "nbd-server.c:handle_splice_read"]}
{"id": "C24", "title": "TLS-only exports are invisible and unreachable without TLS", "statement": "Before TLS is established, no sequence of options makes the server list, describe or serve an export that is marked force-TLS.", "quantifier": "every option sequence, every export configuration", "why_tests_cant": "universally quantified negative over all option sequences", "anchors": ["nbd-server.c:handle_export_name", "nbd-server.c:handle_list", "nbd-server.c:handle_info", "nbd-server.c:negotiate"]}
{"id": "C25", "title": "Server-wide force-TLS really forces TLS", "statement": "With server-wide force-TLS, before TLS is established no option except STARTTLS or ABORT has any effect: no export is listed, described or served and structured replies are not enabled.", "quantifier": "every option sequence", "why_tests_cant": "universally quantified negative over all option sequences", "anchors": ["nbd-server.c:negotiate"]}
{"id": "C26", "title": "Starting TLS forgets plaintext negotiation state", "statement": "After STARTTLS succeeds nothing a plaintext peer (or a man in the middle) negotiated before it influences the rest of the session: the session state equals that of a fresh connection except for being encrypted.", "quantifier": "every option sequence before STARTTLS", "why_tests_cant": "all plaintext prefixes", "anchors": ["nbd-server.c:handle_starttls"]}
{"id": "C27", "title": "Client and server agree on the export", "statement": "If nbd-client negotiates an export with this server, it ends up with exactly the export size and transmission flags the server holds for the export of that name, and both sides enter transmission at the same byte of each stream; if no such export exists the client reports failure.", "quantifier": "every export configuration, every name, both negotiation methods, every flag combination", "why_tests_cant": "two programs composed over all names, sizes and flags", "anchors": ["nbd-client.c:negotiate", "nbd-server.c:negotiate", "nbd-server.c:send_export_info"]}
{"id": "C28", "title": "Zero padding is sent exactly when it was not negotiated away", "statement": "The export information of the old-style name option is 10 bytes if both sides announced the no-zeroes flag and 134 bytes otherwise, and server and client always agree on which.", "quantifier": "every combination of handshake and client flags, every previous connection served by the same process", "why_tests_cant": "depends on flags from both sides and on state left over from previous sessions", "anchors": ["nbd-server.c:send_export_info", "nbd-server.c:negotiate", "nbd-client.c:send_opt_exportname"]}
{"id": "C29", "title": "Unknown options are refused without losing synchronisation", "statement": "An option the server does not know is answered with one ERR_UNSUP reply, its payload is skipped exactly, it changes no state, and the next option is read from the right place.", "quantifier": "every option number, every payload, every position in the option sequence", "why_tests_cant": "all option numbers and payloads", "anchors": ["nbd-server.c:negotiate", "nbd-server.c:consume"]}
{"id": "C30", "title": "List shows exactly the permitted exports", "statement": "The list option is answered by one server record per export the client may see, in configuration order, followed by exactly one acknowledgement; or by a single policy error when listing is disabled.", "quantifier": "every set of exports, every listing policy, TLS state", "why_tests_cant": "all configurations", "anchors": ["nbd-server.c:handle_list", "nbd-client.c:ask_list"]}
{"id": "C31", "title": "Malformed option lengths cannot corrupt the server", "statement": "Whatever lengths a client puts in an option header and option payload, the server does not access memory outside its buffers and stays in step with the option framing.", "quantifier": "every length field value, every payload", "why_tests_cant": "2^64 combinations of outer and inner length fields", "anchors": ["nbd-server.c:handle_info", "nbd-server.c:handle_list", "nbd-server.c:handle_export_name"]}
{"id": "C32", "title": "An ACL network entry means what CIDR says", "statement": "A client address is accepted by an address/prefix entry if and only if the address and the entry agree on the first prefix-length bits (IPv4, IPv6, and IPv4 clients seen as mapped IPv6 addresses); malformed entries match nobody.", "quantifier": "every address, every entry, every prefix length", "why_tests_cant": "2^128 addresses x 2^128 networks x 129 lengths", "anchors": ["nbdsrv.c:address_matches", "nbdsrv.c:getmaskbyte"]}
{"id": "C33", "title": "ACL checking never reads outside the address", "statement": "Checking any client address against any ACL entry only reads bytes of the two addresses.", "quantifier": "every address pair, every entry text", "why_tests_cant": "out-of-bounds reads depend on particular family/prefix combinations and matching bytes", "anchors": ["nbdsrv.c:address_matches"]}
{"id": "C34", "title": "Only authorised clients are served", "statement": "A client is authorised if and only if no ACL is configured (or it cannot be opened) or some line of the ACL file matches its address; lines before or after never change the verdict, blank and comment lines match nobody.", "quantifier": "every ACL file content, every client address", "why_tests_cant": "all file contents, including very long lines", "anchors": ["nbdsrv.c:authorized_client"]}
{"id": "C35", "title": "The connection limit is respected", "statement": "For an export limited to n connections, in every history of clients connecting and leaving never more than n are being served at once, and a client is refused only if n are being served.", "quantifier": "every history of connects and disconnects", "why_tests_cant": "unbounded histories", "anchors": ["nbd-server.c:handle_childname", "nbd-server.c:commit_client"]}
{"id": "C36", "title": "Advertised capabilities mirror the configuration", "statement": "The transmission flags sent to the client contain each capability bit if and only if the export configuration (and the negotiated structured mode) calls for it; no undefined bit is ever set.", "quantifier": "every export flag combination, structured or not", "why_tests_cant": "2^18 flag combinations x mode, lifted to all", "anchors": ["nbd-server.c:send_export_info"]}
{"id": "C37", "title": "Advertised capabilities are honoured", "statement": "If the server advertises a command or flag, a well-formed in-range request using it is not rejected as invalid.", "quantifier": "every advertised flag set, every request", "why_tests_cant": "all flag combinations and commands", "anchors": ["nbd-server.c:send_export_info", "nbd-server.c:handle_request"]}
{"id": "C38", "title": "Reloading configuration never disturbs existing exports", "statement": "After any number of configuration reloads every export that existed keeps its definition and position, export names stay unique if they were unique, and exactly the new names are added.", "quantifier": "every existing table, every sequence of reloads", "why_tests_cant": "unbounded reload histories", "anchors": ["nbd-server.c:append_new_servers", "nbd-server.c:get_index_by_servename"]}
{"id": "C39", "title": "An export definition lives exactly as long as it is used", "statement": "In every sequence of takes and releases that is balanced, an export definition is freed exactly when its last user releases it, never used after and never freed twice.", "quantifier": "every sequence of takes and releases", "why_tests_cant": "unbounded histories", "anchors": ["nbdsrv.c:serve_inc_ref", "nbdsrv.c:serve_dec_ref"]}
{"id": "C40", "title": "The transaction log records every event exactly", "statement": "Reading back a transaction log written by one connection yields exactly the sequence of requests (with write data if data logging is on) and simple replies the server handled, in order.", "quantifier": "every session, every payload, data logging on or off", "why_tests_cant": "all sessions and payload contents", "anchors": ["nbd-server.c:mainloop_threaded", "nbd-server.c:log_reply", "nbd-trdump.c:main", "nbd-trplay.c:main_loop"]}
{"id": "C41", "title": "Replaying a transaction log reproduces the image", "statement": "Replaying the data log of a sequential session of accepted, block-aligned writes onto a copy of the initial image yields exactly the final image; with a block limit it yields the image after exactly that many blocks.", "quantifier": "every initial image, every session, every block size and limit", "why_tests_cant": "all histories and stop points", "anchors": ["nbd-trplay.c:process_command", "nbd-trplay.c:main_loop"]}
{"id": "C42", "title": "Sizes on the command line mean what they say", "statement": "A size argument of decimal digits with optional k/K/m/M suffix configures exactly that many bytes, KiB or MiB.", "quantifier": "every digit string and suffix", "why_tests_cant": "all numbers up to 2^64", "anchors": ["nbd-server.c:cmdline"]}
{"id": "C43", "title": "The client never exposes more than the export", "statement": "The device size nbd-client configures never exceeds the negotiated export size, and falls short of it by less than one block.", "quantifier": "every size, every block size", "why_tests_cant": "all 64-bit sizes and block sizes", "anchors": ["nbd-client.c:setsizes"]}
{"id": "C44", "title": "A hostile server cannot corrupt the client", "statement": "Whatever bytes a server sends during negotiation, nbd-client does not read or write outside its buffers and does not start using the device unless the server identified itself as an NBD server.", "quantifier": "every byte stream a server can send", "why_tests_cant": "all byte streams", "anchors": ["nbd-client.c:read_reply", "nbd-client.c:parse_sizes", "nbd-client.c:negotiate", "nbd-client.c:ask_list"]}
{"id": "C45", "title": "Reconnecting preserves the device's contract", "statement": "When nbd-client reconnects in persist mode, the device keeps its size (otherwise the client stops) and a device that was forced read-only stays read-only.", "quantifier": "every sequence of reconnects, every server answer", "why_tests_cant": "unbounded reconnect histories", "anchors": ["nbd-client.c:main", "nbd-client.c:setflags"]}
{"id": "C46", "title": "The client table selects the entry of the requested device", "statement": "Looking up a device in nbdtab configures the connection from the first entry for that device and from nothing else: options of other entries never leak into it and unspecified settings have their defaults.", "quantifier": "every table, every device name", "why_tests_cant": "all tables and positions of the entry", "anchors": ["nbd-client.c:nbdtab_commit_line", "nbd-client.c:nbdtab_set_property", "nbd-client.c:nbdtab_set_flag"]}
{"id": "C47", "title": "Waiting for the file loses no writes", "statement": "With waitfile, data written before the real file appears is in the real file after it appears, and requests after the switch operate on the real file.", "quantifier": "every history of writes before and after the switch, every interleaving with the switching thread", "why_tests_cant": "schedules and histories", "anchors": ["nbd-server.c:commit_diff", "nbd-server.c:wait_file", "nbd-server.c:expwrite", "nbd-server.c:expread"]}
{"id": "C48", "title": "Splice reads are indistinguishable from normal reads", "statement": "Serving a read by splicing sends the client the same bytes a normal read would send, and if splicing fails nothing has been sent so the fallback reply is well formed.", "quantifier": "every read, every pattern of partial splices and failures", "why_tests_cant": "kernel-chosen partial splices", "anchors": ["nbd-server.c:handle_splice_read", "nbd-server.c:rawexpsplice", "nbd-server.c:expsplice"]}
{"id": "C49", "title": "The exported size is the size of the backing store", "statement": "The size announced to clients is the configured size if one is configured (and never more than the store provides), otherwise the sum of the sizes of the backing files.", "quantifier": "every configuration and every set of file sizes", "why_tests_cant": "all sizes and numbers of files", "anchors": ["nbd-server.c:setupexport", "nbdsrv.c:size_autodetect"]}
{"id": "C50", "title": "Configuration options set exactly their own flag", "statement": "Each boolean in an export section sets exactly its own export flag and no other, and contradictory combinations (copy-on-write with splice or waitfile, data log with splice) are rejected.", "quantifier": "every combination of options", "why_tests_cant": "2^17 combinations lifted to all files", "anchors": ["nbd-server.c:parse_cfile"]}
{"id": "C51", "title": "Logging an error cannot overflow the stack", "statement": "Reporting any error message, including one containing an arbitrarily long file name, does not write outside the message buffers.", "quantifier": "every message text", "why_tests_cant": "messages of every length, with the %m escape at every position", "anchors": ["cliserv.c:err_nonfatal"]}
{"id": "C52", "title": "Each client is served the file meant for its address", "statement": "Without virtualization every client is served the file as named in the configuration; with ipliteral (the default) the file whose name has the client's address in place of %s, so that clients with different addresses get different files and a client gets the same file over IPv4 and over IPv4-mapped IPv6; with iphash the same with slashes for dots; with cidrhash N the file named by the client's N-bit network, a slash and the client's address. Clients on a Unix socket count as 'unix'.", "quantifier": "every client address and port, every prefix length, every file name template", "why_tests_cant": "all addresses, ports and prefixes; templates are arbitrary strings", "anchors": ["nbd-server.c:set_peername", "nbd-server.c:wait_file", "nbdsrv.c:getmaskbyte", "man/nbd-server.5.sgml.in"]}
{"id": "C53", "title": "No byte stream crashes the process serving an ordinary export", "statement": "Whatever bytes a client sends after negotiation, and whatever results the kernel returns for file I/O, the process that serves an export without copy-on-write or waitfile never performs an out-of-bounds access or null dereference, and only ends by disconnect, end of connection, or a deliberate exit.", "quantifier": "every byte stream, every sequence of I/O results, every export size and file layout", "why_tests_cant": "unbounded set of byte streams and error schedules", "anchors": ["nbd-server.c:mainloop_threaded", "nbd-server.c:handle_request", "nbd-server.c:expread", "nbd-server.c:expwrite"]}
{"id": "C54", "title": "INFO reports the real size", "statement": "The export information an INFO option returns for an existing export contains the size that GO or EXPORT_NAME for the same export would return.", "quantifier": "every export, every option sequence before INFO", "why_tests_cant": "INFO is only tested for success, the size depends on what the session did before, and every option history has to be covered.", "anchors": ["nbd-server.c:handle_info", "nbd-server.c:send_export_info", "nbd-server.c:commit_client"]}
{"id": "C55", "title": "A refused export leaves the connection usable", "statement": "After the server refused an export (unknown, TLS needed or not permitted) in answer to GO or INFO, the client can ask for another export and gets it if it is permitted.", "quantifier": "every option sequence, every reason for refusal", "why_tests_cant": "Needs a sequence of options with a refusal in the middle for every reason and every export; the test suite only does single requests.", "anchors": ["nbd-server.c:handle_info", "nbd-server.c:commit_client", "nbd-server.c:negotiate"]}
{"id": "C56", "title": "Listing shows exactly the exports", "statement": "nbd-client -l, talking to this server, prints exactly the names of the exports that client may see, in configuration order, and nothing else; if the server does not allow listing it fails and prints no name.", "quantifier": "every list of exports and names, with and without TLS, machines of any byte order", "why_tests_cant": "two programs composed over all export lists and all names", "anchors": ["nbd-client.c:ask_list", "nbd-server.c:handle_list"]}
{"id": "C57", "title": "Command-line settings survive the device table", "statement": "Options given on the client's command line together with a device to be looked up in nbdtab (read-only, forced size, TLS) still hold for the connection that is set up, wherever in the table the device's entry is.", "quantifier": "all tables, entries, and command-line settings", "why_tests_cant": "the table may have any entries in any order; a test uses one table", "anchors": ["nbd-client.c:nbdtab_commit_line", "nbd-client.c:get_from_config", "nbd-client.c:main"]}
{"id": "C58", "title": "A device found in the table is one the client can configure", "statement": "If nbdtab has an entry for the device the user names, the client goes on to configure exactly that device with the kernel.", "quantifier": "all device names and tables", "why_tests_cant": "ranges over every device name and table", "anchors": ["nbd-client.c:get_from_config", "nbd-client.c:main"]}
{"id": "C59", "title": "A configured access list is enforced", "statement": "If an export has an authfile configured, a client whose address is in none of the networks listed is never served, whatever the state of that file.", "quantifier": "all access lists, file states and client addresses", "why_tests_cant": "ranges over all lists, addresses and failures to open the file", "anchors": ["nbdsrv.c:authorized_client", "nbdsrv.c:address_matches"]}
{"id": "C60", "title": "The documented default TLS priority string is used", "statement": "If the configuration does not set tlsprio, the server negotiates TLS with the default priority string given in nbd-server(5), which turns TLS 1.0 and 1.1 off.", "quantifier": "every command line and every configuration file that does not set tlsprio", "why_tests_cant": "The default is lost by the order of two assignments for every configuration; a test with a given TLS library only sees that some handshake works.", "anchors": ["nbd-server.c: parse_cfile, main", "man/nbd-server.5.sgml.in"]}
{"id": "C61", "title": "-o prints an equivalent section", "statement": "The configuration section that -o prints for a command line, put into a configuration file, defines an export that serves the same file with the same size, options, access list and connection limit as the command line did.", "quantifier": "every command line (any options in any order) and every way of reading the printed section back", "why_tests_cant": "It relates two different parsers over all combinations and orders of options.", "anchors": ["nbd-server.c: cmdline, dump_section, parse_cfile"]}
{"id": "C62", "title": "The exports are the ones the files describe", "statement": "An accepted configuration gives exactly the exports described by the sections of the main file and of the regular files ending in .conf in the include directory, none missing, none twice, and one bad section makes the whole configuration be rejected.", "quantifier": "every main file and every contents of the include directory", "why_tests_cant": "Tests use a handful of files; the claim is about every list of sections and directory entries.", "anchors": ["nbd-server.c: parse_cfile, do_cfile_dir"]}
{"id": "C63", "title": "Command-line options mean what they say in any order", "statement": "The address and port, file, -r, -m, -c, -l and -M of a command line configure the export as written, whatever their order and number, and nothing else is turned on.", "quantifier": "every sequence of options and arguments", "why_tests_cant": "The number of sequences is unbounded and options interact through shared state.", "anchors": ["nbd-server.c: cmdline"]}
{"id": "C65", "title": "Reloading a faulty configuration leaves the server as it was", "statement": "When the server is told to reload a configuration file that it does not accept, it keeps running with exactly the exports and settings it had; a file it accepts is loaded.", "quantifier": "every history of the server and every configuration on disk at the time of the reload", "why_tests_cant": "the space of faulty files and histories is unbounded", "anchors": ["nbd-server.c:serveloop", "nbd-server.c:append_new_servers", "nbd-server.c:parse_cfile"]}
{"id": "C67", "title": "An export given on the command line is served", "statement": "A server started with an export on the command line offers it, after the exports of the configuration file, whatever that file contains.", "quantifier": "every command line and every configuration on disk", "why_tests_cant": "the space of configurations is unbounded", "anchors": ["nbd-server.c:main", "nbd-server.c:cmdline", "nbd-server.c:parse_cfile"]}
{"id": "C72", "title": "Requests processed at the same time act on the export one byte access at a time", "statement": "Requests that are in progress at the same time, on one connection or on several connections to the same export, behave as if their accesses to single bytes happened one after the other, each between the receipt of its request and its final reply, and every access saw what was stored last. In particular a read that is sent after a write was acknowledged returns the bytes written, unless another request that may change them is in flight; a read never returns a byte that was neither in the export nor written by anyone; and when all is done the export holds what the last writes stored.", "quantifier": "every number of connections, every number of worker threads, every interleaving of their system calls, every pattern of short transfers and I/O errors, every stream of requests", "why_tests_cant": "a test sees a few interleavings; a lost or torn update needs a particular one", "anchors": ["nbd-server.c: mainloop_threaded, handle_request, handle_read, handle_write, rawexpread_fully, rawexpwrite_fully, expwrite_zeroes, expflush, exptrim, send_reply, send_structured_chunk", "treefiles.c: open_treefile"]}
{"id": "C71", "title": "No session waits for ever; every request gets its answer", "statement": "However the worker threads of all sessions on an export are scheduled, and whatever the other clients send, stop sending or break off, a session whose client sends well-formed requests and keeps reading eventually sends a complete answer to every request and ends when the client has closed; no session can prevent another one from doing so.", "quantifier": "all numbers of sessions and threads, all byte streams sent by all clients (cut off anywhere), all interleavings of threads, all results of system calls", "why_tests_cant": "A deadlock shows only in particular interleavings of threads of several processes, and absence of one is a statement about all of them; termination is a statement about unbounded executions.", "anchors": ["nbd-server.c: mainloop_threaded, handle_request, finalize_client, socket_closed_transmission, lock_logsem, unlock_logsem, log_reply, send_reply", "nbd-server.c: handle_modern_connection (thread pool)"]}
{"id": "C69", "title": "Sessions never share a diff file", "statement": "The copy-on-write files of sessions that run at the same time are different files, whatever exports they serve to whatever clients; they lie in the configured directory or else in that of the exported file.", "quantifier": "every pair of sessions, every export name, client address, directory and process number", "why_tests_cant": "names are composed of unbounded strings that could collide", "anchors": ["nbd-server.c:copyonwrite_prepare"]}
{"id": "C70", "title": "Commands run before and after a session get the name of the served file", "statement": "A %s in the prerun or postrun command is replaced by the name of the file the client is served, the same in both.", "quantifier": "every export, command, client and file name", "why_tests_cant": "strings are unbounded, and the name is changed in place by a library call in some configurations only", "anchors": ["nbd-server.c:do_run", "nbd-server.c:commit_client", "nbd-server.c:finalize_client", "nbd-server.c:copyonwrite_prepare"]}
{"id": "C68", "title": "A server run by inetd serves its connection", "statement": "A server whose port is 0 talks to the client connected to its standard input, and serves it like a client that connects to a listening server; it opens no sockets.", "quantifier": "every configuration with port 0, every client", "why_tests_cant": "the claim is about every client and configuration; the process talks to itself over a descriptor that happens to be the client's", "anchors": ["nbd-server.c:main", "nbd-server.c:commit_client", "nbd-server.c:open_modern"]}
{"id": "C74", "title": "A running server listens on what is configured", "statement": "If the server runs, it listens on exactly the configured sockets: the Unix socket if there is one, and every address that a name in listenaddr stands for, unless only a Unix socket is configured. If it cannot, it does not run.", "quantifier": "every configuration, every answer of the resolver and of the operating system to every call", "why_tests_cant": "which names resolve and which calls fail depends on the machine; the loop carries state from one address to the next, so the outcome depends on the whole list", "anchors": ["nbd-server.c:setup_servers", "nbd-server.c:open_modern", "nbd-server.c:open_unix"]}
{"id": "C75", "title": "Clients are only ever served under the configured user and group", "statement": "A server that gets to the point where it talks to a client runs as the configured user and group, without supplementary groups if a user is configured; if the user or group does not exist or changing to it fails, it never talks to a client.", "quantifier": "every configuration, every user database, every failure of a system call", "why_tests_cant": "needs root and every failure at every call; a missed error leaves the server running as root", "anchors": ["nbd-server.c:dousers", "nbd-server.c:main"]}
{"id": "C76", "title": "Starting in the background", "statement": "A server started in the background detaches from its terminal, its exit status says whether it runs, and the file given with -p holds the number of the process that serves.", "quantifier": "every configuration, every answer of the operating system", "why_tests_cant": "depends on failures after the fork, which the test that starts the server cannot see", "anchors": ["nbd-server.c:daemonize", "nbd-server.c:main"]}
{"id": "C77", "title": "One thread, one request at a time", "statement": "With one worker thread per connection, a client that sends several requests without waiting gets the replies, byte for byte and in order, and leaves the data, as if each request had been completed before the next was sent.", "quantifier": "every byte stream, every export, every schedule of the threads", "why_tests_cant": "the reading thread and the working thread run at the same time; a test sees one schedule", "anchors": ["nbd-server.c:mainloop_threaded", "nbd-server.c:handle_request"]}
{"id": "C73", "title": "Acknowledged flushes and FUA writes hold while other requests are in flight", "statement": "With several connections and threads working on one export at the same time: once a write has been acknowledged, a flush sent after that (on any connection) has been acknowledged, the written bytes survive a power failure from then on; the same holds for an acknowledged write with FUA or on a sync export when no system call fails. Only another request for the same bytes that overlaps in time, or comes later, can change that.", "quantifier": "every number of connections and threads, every interleaving of their system calls, every behaviour of the kernel, every loss of unsynced data in the crash", "why_tests_cant": "the fsync of one thread can fall between any two calls of another, and a crash can come at any point; a test sees one schedule and rarely a crash", "anchors": ["nbd-server.c:handle_flush", "nbd-server.c:expflush", "nbd-server.c:rawexpwrite", "nbd-server.c:mainloop_threaded"]}
{"id": "C78", "title": "The client connects to the server it was given", "statement": "nbd-client looks up and connects only to the host on the command line (or opens only the socket, with -unix), at the port given there or else the standard one, and asks for the export named with -N; of several addresses of the host it uses the first that answers.", "quantifier": "every list of options in every order, every answer of the resolver and the network", "why_tests_cant": "the meaning of one option depends on all the others, and failures of the network are many", "anchors": ["nbd-client.c:main", "nbd-client.c:opennet", "nbd-client.c:openunix"]}
{"id": "C79", "title": "What the kernel is told", "statement": "A client that does not fail has told the kernel the size (or the one given with -B), block size, flags, timeout, identifier and number of connections that the options and the server say, for the device named on the command line, with all connections negotiated for the same export; what an option asks for takes effect on both kernel interfaces.", "quantifier": "every list of options in every order, every sequence of answers of server and kernel", "why_tests_cant": "each option can meet each failure at each step; tests with a real kernel device see a few", "anchors": ["nbd-client.c:main", "nbd-client.c:netlink_configure", "nbd-client.c:setsizes", "nbd-client.c:set_timeout", "nbd-client.c:finish_sock"]}
{"id": "C80", "title": "Lost connections with -persist", "statement": "A client with -persist, when a connection is lost, connects to the same server again, negotiates the same export with the same settings, gives the kernel the new socket and goes on; it retries until it succeeds.", "quantifier": "every list of options, every number of losses, every sequence of answers of the network, the server and the kernel", "why_tests_cant": "the history of losses and refusals is unbounded", "anchors": ["nbd-client.c:main"]}
{"id": "C81", "title": "Checking and disconnecting a device", "statement": "nbd-client -c tells whether the device named (also by one of its partitions, or with its directory) is connected and by which process; -d disconnects that device and no other, and succeeds exactly if the kernel does.", "quantifier": "every device name, every answer of the kernel", "why_tests_cant": "all names and all failures are meant", "anchors": ["nbd-client.c:check_conn", "nbd-client.c:disconnect", "nbd-client.c:netlink_disconnect", "nbd-client.c:main"]}
{"id": "C82", "title": "TLS asked for is TLS used", "statement": "If any of the TLS options is given to nbd-client, every connection it negotiates, the first and every later one, is negotiated with TLS, and it never opens a connection that skips negotiation.", "quantifier": "every list of options in every order, every device table, every history of lost connections", "why_tests_cant": "one path on which the request is forgotten is enough to send data in the clear; a test sees the paths it takes", "anchors": ["nbd-client.c:main", "nbd-client.c:get_from_config", "nbdtab_parser.y"]}
{"id": "C83", "title": "SIGTERM stops the server and its sessions, and nothing else", "statement": "When the server gets SIGTERM, it sends SIGTERM to every process that serves a client and to no other process, removes its pid file and ends with success within a bounded number of its steps; without SIGTERM it does none of this.", "quantifier": "every history of connections, ended sessions, signals and other processes, including reuse of process numbers, at the level of single system calls", "why_tests_cant": "a signal can come between any two system calls, and process numbers are reused after millions of forks", "anchors": ["nbd-server.c:serveloop", "nbd-server.c:spawn_child", "nbd-server.c:killchild", "nbd-server.c:sigterm_handler", "nbd-server.c:sigchld_handler"]}
{"id": "C84", "title": "Ended sessions leave nothing behind in the server", "statement": "Whenever the server waits, every child process that has ended has been collected, and the server has no descriptor open for a child that has ended.", "quantifier": "every history of connections, ended sessions and signals, at the level of single system calls", "why_tests_cant": "several children may end while one signal is pending, at any point of the loop", "anchors": ["nbd-server.c:serveloop", "nbd-server.c:handle_childname", "nbd-server.c:spawn_child"]}
{"id": "C85", "title": "No client brings down the server for others", "statement": "Whatever clients do and however many there are, and whatever happens to the processes that serve them, the process that accepts connections goes on.", "quantifier": "every number of clients and every history of their connections, every limit on descriptors", "why_tests_cant": "needs a thousand simultaneous clients, or the death of a process within microseconds", "anchors": ["nbd-server.c:serveloop", "nbd-server.c:spawn_child", "nbd-server.c:handle_modern_connection", "nbd-server.c:handle_childname"]}
{"id": "C86", "title": "Prerun, postrun and cleaning up", "statement": "If the prerun command has succeeded for a client, the postrun command is run exactly once for it when its session ends, after the last of its requests has been worked on and answered; then the log is closed and the diff file of a copy-on-write export removed. Without prerun's success postrun is not run.", "quantifier": "every number of requests and threads, every interleaving of them, every way a session can end", "why_tests_cant": "the end of a session races with its worker threads, and connections break at any moment", "anchors": ["nbd-server.c:finalize_client", "nbd-server.c:socket_closed_transmission", "nbd-server.c:mainloop_threaded", "nbd-server.c:commit_client", "nbd-server.c:do_run"]}
{"id": "C87", "title": "From the client's device to the files and back", "statement": "When nbd-client connects to nbd-server for an export of files it is let in to, the device it sets up has the size of the files together (or the configured size) and is read-only exactly if the server's export is. Whatever requests the client's kernel then sends, the bytes that come back are the replies of an array holding the files one after the other, and afterwards the files hold what the array holds; if the store works, every permitted request is carried out and answered with success.", "quantifier": "every configuration, file size, byte order on either side, negotiation method, with or without TLS, every list of requests, every result of the system calls", "why_tests_cant": "composes negotiation, file layout and request handling over all inputs; a test sees a few sizes and requests", "anchors": ["nbd-client.c:negotiate", "nbd-server.c:negotiate", "nbd-server.c:setupexport", "nbd-server.c:get_filepos", "nbd-server.c:mainloop_threaded", "nbd-server.c:handle_request"]}
{"id": "C88", "title": "Requests give back the memory and descriptors they take", "statement": "Every heap block and every descriptor the server takes to work on a request (the request package, its data, read buffers, read contexts, pipes for splicing, opened files of a tree export) is given back exactly once, whether the request succeeds or fails; none is freed or closed twice, or when it is not in use. After any number of requests a session holds what it held at its start.", "quantifier": "every list of requests, every export and negotiated option, every result of the system calls", "why_tests_cant": "a leak or double free on one error path of one kind of export is invisible unless that path is taken and memory watched", "anchors": ["nbd-server.c:package_create", "nbd-server.c:package_dispose", "nbd-server.c:find_read_buf", "nbd-server.c:confirm_read", "nbd-server.c:complete_read", "nbd-server.c:handle_normal_read", "nbd-server.c:handle_splice_read", "nbd-server.c:expwrite_zeroes", "nbd-server.c:mkpipe", "nbd-server.c:rawexpread"]}
{"id": "C89", "title": "What the server holds for one client is bounded", "statement": "The requests and the data of writes that the server keeps in memory for one client are bounded, whatever the client sends: at most the requests it has not been sent anything for and one per worker thread; and there is a limit to the former.", "quantifier": "every client, number of sessions and threads, every interleaving", "why_tests_cant": "quantifies over all schedules of reader and workers; memory grows only under a particular schedule and load", "anchors": ["nbd-server.c:mainloop_threaded", "nbd-server.c:package_create", "nbd-server.c:handle_request"]}
{"id": "C90", "title": "nbd-trplay does what its command line says, and its status tells", "statement": "nbd-trplay replays the log of the last -l onto the image of the last -i, in blocks of the size of the last -b (512 if there is none) and up to the number of blocks of the last -m. If an option is wrong, or the log or image missing, the image is not touched. Exit status 0 means that the whole log, or the number of blocks asked for, is in the image.", "quantifier": "every command line, log, image and result of the system calls", "why_tests_cant": "ranges over all option lists and all logs cut off at any byte", "anchors": ["nbd-trplay.c:main", "nbd-trplay.c:main_loop", "nbd-trplay.c:process_command", "nbd-trplay.c:doread"]}
{"id": "C91", "title": "nbd-client does not crash on its settings and asks for sane blocks", "statement": "Whatever the command line, the device table, the server and the kernel do, nbd-client does not divide by zero or use a descriptor it never opened, and the block size it gives the kernel is a positive multiple of 512.", "quantifier": "every command line, table, behaviour of server and kernel, any number of reconnections", "why_tests_cant": "ranges over all command lines and tables and all later reconnections", "anchors": ["nbd-client.c:main", "nbd-client.c:setsizes", "nbd-client.c:nbdtab_set_property"]}
{"id": "C92", "title": "nbd-client's TLS session is with the server it was told to trust", "statement": "If nbd-client is told to use TLS and given a file of certificate authorities (-A or cacertfile), it gets ready, lists exports, or says anything inside the session, only with a server whose certificates those authorities vouch for and whose own certificate was made out for the host it connects to (or the name given by -H). With such a server it behaves as it would over a plain connection.", "quantifier": "every command line and device table, every server and certificate chain, every answer of the TLS library about it, every byte the server sends", "why_tests_cant": "ranges over all settings, all certificate chains and everything a hostile server may send before and after the handshake", "anchors": ["crypto-gnutls.c:verify_certificate_callback", "crypto-gnutls.c:tlssession_new", "crypto-gnutls.c:tlssession_mainloop", "nbd-client.c:negotiate", "nbd-client.c:main"]}
{"id": "C93", "title": "nbd-server lets only vouched-for clients into a TLS session", "statement": "With a file of certificate authorities, nbd-server lets a client into a TLS session only if it shows a certificate which those authorities vouch for and which is valid now. Other clients are told nothing inside a session and get no TLS-only export, and none at all if TLS is forced. Without such a file the certificates of clients are not checked; without certfile the certificate is read from keyfile.", "quantifier": "every configuration, export list, client, certificate chain, time and byte stream", "why_tests_cant": "ranges over all configurations, chains, times and option sequences of hostile clients", "anchors": ["nbd-server.c:verify_cert", "nbd-server.c:handle_starttls", "nbd-server.c:negotiate", "man/nbd-server.5.in.sgml:cacertfile"]}
{"id": "C94", "title": "nbd-get-status tells what the kernel knows", "statement": "nbd-get-status asks the kernel about the device named on its command line, or about all devices if there is none, and prints one line per device of the kernel's answer, in order, saying whether it is connected. Its status is 0 exactly if the kernel reports success. Anything that is not the name of a device is refused.", "quantifier": "every command line, every list of devices in the answer, both byte orders", "why_tests_cant": "ranges over all arguments and all answers of the kernel", "anchors": ["nbd-get-status.c:main", "nbd-get-status.c:callback", "nbd-netlink.h"]}
{"id": "C95", "title": "Blocks of a tree export can be made whatever directories are missing", "statement": "When a block of a writable tree export is needed for the first time, its file and all directories on the way to it that are missing are made (if the process may make them), whatever is there already; nothing else is made, changed or removed.", "quantifier": "every export name, size and position, every state of the directory tree", "why_tests_cant": "ranges over all paths, relative and absolute, with or without doubled slashes, and all states of the file system", "anchors": ["treefiles.c:mkdir_path", "treefiles.c:open_treefile", "treefiles.c:construct_path"]}
{"id": "C96", "title": "Splicing leaves no request unanswered", "statement": "On an export that uses splice, every request within the export is eventually answered, as on an export that does not: no request makes a thread of the server wait for something that can never happen.", "quantifier": "every request, every export, every way the network cuts the payload into buffers, every pattern of partial transfers", "why_tests_cant": "whether a request gets through depends on its offset within a page, its length and how packets arrive; a test sees some of these", "anchors": ["nbd-server.c:mkpipe", "nbd-server.c:handle_splice_read", "nbd-server.c:expsplice", "nbd-server.c:spliceit", "nbd-server.c:mainloop_threaded"]}
{"id": "C97", "title": "A waiting export goes over to its file when the server is signalled", "statement": "A session on an export with waitfile goes over to the exported file after the server was sent SIGUSR1 with the file in place, and not before; it does not crash doing so; and afterwards the diff file is removed.", "quantifier": "every order of signals to the server and its children, the file appearing, sessions beginning, being set up and ending, and steps of the waiting threads", "why_tests_cant": "whether a signal is seen depends on which process gets it and on the order of fork, set-up and thread start", "anchors": ["nbd-server.c: sigusr1_handler", "nbd-server.c: wait_file", "nbd-server.c: setupexport", "nbd-server.c: commit_client", "nbd-server.c: finalize_client", "man/nbd-server.5.sgml.in: waitfile"]}
{"id": "C98", "title": "A server that does not fork serves one client and is not disturbed by others", "statement": "A server started with -d handles connections one after another in its own process. Clients that are refused, give up or disappear leave it listening, with its exports as configured; the first client that is let in is served as by a fresh server, and the server ends when that client is done.", "quantifier": "every configuration, every number and order of connections, everything each client says, every outcome of the access checks, commands and files", "why_tests_cant": "what a client meets depends on everything the clients before it said; the combinations are endless", "anchors": ["nbd-server.c: handle_modern_connection", "nbd-server.c: negotiate", "nbd-server.c: commit_client", "nbd-server.c: setupexport", "man/nbd-server.1.sgml.in: -d"]}
{"id": "C99", "title": "A client cannot crash the process that serves it, from its first byte to its last", "statement": "Whatever bytes a client sends from the moment it is connected - options, requests or garbage, in the clear or inside TLS - and whatever the operating system answers, the server process that talks to it does not access memory out of bounds, dereference a null pointer or act on a value nobody wrote, whatever exports the accepted configuration has.", "quantifier": "every accepted configuration, every byte stream during negotiation and transmission, every sequence of results of the operating system", "why_tests_cant": "unbounded byte streams times configurations times error schedules; fuzzing samples them", "anchors": ["nbd-server.c:negotiate", "nbd-server.c:commit_client", "nbd-server.c:setupexport", "nbd-server.c:mainloop_threaded", "nbd-server.c:handle_request"]}
{"id": "C100", "title": "A transaction log keeps what every session recorded", "statement": "An export has one transaction log, which all its sessions write. After any number of sessions, one after the other or at the same time, the log contains the records of all of them.", "quantifier": "every log file, every pair of sessions, every interleaving of their records", "why_tests_cant": "all sessions and all orders of their log writes", "anchors": ["nbd-server.c:setup_transactionlog", "nbd-server.c:mainloop_threaded", "nbd-server.c:log_reply"]}
{"id": "C101", "title": "The text nbd-trdump prints says what is in the log", "statement": "From the text nbd-trdump prints for a transaction log, every number of every request and reply of the session can be read back, in order, with the right command name and FUA word; the program ends for every input, reports read errors and logs that are cut off with a failing exit status, and with arguments it does not read its input.", "quantifier": "every session, every byte sequence as a log, every argument list", "why_tests_cant": "all values of all fields and all byte sequences", "anchors": ["nbd-trdump.c:main", "nbd-trdump.c:doread", "nbd-helper.h:getcommandname", "nbd-helper.h:gettracelogname", "nbd-helper.h:getstructreplname"]}
{"id": "C102", "title": "A name stands for one export", "statement": "For every accepted configuration and every export name, all ways of choosing the export - the option that ends negotiation without an answer and the one that gets an answer - give a client the same export, and the connection limit that is applied to it and the connections that are counted are those of that export.", "quantifier": "every configuration that is accepted, in one file or several, every name, every state of a negotiation, every number of connections", "why_tests_cant": "all configurations and all names; a test compares the two options for the configurations it was written for", "anchors": ["nbd-server.c:handle_export_name", "nbd-server.c:handle_info", "nbd-server.c:handle_childname", "nbd-server.c:parse_cfile", "nbd-server.c:do_cfile_dir"]}
{"id": "C103", "title": "Choosing an export creates, changes and removes only the files it should", "statement": "When a client chooses an export, the server opens the files the configuration names and serves those. It creates a file only if the export has a configured size and is a single writable file that is missing, and then one of that size and all zero; it changes no existing file, except that it gives an empty file the configured size; it removes no file. A temporary export gives each client a fresh file of its own that no name leads to. A client that is refused leaves no file behind.", "quantifier": "every configuration of an export, every file system, every answer of the kernel", "why_tests_cant": "all combinations of options, existing files and failures", "anchors": ["nbd-server.c:setupexport", "nbdsrv.c:size_autodetect", "man/nbd-server.5.sgml.in:temporary", "man/nbd-server.5.sgml.in:filesize"]}
{"id": "C104", "title": "The server runs with the settings of the [generic] section", "statement": "If a configuration is accepted, then each of the server-wide settings (user, group, listenaddr, port, unixsock, certfile, keyfile, cacertfile, tlsprio, max_threads, allowlist, duallisten, force_tls) is the one the [generic] section gives or, if the section does not mention it, the one that was there before (from the command line or of the running server); a value that cannot be read is never accepted, and nothing else changes.", "quantifier": "every contents of the [generic] section, every configuration before", "why_tests_cant": "The settings share one table of keys and one word of flags; the claim is about every combination of keys, values and previous settings.", "anchors": ["nbd-server.c: parse_cfile (table gp)"]}
{"id": "C105", "title": "The transaction log of a server that died has every acknowledged write", "statement": "A client writes to an export whose transaction log records data (datalog). If the server process dies at any moment, replaying its log with nbd-trplay onto a copy of what the export held before the session gives an image that has every write the client was told had succeeded: each byte is as the last request received that writes it wants it, and equals the export's own byte wherever no request was outstanding.", "quantifier": "every session, every number of worker threads and requests in flight, every interleaving of their steps, every moment at which the process may die (also in the middle of receiving a write's data, or between carrying a request out and answering it), every block size", "why_tests_cant": "the moment of death, the order of the threads and the sizes the kernel accepts cannot be enumerated; a test kills the server at a handful of moments", "anchors": ["nbd-server.c: mainloop_threaded, handle_request, lock_logsem, unlock_logsem, log_reply, send_reply, setup_transactionlog", "nbd-trplay.c: main_loop, process_command, doread"]}
