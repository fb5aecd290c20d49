# Formal model of NetworkBlockDevice/nbd in Lean 4

The code is in `/repo` (read only, never built or run). The model is the Lake library
`lean/Verif`. Every definition that models code cites the file and lines it models and says
where it simplifies. Properties are in `properties.jsonl`, their theorems in `MANIFEST.json`.

## How to read it

1. `Verif/Spec.lean` (and the `Spec` namespaces at the top of some `Props` files): the small
   vocabulary of the statements - flat arrays, requests and replies as big-endian bytes, answers,
   prefixes of addresses, histories. It does not refer to the model of the server.
2. `Verif/Props/*.lean`: the property theorems, named `Cnn_...`, each followed or preceded by an
   `example` with a concrete case that meets its hypotheses.
3. The model files (next table), then the `*Lemmas` files with the proofs.

Names: `Cnn_x` proves the property or a stated part of it in full generality; `Cnn_x_partial`
proves it under a restriction that the doc comment names; `Cnn_x_false` (or `Cnn_false_x`) proves
that the code as it stands violates the property, with a concrete witness.

## Layout

| model | code modelled |
|---|---|
| `Bytes`, `Wire` | byte order (`cliserv.c` ntohll), request, reply, chunk structs (`nbd.h`), `nbd_errno` |
| `Store`, `World` | files with volatile and durable contents, `pread`/`pwrite`/`fsync`/`fallocate` with an arbitrary kernel |
| `Tree` | `treefiles.c` |
| `Layout` | `size_autodetect`, `setupexport`, `get_filepos` |
| `Raw` | `rawexpread(_fully)`, `rawexpwrite(_fully)`, splice |
| `Exp` | `expread`, `expwrite` (also copy-on-write), `expwrite_zeroes`, `expflush`, `exptrim`, `punch_hole` |
| `Pipe` | the functions that fill a pipe on splice exports (`mkpipe`, `rawexpsplice`, `handle_splice_read`, `spliceit`) with Linux's limit on a pipe's buffers |
| `Request` | `handle_request` and all handlers, `complete_read`, the request loop on a byte stream |
| `Wait` | `wait_file`, `commit_diff` |
| `TrLog` | transaction log, `nbd-trdump.c`, `nbd-trplay.c` |
| `TrText` | the text nbd-trdump prints, `nbd-helper.h`, its arguments |
| `TrMain` | `nbd-trplay.c` `main` |
| `Sched` | the thread pool: system calls, messages and log records of all threads of all sessions interleaved |
| `SchedCow` | the same for copy-on-write exports: every access to the page map, `difffilelen` and the diff file's offset is a step |
| `SockIO` | `readit`, `writeit`, `readit_tls`, `writeit_tls`, `consume` |
| `Ring`, `Proxy` | `buffer.c`, the proxy loop of `crypto-gnutls.c` |
| `Nego` | `negotiate`, all options, `commit_client`, `handle_starttls` |
| `ErrText` | `err_nonfatal` |
| `CliNego`, `CliMain` | `nbd-client.c`: negotiation, command line, nbdtab, sizes, reconnect, netlink |
| `CliRun` | `nbd-client.c`: `main` from the options to the last exit, with the calls it makes as a log and the world's answers as functions of that log |
| `GetStatus` | `nbd-get-status.c`, with the netlink attributes as bytes |
| `MkPath` | `mkdir_path` and `open` on a tree of directories |
| `Tls` | `verify_certificate_callback`, `tlssession_new`, `verify_cert`, and the negotiation of both sides with peers that show certificates |
| `Talk` | client and server negotiating over two byte streams |
| `Acl` | `address_matches`, `authorized_client` |
| `Config` | `cmdline`, `parse_cfile`, `do_cfile_dir`, `dump_section`, `main`'s start |
| `Names` | `set_peername`, names in `copyonwrite_prepare`, `do_run` |
| `Startup` | `open_unix`, `open_modern`, `setup_servers`, `daemonize`, `dousers`, end of `main` |
| `Finish` | `finalize_client`, `socket_closed_transmission`, and who calls them: the reading thread and the workers, with `g_thread_pool_free`, the reply lock and SIGPIPE |
| `Res` | the functions that work on a request once more, with the heap blocks and descriptors they take and give back; `package_create`, `package_dispose` |
| `Loop` | `serveloop`, `spawn_child`, the signal handlers and the parent's sockets, one system call at a time, with processes, pending signals and descriptors |
| `Parent` | `serveloop`, `handle_childname`, `append_new_servers`, reference counting |

Lemma files: `TreeLemmas`, `LayoutLemmas`, `RawLemmas`, `WireLemmas`, `RequestLemmas`,
`PlainLemmas` (requests on plain exports refine the flat array), `SessionLemmas`, `HealthLemmas`
(no failures on a working store), `SetupLemmas`, `AnswerLemmas`, `SafeLemmas` (no undefined
behaviour), `RingLemmas`, `NegoSpec/Lemmas/Rel/Hoare/Serve/Loop/Exact`, `CliLemmas/Hoare/Safe`,
`DurableLemmas`, `FailLemmas`, `CowLemmas/View/Session`, `WaitLemmas/Run`, `TrLogLemmas`, `TrPlayLemmas`,
`CliRunLemmas`, `CliOpts`, `CliConn`, `LoopLemmas`, `LoopFds`, `SchedLemmas/Run/Turn/Plain/Seq/Live/Safe/One/Any/CowRun/CowKept`, `LinearLemmas`. `Demo` holds the concrete sessions of
the examples.

## Conventions

* Undefined behaviour (out-of-bounds access, use of uninitialised memory, signed overflow, a bad
  format) is the distinct outcome `Out.ub`; a process that ends itself is `Out.exit`. Neither carries
  a world: nothing is claimed afterwards. Safety theorems say the outcome is unreachable; where it
  is reachable the negation is proved.
* Fixed-width C arithmetic is `UInt32`/`UInt64` or explicit `% 2^32`, `% 2^64`, wherever
  wrap-around is possible.
* The environment is an argument, and theorems quantify over it: the kernel's answer to the n-th
  system call (`World.orc`: error, or a number of bytes), what peers send, the order of threads
  (`Exec`), the moment of a crash (`Survives`).

## Properties: model, proof, outcome

P = proved, p = proved in part, F = false of the code in some case, negation proved.

* C01 P, C02 P. `ntohl`/`ntohll` over memory bytes on both byte orders; every 28-byte string decodes to its big-endian meaning, round trip; replies likewise.
* C03 pF. `complete_read` for every way the kernel splits the reads; an independent reassembly gets the data. False of splice and copy-on-write exports.
* C04 pF, C05 pF. Induction over the byte stream: one answer per request, in order, no byte lost. A splice export over TLS crashes (`C04_false_tls_splice`), else every request is answered unless the process dies.
* C06 P. Induction over histories: contents equal, writes answered EPERM. Also exports that turn read-only by themselves. With threads (`SchedRO`): every system call of every request of a read-only export leaves the files alone (`Prog.Still`), so every execution does.
* C07 pF. Frame theorem for every request; refusal outside the range; false when the size is unknown (2^64-1). With threads and crashes (`SchedFrame`): every step of every request leaves each byte outside its range alone (`Prog.Keep`), so a byte no request covers keeps every value it may have after a crash; on trees (`SchedFrameTree`) opening a missing block sets its last byte to zero, so there the invariant is that the byte is sure to have its value (`Sure`); on copy-on-write with two threads it is false (`CowFrame`, a concrete execution).
* C08 pF. Refinement: a plain, multi-file or tree export is a flat byte array under all sequences, for all short and failing calls. False of write-zeroes above 64 MiB; `Props/Exact` says what happens then.
* C09 pF. False above 64 MiB (the offset is not advanced): exactly the first 64 MiB are zeroed.
* C10 pF. Trim changes nothing outside its range, every layout. False (crash) of an export that waits for its file.
* C11 p. Original and other sessions untouched, all interleavings of requests, all bytes; and of all threads' system calls (`C11_parallel_partial`, a relation every step keeps). Missing: after undefined behaviour.
* C12 pF. Eight ways in which copy-on-write loses or corrupts data (`C12_false_*`; with two threads, acknowledged writes change places); proved on the fragment that works (`C12_partial`, interleaved sessions; `C12_one_thread_partial`, all executions with one thread; `C12_any_partial`, any kernel, until a write of the session fails). The eighth, `C12_false_long`: with more than 2^20 saved blocks the 32-bit offset in the diff file wraps; proved by induction over the 2^20 + 1 writes.
* C13 pF. Binary search finds the only file; false if a file in the middle is empty.
* C14 P. Distinct blocks, distinct paths; the buffer is long enough.
* C15 p, C16 P. Loops over arbitrary kernel answers. C15 on copy-on-write exports is `C12_any_partial`.
* C17 pF, C19 pF. Would-block answers make `writeit` send bytes twice and from outside the buffer; the proxy loses data when both ends close together. Partial theorems otherwise.
* C18 P. Ring buffer refines a list, all capacities.
* C20 pF, C21 pF. Crash model (below). False: fdatasync failures are ignored; a block file created by a tree write is not synced in its directory; flush on a waitfile export syncs the wrong file.
* C22 pF. Every errno; every reply; a success of an operation implies that no system call failed. False of FUA writes.
* C23 P. Any number of threads, any interleaving, any splitting of socket writes: whole messages, each request's in order.
* C24 P, C25 P. Noninterference over whole negotiations; force-TLS.
* C26 pF, C28 pF, C55 pF. State that survives STARTTLS or a client; a refused GO followed by another is undefined behaviour.
* C27 pF. Composition of client and server over two streams; false for `-g` and an unknown name.
* C29 P, C30 pF, C31 pF, C36 P, C54 F, C56 P. Option framing, lists, flags. False: names over 1020 bytes; LIST with data; short INFO; 2^32-1 name length; INFO's size.
* C32 pF, C33 pF, C34 pF, C59 pF. Access lists against a bit-prefix specification. False for mixed families, malformed prefixes, long lines, Unix sockets, unreadable lists. `C32_several_partial`: an entry that stands for several addresses. `C34_served`, `C59_served_partial` (Verif/Props/Served.lean): what holds of every client that is served at all, through the whole decision in `set_peername` and the access list.
* C35 pF, C38 P, C39 P, C65 pF. Induction over histories of the parent. The connection count never decreases. `Ask` reads the question of a child from whatever `read` delivers (C16 for the name; false for a length in pieces).
* C37 pF. Every advertised command and flag works, except DF.
* C40 pF, C41 pF. The log against an independent reader; replay against the flat array. False for existing log files and structured replies. With several worker threads (`Verif/SchedLog.lean`): an invariant of every step of every thread splits the log into whole pieces, each about one request; the log semaphore keeps a write request and its data together. Replay with threads (`Verif/Props/SchedReplay.lean`): every byte has the value of the last write sent that covers it, in the replay by the order of the log, in the export by the history of C72; false if overlapping writes are in flight at once.
* C42 pF, C43 pF, C44 pF, C45 pF, C46 pF, C57 pF, C58 F. The client.
* C47 pF. Every schedule of the copying thread and whole requests, any errors while copying; five ways to lose writes.
* C48 pF. Splice reads equal normal reads; false with structured replies, except on encrypted sessions, where nothing is spliced.
* C49 P, C50 P, C61 pF, C62 P, C63 P, C67 pF, C60 F. Set-up and configuration. (An empty first argument of nbd-server is outside C63: `C63_empty`, undefined behaviour.)
* C51 pF. Exact condition for the overflow in `err_nonfatal`.
* C52 pF, C69 P, C70 pF. Strings: `printf` with one `%s`, decimal numbers, `dirname`/`basename` of the C library. False: cidrhash with any proper prefix, iphash, waitfile with `%s`, stray `%`; postrun of a copy-on-write export without cowdir gets the directory.
* C68 pF, C74 pF, C75 P, C76 pF. The end of `main` as a function of the answers of the operating system; lists of addresses against a specification of names between separators.
* C53 pF. No byte stream crashes a session on an ordinary export, of any size and with any files `setupexport` accepts (`SafeAny`: the search of `get_filepos` stays inside the array because the first file starts at 0, sorted or not). Copy-on-write sessions (`SafeCow`): the page map keeps its length and its entries are among the blocks written, whatever fails; `Spec.commandsIn` reads the commands out of the bytes independently of the server, `Spec.Gentle` excludes exactly the three proved crashes. Waiting exports (`SafeWait`): the same with the thread that waits for the file, any order of requests and steps. Worker threads (Props/SchedSafe): any bytes from any number of clients, every system call a step; the process exits only because of a wrong magic number.
* C99 pF. C31 for the negotiation, then `session_serving` (what is served is a configured export that `setupexport` accepted) and C53 for every layout. False of copy-on-write and waitfile exports, splicing inside TLS, a client refused once that asks again, and 4 GiB option lengths. `C99_cow_partial` adds copy-on-write exports with gentle requests, `C99_every_export_partial` also those that wait for their file. `C99_threads_partial`: any number of clients, each negotiation followed by any number of worker threads, one system call per step (C31 composed with `C53_threads_partial`; no trees, no empty files).
* C100 pF. What a session writes to its log is a function of the session alone, written from offset 0 over whatever the file holds (`loggedSession_over`); simultaneous sessions are a list of (session, bytes) writes in any order, each to its own offset (`sharedLog`). False of the code in general: `C100_false_sequence`, `C100_false_together` quantify over all sessions and orders.
* C101 pF. `TrText`: the `printf` formats of nbd-trdump with the names of nbd-helper.h, on top of `trdump` (`TrLog`), and the arguments. The specification is a reader of columns (`Spec.readLine`) written from the format; round trip line by line, newlines separate because no field contains one, and every number fits its width (induction over the input).
* C102 pF. `parseCfile` (names of the table are the names of the sections, C62), `oneOption` (first and last visible export of a name) and `handleChildname` composed; with distinct section names all three find the same entry. False across included files: nothing merges sections of the same name.
* C103 pF. `Setup`: `setupexport` on a file system of names, numbered files and descriptors (`open`, `mkstemp`, `unlink`, `ftruncate`, with what the kernel allows as a parameter), where `Layout` takes the files as given; `C103_described` says the results are those of `Layout`. Case analysis of opening one file, induction over the files (each takes a descriptor). Not modelled: hard links, symbolic links, other processes changing the files meanwhile. Also gives `C98_false_descriptors`: nothing closes the files opened for a refused client.
* C104 P. The fifteen steps of the table `gp`, each of which changes one field or one bit: what a step leaves alone (`stepG_field`, `stepG_flags`, `stepG_threads`), and the step for each key.
* C105 p. The invariant of C40 with threads holds at every moment: the log is whole records, the last perhaps the header of a write without its data, which nbd-trplay ignores (`trplay_header`); the last record of a reply perhaps one not sent yet (`Underway.owed`). The bytes as in C41 with threads. False of two sessions that share a log (`C105_false_shared`).
* C71 pF. Termination by a well-founded order on states, progress by an invariant on locks; false with a data log (three deadlocks) and with `max_threads = 0`. On trees (`Props/TreeLive`): safety relative to an invariant of the state (no system call fails); false on a full disk, where the process exits.
* C72 pF. Simulation: an execution of all threads of all sessions is one sequence of byte accesses to one array, in which each request does what its command says between its arrival and its last reply. Plain exports; not copy-on-write or waiting exports. Exports with `splice = true` (Verif/SchedSplice.lean, Verif/Props/SpliceLinear.lean): the pipe of a read holds the pages of the file, so each byte is looked at when it leaves the pipe, not when it is spliced in; a write out of a pipe is the same program as one out of memory. False on trees: Verif/SchedTree.lean has a step for each system call of `open_treefile`, whose lock is one per process; Verif/Props/TreeRace.lean plays the race of two connections. What does hold of trees: Verif/SchedTreeGood.lean proves of the programs of requests that they do what they would do on a plain file, woven with zero bytes stored at the ends of blocks; the argument from histories to clients (Verif/LinearLemmas.lean) is generic in what is known of the accesses of a request (`Law`), and is used for both. Read-only trees: a missing block reads as zeroes only because no file appears meanwhile, so Verif/SchedGuard.lean relativises the simulation to an invariant of the shared state (an execution in which the invariant holds is one of programs that end the process in states without it), and Verif/SchedTreeRO.lean uses it with "the files are those of the start".
* C77 p. Invariant of executions with one worker: what the thread has sent and still has to do is the sequential run of the requests received. Missing: splice.
* C73 p. Verif/SchedDurable.lean: predicates on the programs of requests (`Keep`: leaves a stored byte alone; `OneMsg`/`Silent`: nothing happens after the only message; `Pend`: success is sent only after the byte is settled), by induction on the programs. Verif/SchedKept.lean: two invariants of executions, one until the durable request is received (threads that may still touch the byte have not answered), one from then on (the request is pending, or the byte is settled and nobody touches it). Verif/Props/Kept.lean adds C72 for the contents. Verif/SchedSpliceKept.lean and Verif/Props/SpliceKept.lean: the same for exports with `splice = true` (a request is processed as if its data were in memory, or it is a read through a pipe, which touches nothing).
* C78 pF, C79 pF, C80 pF, C81 pF, C82 pF. `Verif/CliRun.lean` runs `main` of the client; every call it makes is an event of a log, and every answer a function of the log so far, so that the theorems range over all worlds. `Verif/CliOpts.lean`: each variable after the option loop is the last option that sets it (induction on the list of options). `Verif/CliConn.lean`: invariants of the log for the connections, with netlink and with ioctls, and for any number of reconnections. `Verif/Props/CliRun.lean` has the theorems; the specification says in terms of the list of options what was asked for. `Verif/Props/CliTable.lean`: clients that take their settings from nbdtab, from the parser (C46) through the option loop to the log; C58 refuted for the whole program; what they have told the kernel, with the ioctl interface (`C79_table_partial`).
* C83 P, C84 P, C85 pF. Invariants of `Loop` (`LoopLemmas`: processes and signals; `LoopFds`: descriptors) over all interleavings of the parent's system calls with events outside; numbers of processes are any that are free.
* C87 p. `C27_agree` (who talks to whom about what) composed with the layout of the files (C13), the run of the main loop (C08) and, for the store that works, `HealthLemmas` and `GrowLemmas` (no request closes or shrinks an open file) by induction over the requests. Trees (`TreeHealth`, `Props/TreeWhole`): the invariant is that no system call fails and every block file that exists is complete; every permitted request keeps it and succeeds. Copy-on-write (`Props/CowWhole`): C12 and C11 composed with C27. For many clients and threads (`Props/Many`): C27 for each, then C72, C71 and C23 for all of them. With `splice = true` (`Props/ManySplice`, `SchedSpliceSafe`: no request on such an export fails, unless it comes through TLS) the same but for C71.
* C86 pF. `Finish`: invariants over all interleavings of the client, the reading thread and the workers.
* C88 pF. `Res` repeats the functions of the request path with an account of blocks and descriptors; `ResLemmas` proves function by function that results are those of the functions without the account, and what each leaves. False: failed structured reads. `ResTasks` has the same path as threads of allocator and descriptor calls with free results, in any order and with allocations that fail; `C88_threads_partial` by an invariant that divides the heap among the threads (`Bal`, `OwnedBy`). False: descriptor 0 of a pipe is not closed (C88_false_zero).
* C89 pF. Invariant of executions (`SchedHeld`): requests leave the queue in order, and nothing is sent for one that is in it. False: the queue of the pool has no limit.
* C90 pF. `Verif.TrMain` models main of nbd-trplay; composed with C41. False of the exit status: mistyped options, logs that were cut off (for every log and every cut, `trplay_take`).
* C91 pF. Invariant of the option loop (the block size is a nonzero multiple of 512), then no division by zero and no use of a descriptor that was never set in any later step. False of the table, of negative sizes, of `-C 0` and of `-l -P`.
* C92 pF. `cliTlsRun`: negotiation, with what GnuTLS says about files and certificates (`Gnu`) and the server's chain (`TlsPeer`) as parameters. Case analysis on the verify callback, an induction that nothing is sent inside TLS before the handshake, and the invariants of the option loop and the table to get from settings to command line. False without `-A` (even with `-H`), with `-unix` and no `-H`, with `-A` and a later table entry, and with `-g`.
* C93 pF. `srvTlsRun`: `session` with the handshake decided by `verify_cert`. Invariant that a session without TLS stays so, with C24 and C25. False of what nbd-server(5) says about leaving out `cacertfile` or `certfile`.
* C94 pF. Round trip: the attributes the kernel writes, read back by libnl's parser (modelled on bytes), printed line by line. False of names like `/dev/nbd-1`, `/dev/nbd5p1`.
* C95 P. `mkdirPath` on a tree of names: induction over the slashes of the path; frame condition for every outcome.
* C96 pF. `Pipe` repeats the splicing code with the buffers of the pipe counted. Induction over the calls of `splice`: a read gets stuck exactly if it touches more pages than there are buffers; simulation by the model without the limit otherwise. False of 1 MiB reads at odd offsets and of writes that arrive in many pieces.
* C97 pF. `Usr1`: the semaphore of each process, copied by `fork`; any interleaving of signals, set-up and the waiting threads. Invariants of one session under all acts. False of signals to the parent, of sessions begun after one, and of the diff file.
* C98 pF. `Alone`: `handle_modern_connection` with `dontfork` over any list of connections, on top of `session` (`Nego`); the exports and `F_NO_ZEROES` are handed from one to the next. Induction over the connections; `session_config` (pre/postconditions of negotiation) says what a client can leave behind. False of clients that end the process and of what is left behind.

Not modelled at all: timeouts and keep-alive, the cryptography of TLS, the kernel's nbd driver,
GnuTLS initialisation, socket options, `make-integrityhuge.c`, `winnbd`, tests.

## Trusted base

* Lean 4.33.0's kernel. Every theorem depends on at most the axioms `propext`,
  `Classical.choice`, `Quot.sound` (checked for all theorems in the manifest by `#print axioms`).
  No axiom of our own, no `sorry`, no `native_decide`, no `bv_decide`. `decide +kernel` is
  used for concrete witnesses and examples: its proofs are checked by the kernel.
* The translation from C by hand. Each definition cites its lines.
* The environment, as follows.

**Files.** `pread`/`pwrite` transfer any number of bytes from 1 to the number asked for (at most
2^31 - 4096, `MAX_RW_COUNT`), or 0 or fewer at the end of a file, or fail with any errno; a failed or short
call has no other effect. `fallocate(PUNCH_HOLE)` zeroes the range or fails without effect.
Descriptors are identities of files: two exports do not share a file unless stated; the diff file is
none of the exported files. `malloc` does not fail.

**Pipes** (`Pipe`). A pipe set to 1 MiB has 256 buffers; `splice` from a file takes one buffer for each page it touches, from a socket one for
each buffer of the network stack, and waits when none is free. Elsewhere in the model a pipe holds anything; `C96_same_partial` connects the two.
If the connection ends while a write's payload is being spliced, the model says `gone` even if the thread was stuck before.

**Crashes** (C20, C21). Each file has durable contents; a write adds to what is not durable; after
a crash each byte written since the last successful sync of the file may or may not be there, independently,
and a file created since its directory was synced may be missing. `fsync`/`fdatasync` that
returns 0 makes the file's contents durable.

**Sockets.** In the session model a socket is a stream of bytes read in full and a stream of bytes
written in full; `SockIO` shows what `readit`/`writeit` make of short and failing calls. The
client's plain `read()` calls outside `readit` are assumed to return what was asked for.

**TLS.** `gnutls_record_send/recv` are calls that move any number of bytes, or report again, or
fail; in the session models the handshake yields yes or no. `Tls` says which: what GnuTLS finds out about files, priorities and
certificate chains is a parameter (`Gnu`), also whether it calls the verify function for a peer without a certificate. That a peer that
shows a certificate has its key, and that the session is secret, is GnuTLS's business. Nothing is claimed about secrecy.

**Threads** (`Sched`). One step is one system call or a few that nothing can come between:
`get_filepos` reads only constant data, so it belongs to the call that follows. The pool is FIFO.
Writing a record to the log while holding the semaphore is one step; the last `write` to a socket
and the unlock are one step. `errno` is per thread. Each session has its own mutex; the semaphore of a log
is shared, and stays taken when its holder dies. A client keeps reading; a failing socket write in a worker (which would call
`finalize_client` in the worker) is not modelled. In `Sched`, for exports other than plain files,
the storage work of a request is one step. `SchedCow` and `SchedTree` have the same threads with the system calls of copy-on-write
sessions and of trees interleaved, and the accesses to the map and the free block counter between them (which are in fact not protected:
`C12_false_parallel`); their replies and log records are as in `Sched`.

**Waiting for the file** (`Wait`). A request is one turn, except in `C47_false_race`. The file that
appears has a descriptor fixed in advance.

**Names.** The models of negotiation, requests and trees take the name of the served file as given; `Names`
says what it is, including the change `copyonwrite_prepare` makes to it.

**Parent** (`Loop`). `fork` gives a number no process has; a child that has ended keeps its number until it is waited for. Signals are
blocked outside `pselect` and stay pending. `pselect` either delivers all pending signals or reports what is ready. The lowest free descriptor is used.
A child writes its whole question at once. The mode without `fork` is left out.

**Memory** (`Res`). Allocation does not fail and gives a name no live block has; freeing or closing what is not live is `ub`. One request is
worked on at a time (any number of them in `ResTasks`); the socket and the descriptors of the export itself are not counted. What GLib and GnuTLS allocate is not counted.

**Start** (`Startup`). The answers of the system calls are a parameter; user, group and the like are one ID each (real, effective and
saved IDs change together). The addresses `getaddrinfo` returns are opaque.

**Log** (`TrLog`). Writes to the log succeed in full (the code ignores their result). Two sessions
writing one log overwrite each other's records, since each has its own offset; `C40` and `C41` are
about one session.

**Libraries.** GLib's key file getters, the text of IPv6 addresses (`V6Text`), `getaddrinfo`, `getnameinfo`, `glob`/`readdir` and `getopt` are
parameters with the documented contract; `isspace` is that of the C locale; the parser generated by
bison/flex for nbdtab accepts the grammar in the source. Ioctls and netlink calls of the client
are recorded with their arguments; the kernel is assumed to use them as documented.

## Findings besides the negated properties (read in the code, not all of them theorems)

* The message length in structured error replies is sent in host byte order (the statement of C03 and of read failures allows for it).
* `waitfile` with `splice` is accepted and crashes on the first request; reads of missing pages fail while waiting.
* Inetd mode uses descriptor 0 for both the client and the parent's socket.
* Two sessions on a tree export can both find a block missing; the second one then writes a zero over the block's last byte.
