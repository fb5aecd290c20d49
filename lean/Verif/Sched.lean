import Verif.TrLog
/-!
# Worker threads

`mainloop_threaded` (nbd-server.c 3095-3152) hands every request to a pool of threads, so several
requests are worked on at once, in one process per connection and in several processes per export.
Here the work on one request is a `Prog`: a sequence of system calls, messages and log records,
and `Step` lets the threads of all sessions take turns in any order, between any two of them.

What one thread does between two of these points touches only memory of its own (the work package,
the read context, buffers on its heap) and is part of the point before it.
-/

set_option autoImplicit false

namespace Nbd

/-- What a worker thread still has to do for a request. `σ` is the state all threads share.
`done` carries the thread's `errno`, which outlives the request. nbd-server.c 3025-3093 as a sequence of steps. -/
inductive Prog (σ : Type) : Type 1 where
  /-- the request is dealt with -/
  | done (errno : Nat)
  /-- one indivisible access to the shared state -/
  | op {α : Type} (f : σ → Out (σ × α)) (k : α → Prog σ)
  /-- lock `client->lock`, write the bytes of the message to the socket, unlock
  (nbd-server.c 1313-1318, 1332-1340, 1424-1428, 2951-2953 and the like) -/
  | send (m : Msg) (k : Prog σ)
  /-- `lock_logsem`, write a record, `unlock_logsem` (nbd-server.c 1290-1304). Nobody else can
  write to the log in between, so this is one step. -/
  | log (bs : List Byte) (k : Prog σ)

/-! ### The programs -/

/-- A system call (or a few that nothing can come between) made by a thread whose `errno` is `en`.
`errno` is per thread: the call starts from `en` and hands the new value to what follows, and
nobody looks at what is left in the shared state. (For the system calls of nbd-server.c 1200-1793.) -/
def call {α : Type} (f : World → Out (World × α)) (en : Nat) (k : α → Nat → Prog World) :
    Prog World :=
  .op (fun w =>
      match f { w with errno := en } with
      | .ub => .ub
      | .exit => .exit
      | .val (w', a) => .val (w', (a, w'.errno)))
    (fun x => k x.1 x.2)

/-- nbd-server.c 1290-1296 and 2949-2953 (the same lines in the other handlers): a simple reply
is logged, then sent. -/
def sendReplyP {σ : Type} (lg : Bool) (m : Msg) (k : Prog σ) : Prog σ :=
  if lg then .log m.hdr (.send m k) else .send m k

/-- nbd-server.c 1306-1343: a chunk is sent, then its header is logged. -/
def sendChunkP {σ : Type} (lg : Bool) (m : Msg) (k : Prog σ) : Prog σ :=
  .send m (if lg then .log m.hdr k else k)

/-- Several chunks, one after the other. nbd-server.c 1306-1343. -/
def sendChunksP {σ : Type} (lg : Bool) : List Msg → Prog σ → Prog σ
  | [], k => k
  | m :: ms, k => sendChunkP lg m (sendChunksP lg ms k)

/-- A thread in undefined behaviour. (Models no code of its own.) -/
def crash {σ : Type} : Prog σ := .op (α := Unit) (fun _ => .ub) (fun _ => .done 0)

/-- nbd-server.c 1204-1213: `get_filepos` and the `pwrite`. `none` is the -1 of `get_filepos`. -/
def rawPwrite (ex : Export) (a : Nat) (buf : List Byte) (w : World) :
    Out (World × Option (Handle × Option Nat)) :=
  match getFilepos ex w a with
  | .ub => .ub
  | .exit => .exit
  | .val (w, none) => .val (w, none)
  | .val (w, some (h, foffset, maxbytes)) =>
    let r := handlePwrite w h foffset (buf.take (clip maxbytes buf.length))
    .val (r.1, some (h, r.2))

/-- nbd-server.c 1200-1282 `rawexpwrite` and `rawexpwrite_fully`: the `pwrite` and the `fsync` are
two system calls. -/
def writeFullyP (ex : Export) (fua : Bool) (k : Bool → Nat → Prog World) (a : Nat)
    (buf : List Byte) (en : Nat) : Prog World :=
  if buf.length = 0 then k true en
  else
    call (rawPwrite ex a buf) en fun r en =>
      match r with
      | none => k false en
      | some (h, x) =>
        let next := fun en =>
          match x with
          | none => k false en
          | some 0 => k false en
          | some (n + 1) => writeFullyP ex fua k (a + (n + 1)) (buf.drop (n + 1)) en
        if has ex.flags F_SYNC || fua then
          call (fun w => .val (handleSyncIgnored w h, ())) en fun _ en => next en
        else next en
termination_by buf.length
decreasing_by all_goals (simp only [List.length_drop]; omega)

/-- nbd-server.c 1704-1724 `expwrite_zeroes`. -/
def writeZeroesP (ex : Export) (fua : Bool) (k : Bool → Nat → Prog World) (a len : Nat) (en : Nat) :
    Prog World :=
  if len = 0 then k true en
  else
    let l := min len ZEROCHUNK
    writeFullyP ex fua (fun ok en =>
      if ok then writeZeroesP ex fua k a (len - l) en else k false en) a (Flat.zeros l) en
termination_by len
decreasing_by
  have : 0 < ZEROCHUNK := by decide
  omega

/-- nbd-server.c 1470-1480: one turn of the loop of `rawexpread_fully`: `find_read_buf`,
`rawexpread`, and what `confirm_read` does to the context. The number is one less than the count
of bytes that arrived; `none` ends the loop. -/
def readOnce (ex : Export) (c : ReadCtx) (w : World) :
    Out (World × Option (ReadCtx × List Byte × Nat)) :=
  match rawexpread ex w (c.start + c.curOff) c.curLen with
  | .ub => .ub
  | .exit => .exit
  | .val (w, none) => .val (w, none)
  | .val (w, some []) => .val (w, none)
  | .val (w, some (b :: bs)) =>
    match c.deliver (b :: bs) with
    | .ub => .ub
    | .exit => .exit
    | .val c' => .val (w, some (c', b :: bs, bs.length))

/-- nbd-server.c 1468-1483 `rawexpread_fully`; a chunked read sends each piece as soon as it has
arrived (1362-1367). -/
def readFullyP (e : Endian) (ex : Export) (cookie : List Byte) (lg : Bool)
    (k : ReadCtx → Bool → Nat → Prog World) (c : ReadCtx) (en : Nat) : Prog World :=
  if c.curLen = 0 then k c true en
  else
    call (readOnce ex c) en fun r en =>
      match r with
      | none => k c false en
      | some (c', bs, n) =>
        let c'' := { c' with curOff := c.curOff + (n + 1), curLen := c.curLen - (n + 1) }
        if c.chunked then
          sendChunkP lg (dataMsg e cookie (c.start + c.curOff, bs)) (readFullyP e ex cookie lg k c'' en)
        else readFullyP e ex cookie lg k c'' en
termination_by c.curLen
decreasing_by all_goals omega

/-- nbd-server.c 1370-1431 `complete_read`. -/
def completeReadP {σ : Type} (e : Endian) (lg : Bool) (c : ReadCtx) (cookie : List Byte)
    (error : Option UInt32) (en : Nat) : Prog σ :=
  match completeRead e c cookie error with
  | .ub => crash
  | .exit => crash
  | .val msgs =>
    if c.structured then sendChunksP lg msgs (.done en)
    else
      match msgs with
      | [m] => sendReplyP lg m (.done en)
      | _ => crash

/-- nbd-server.c 2871-2913 `handle_normal_read`. -/
def readP (e : Endian) (cl : Client) (lg : Bool) (r : Req) (en : Nat) : Prog World :=
  let df := has r.type CMD_FLAG_DF
  if cl.structured && df && decide (r.len > 1048576) then
    sendChunkP lg (chunkMsg e r.cookie REPLY_FLAG_DONE REPLY_TYPE_ERROR
      (UInt32.ofNat (6 + tooLong.length))
      (store32 e NBD_EOVERFLOW ++ store16 e (UInt16.ofNat tooLong.length) ++ tooLong)) (.done en)
  else
    readFullyP e cl.ex r.cookie lg
      (fun c ok en =>
        completeReadP e lg c r.cookie (if ok then none else some (nbdErrno e en)) en)
      { start := r.start, reqLen := r.len, structured := cl.structured, df := df
        buf := if df || !cl.structured then List.replicate r.len none else []
        curOff := 0, curLen := r.len, chunks := [] } en

/-- The reply of the handlers that send no data. nbd-server.c 2929-3005. -/
def answerP (e : Endian) (lg : Bool) (r : Req) (ok : Bool) (en : Nat) : Prog World :=
  sendReplyP lg (simpleMsg e r (if ok then none else some (nbdErrno e en))) (.done en)

/-- nbd-server.c 1750-1755: one `fsync` per backing file. -/
def flushFilesP (k : Bool → Nat → Prog World) : List FileInfo → Nat → Prog World
  | [], en => k true en
  | fi :: rest, en =>
    call (fun w => .val (sysFsync w (.fd fi.fhandle))) en fun ok en =>
      if ok then flushFilesP k rest en else k false en

/-- nbdsrv.c 291-311: one `punch_hole` per backing file. -/
def trimFilesP (files : List FileInfo) (exportsize start len : Nat) (k : Nat → Prog World) :
    Nat → FileInfo → Nat → Nat → Prog World
  | 0, _, _, en => k en
  | n + 1, cur, i, en =>
    call (fun w => .val (trimOne files exportsize start len w cur i, ())) en fun _ en =>
      match files[i]? with
      | none => k en
      | some nx =>
        if i + 1 < files.length ∧ nx.startoff < start + len then
          trimFilesP files exportsize start len k n nx (i + 1) en
        else k en

/-- nbdsrv.c 270-313 `exptrim`, for an export that is neither copy-on-write nor a tree. -/
def trimP (cl : Client) (start len : Nat) (k : Nat → Prog World) (en : Nat) : Prog World :=
  if has cl.ex.flags F_READONLY then .op (α := Unit) (fun _ => .exit) (fun _ => .done en)
  else if ¬ (start + len) % 2 ^ 64 ≤ cl.ex.exportsize then
    .op (α := Unit) (fun _ => .exit) (fun _ => .done en)
  else
    match cl.ex.files with
    | [] => crash
    | cur :: _ => trimFilesP cl.ex.files cl.ex.exportsize start len k cl.ex.files.length cur 1 en

/-- nbd-server.c 3025-3093 `handle_request` on an export of one or more files (not copy-on-write,
not waiting, not a tree, no splice). -/
def requestP (e : Endian) (cl : Client) (lg : Bool) (en : Nat) (r : Req) (p : Payload) :
    Prog World :=
  let type := r.type % 65536
  let flags := r.type - r.type % 65536
  let refuse := fun n => sendReplyP lg (simpleMsg e r (some (nbdErrno e n))) (.done en)
  if flags / 65536 / 4 ≠ 0 then refuse EINVAL
  else if type = CMD_READ then
    if badRange cl r then refuse EINVAL
    else readP e cl lg r en
  else if type = CMD_WRITE then
    if badWrite cl then refuse EPERM
    else if badRange cl r then refuse ENOSPC
    else
      match p with
      | .data bs => writeFullyP cl.ex (has r.type CMD_FLAG_FUA) (answerP e lg r) r.start bs en
      | .pipe _ => crash
      | .nothing => crash
  else if type = CMD_FLUSH then
    if has cl.ex.flags F_WAIT then
      call (fun w => .val (sysFsync w (.fd cl.difffile))) en (answerP e lg r)
    else flushFilesP (answerP e lg r) cl.ex.files en
  else if type = CMD_TRIM then
    if badWrite cl then refuse EPERM
    else if badRange cl r then refuse EINVAL
    else trimP cl r.start r.len (answerP e lg r true) en
  else if type = CMD_WRITE_ZEROES then
    if badWrite cl then refuse EPERM
    else if badRange cl r then refuse ENOSPC
    else writeZeroesP cl.ex (has r.type CMD_FLAG_FUA) (answerP e lg r) r.start r.len en
  else refuse EINVAL

/-- `handle_request` on any export, with everything it does to the files and to the page map in
one step. (Simplification: the replies can still interleave in every way with those of other
threads, but what two threads do to the page map cannot.) nbd-server.c 3025-3093. -/
def wholeP (e : Endian) (lg : Bool) (en : Nat) (r : Req) (p : Payload) : Prog (Client × World) :=
  .op (fun s =>
      match handleRequest e s.1 { s.2 with errno := en } r p with
      | .ub => .ub
      | .exit => .exit
      | .val (cl, w, msgs) => .val ((cl, w), (msgs, w.errno)))
    fun x => sendWhole x.1 x.2
where
  /-- Chunks are sent and then logged, simple replies logged and then sent. -/
  sendWhole : List Msg → Nat → Prog (Client × World)
    | [], en => .done en
    | m :: ms, en =>
      if m.hdr.length = 20 then sendChunkP lg m (sendWhole ms en) else sendReplyP lg m (sendWhole ms en)

/-! ### Sessions -/

/-- A request handed to the pool (`struct work_package`), numbered in the order of arrival. nbd-server.c 222-227. -/
structure Job where
  id : Nat
  req : Req
  payload : Payload

/-- What one thread of the pool is doing. A thread of the pool of nbd-server.c 3095-3152 running 3025-3093. -/
inductive Worker (σ : Type) : Type 1 where
  | idle (errno : Nat)
  | busy (j : Job) (p : Prog σ)
  /-- inside `client->lock`, `rest` is still to be written -/
  | sending (j : Job) (m : Msg) (rest : List Byte) (k : Prog σ)

/-- What the main thread is doing. nbd-server.c 3095-3152 and 452-480. -/
inductive Phase where
  /-- about to read a request -/
  | reading
  /-- has logged the header of a write request and holds the log semaphore until the data has
  arrived and is logged (nbd-server.c 3110-3113, 3139-3143) -/
  | payload
  /-- in `finalize_client` (452-462), waiting for the pool -/
  | closing
  /-- the session ended in order -/
  | over
  /-- the process has exited, whatever its threads were doing -/
  | dead
  /-- undefined behaviour has occurred -/
  | broken
deriving DecidableEq, Repr

/-- What the code of a session is: how the main loop takes a request from the stream, and what a
worker does for it. `cl` holds the settings of the session. nbd-server.c 3025-3152. -/
structure Server (σ : Type) : Type 1 where
  e : Endian
  cl : Client
  /-- is there a transaction log? -/
  logging : Bool
  take : σ → List Byte → Out (σ × Fetched)
  code : Nat → Req → Payload → Prog σ

/-- One session: the process that serves one connection. nbd-server.c 3095-3152. -/
structure Session (σ : Type) : Type 1 where
  /-- what the client sends and the server has not read yet -/
  stream : List Byte
  main : Phase
  /-- requests accepted so far -/
  count : Nat
  /-- the pool's queue -/
  queue : List Job
  workers : List (Worker σ)
  /-- the thread that holds `client->lock` -/
  lock : Option Nat
  /-- what has been written to the socket -/
  sock : List Byte
  /-- offset of this process's descriptor on the log file -/
  pos : Nat

/-- What the sessions on one export share: the files, and the transaction log with its semaphore
(one named semaphore per log file, nbd-server.c 2247-2265), which some session's main thread
may hold. -/
structure Shared (σ : Type) where
  st : σ
  sem : Option Nat
  file : List Byte

/-- A visible event of a session: a request has been read, a message has been sent. (Models no code of its own.) -/
inductive Ext where
  | recv (j : Job)
  | sent (j : Nat) (m : Msg)

/-- nbd-server.c 3109-3113: must the main thread keep the semaphore until the data is here? -/
def Server.keeps {σ : Type} (v : Server σ) (stream : List Byte) : Bool :=
  v.logging && decide (28 ≤ stream.length) &&
    decide ((loadReq v.e (stream.take 28)).type % 65536 = CMD_WRITE) &&
    has v.cl.ex.flags F_DATALOG && !has v.cl.ex.flags F_SPLICE

/-- Is the magic of the next request wrong? (nbd-server.c 3123) -/
def Server.badMagic {σ : Type} (v : Server σ) (stream : List Byte) : Bool :=
  decide (28 ≤ stream.length) && !(loadReq v.e (stream.take 28)).magicOk v.e

/-- Bytes of the log record for the next request, if it is logged. nbd-server.c 3106-3118. -/
def Server.header {σ : Type} (v : Server σ) (stream : List Byte) : List Byte :=
  if v.logging && decide (28 ≤ stream.length) then stream.take 28 else []

/-- The same, unless the main thread has already logged it. nbd-server.c 3106-3118. -/
def Server.unlogged {σ : Type} (v : Server σ) (s : Session σ) : List Byte :=
  if s.main = .reading then v.header s.stream else []

/-- Append to the log at this process's position. The `write` calls of nbd-server.c 1290-1304 and 3106-3118. -/
def Shared.record {σ : Type} (sh : Shared σ) (pos : Nat) (bs : List Byte) : Shared σ :=
  { sh with file := ((⟨sh.file, pos⟩ : Log).write bs).file }

/-- Is the process still running its threads? (Models no code of its own.) -/
def Phase.alive : Phase → Bool
  | .reading | .payload | .closing => true
  | .over | .dead | .broken => false

/-- One step of one thread of the session with number `sid`, with the visible event, if any. nbd-server.c 3025-3152, 1284-1343. -/
inductive Step {σ : Type} (v : Server σ) (sid : Nat) :
    Shared σ → Session σ → List Ext → Shared σ → Session σ → Prop where
  /-- 3103-3150: a request is read, logged and queued -/
  | accept (sh : Shared σ) (s : Session σ) (st : σ) (r : Req) (p : Payload) (rest : List Byte)
      (hm : s.main = .reading) (hk : v.keeps s.stream = false)
      (hsem : v.logging = true → sh.sem = none)
      (h : v.take sh.st s.stream = .val (st, .push r p rest)) :
      Step v sid sh s [.recv ⟨s.count, r, p⟩]
        ({ sh with st := st }.record s.pos (v.header s.stream))
        { s with stream := rest, count := s.count + 1, queue := s.queue ++ [⟨s.count, r, p⟩]
                 pos := s.pos + (v.header s.stream).length }
  /-- 3106-3113: the header of a write request is logged, its data is to be logged too -/
  | hold (sh : Shared σ) (s : Session σ) (hm : s.main = .reading)
      (hk : v.keeps s.stream = true) (hsem : sh.sem = none) :
      Step v sid sh s []
        ({ sh with sem := some sid }.record s.pos (v.header s.stream))
        { s with main := .payload, pos := s.pos + (v.header s.stream).length }
  /-- 3138-3150: the data has arrived -/
  | acceptData (sh : Shared σ) (s : Session σ) (st : σ) (r : Req) (bs rest : List Byte)
      (hm : s.main = .payload)
      (h : v.take sh.st s.stream = .val (st, .push r (.data bs) rest)) :
      Step v sid sh s [.recv ⟨s.count, r, .data bs⟩]
        ({ sh with st := st, sem := none }.record s.pos bs)
        { s with stream := rest, main := .reading, count := s.count + 1
                 queue := s.queue ++ [⟨s.count, r, .data bs⟩], pos := s.pos + bs.length }
  /-- 3123: wrong magic, `err()`: the process exits at once (with the semaphore, if it holds it) -/
  | magic (sh : Shared σ) (s : Session σ)
      (hm : (s.main = .reading ∧ v.keeps s.stream = false ∧ (v.logging = true → sh.sem = none)) ∨
        s.main = .payload)
      (hb : v.badMagic s.stream = true) :
      Step v sid sh s [] (sh.record s.pos (v.unlogged s)) { s with main := .dead }
  /-- 464-469: the connection has ended, between requests or inside one; `finalize_client` -/
  | gone (sh : Shared σ) (s : Session σ) (st : σ)
      (hm : (s.main = .reading ∧ v.keeps s.stream = false ∧
          (v.logging = true → 28 ≤ s.stream.length → sh.sem = none)) ∨ s.main = .payload)
      (hb : v.badMagic s.stream = false)
      (h : v.take sh.st s.stream = .val (st, .gone)) :
      Step v sid sh s [] ({ sh with st := st }.record s.pos (v.unlogged s))
        { s with main := .closing, pos := s.pos + (v.unlogged s).length }
  /-- 3144-3147: the client asks to disconnect; `finalize_client` -/
  | disc (sh : Shared σ) (s : Session σ) (st : σ) (rest : List Byte)
      (hm : s.main = .reading) (hk : v.keeps s.stream = false)
      (hsem : v.logging = true → sh.sem = none)
      (h : v.take sh.st s.stream = .val (st, .disc rest)) :
      Step v sid sh s []
        ({ sh with st := st }.record s.pos (v.header s.stream))
        { s with stream := rest, main := .closing, pos := s.pos + (v.header s.stream).length }
  /-- reading the request is undefined behaviour, or ends the process -/
  | takeFails (sh : Shared σ) (s : Session σ) (ph : Phase)
      (hm : s.main = .reading ∨ s.main = .payload)
      (h : (v.take sh.st s.stream = .ub ∧ ph = .broken) ∨
        (v.take sh.st s.stream = .exit ∧ ph = .dead)) :
      Step v sid sh s [] sh { s with main := ph }
  /-- 453: `g_thread_pool_free(tpool, FALSE, TRUE)` returns once every request is dealt with -/
  | close (sh : Shared σ) (s : Session σ) (hm : s.main = .closing) (hq : s.queue = [])
      (hw : ∀ x ∈ s.workers, ∃ en, x = .idle en) :
      Step v sid sh s [] sh { s with main := .over }
  /-- an idle thread takes the oldest request -/
  | start (sh : Shared σ) (s : Session σ) (i : Nat) (en : Nat) (j : Job) (q : List Job)
      (ha : s.main.alive = true) (hw : s.workers[i]? = some (.idle en)) (hq : s.queue = j :: q) :
      Step v sid sh s [] sh
        { s with queue := q, workers := s.workers.set i (.busy j (v.code en j.req j.payload)) }
  /-- a thread accesses the shared state -/
  | op (sh : Shared σ) (s : Session σ) (i : Nat) (j : Job) {α : Type} (f : σ → Out (σ × α))
      (k : α → Prog σ) (st : σ) (a : α)
      (ha : s.main.alive = true) (hw : s.workers[i]? = some (.busy j (.op f k)))
      (h : f sh.st = .val (st, a)) :
      Step v sid sh s [] { sh with st := st } { s with workers := s.workers.set i (.busy j (k a)) }
  /-- … which is undefined behaviour, or ends the process -/
  | opFails (sh : Shared σ) (s : Session σ) (i : Nat) (j : Job) {α : Type} (f : σ → Out (σ × α))
      (k : α → Prog σ) (ph : Phase)
      (ha : s.main.alive = true) (hw : s.workers[i]? = some (.busy j (.op f k)))
      (h : (f sh.st = .ub ∧ ph = .broken) ∨ (f sh.st = .exit ∧ ph = .dead)) :
      Step v sid sh s [] sh { s with main := ph }
  /-- `pthread_mutex_lock(&client->lock)` -/
  | lock (sh : Shared σ) (s : Session σ) (i : Nat) (j : Job) (m : Msg) (k : Prog σ)
      (ha : s.main.alive = true) (hw : s.workers[i]? = some (.busy j (.send m k)))
      (hl : s.lock = none) :
      Step v sid sh s [] sh
        { s with lock := some i, workers := s.workers.set i (.sending j m m.bytes k) }
  /-- a `write(2)` on the socket takes some of the bytes, but not all -/
  | write (sh : Shared σ) (s : Session σ) (i : Nat) (j : Job) (m : Msg) (xs ys : List Byte)
      (k : Prog σ) (ha : s.main.alive = true)
      (hw : s.workers[i]? = some (.sending j m (xs ++ ys) k)) (hx : xs ≠ []) (hy : ys ≠ []) :
      Step v sid sh s [] sh
        { s with sock := s.sock ++ xs, workers := s.workers.set i (.sending j m ys k) }
  /-- the `write(2)` that takes the last bytes, and `pthread_mutex_unlock(&client->lock)`: from
  here on the client may have the whole message (nothing another thread does between the two could
  be told from what it can do afterwards) -/
  | unlock (sh : Shared σ) (s : Session σ) (i : Nat) (j : Job) (m : Msg) (rest : List Byte)
      (k : Prog σ) (ha : s.main.alive = true)
      (hw : s.workers[i]? = some (.sending j m rest k)) :
      Step v sid sh s [.sent j.id m] sh
        { s with lock := none, sock := s.sock ++ rest, workers := s.workers.set i (.busy j k) }
  /-- a thread logs a reply -/
  | log (sh : Shared σ) (s : Session σ) (i : Nat) (j : Job) (bs : List Byte) (k : Prog σ)
      (ha : s.main.alive = true) (hw : s.workers[i]? = some (.busy j (.log bs k)))
      (hsem : sh.sem = none) :
      Step v sid sh s [] (sh.record s.pos bs)
        { s with pos := s.pos + bs.length, workers := s.workers.set i (.busy j k) }
  /-- a thread is done with its request -/
  | finish (sh : Shared σ) (s : Session σ) (i : Nat) (j : Job) (en : Nat)
      (ha : s.main.alive = true) (hw : s.workers[i]? = some (.busy j (.done en))) :
      Step v sid sh s [] sh { s with workers := s.workers.set i (.idle en) }

/-- A session that has just entered the request loop, with `errnos.length` threads. nbd-server.c 3095-3100. -/
def Session.fresh {σ : Type} (stream : List Byte) (errnos : List Nat) (pos : Nat) : Session σ where
  stream := stream
  main := .reading
  count := 0
  queue := []
  workers := errnos.map .idle
  lock := none
  sock := []
  pos := pos

/-- All sessions on one export. nbd-server.c 3219-3296 forks one process for each session. -/
structure System (σ : Type) : Type 1 where
  sh : Shared σ
  sessions : List (Session σ)

/-- `Exec v S tr S'`: the threads of all sessions, in some order, take the system from `S` to
`S'`; `tr` lists the visible events with the session they belong to. Any interleaving of the threads of nbd-server.c 3025-3152. -/
inductive Exec {σ : Type} (v : Nat → Server σ) (S : System σ) :
    List (Nat × Ext) → System σ → Prop where
  | nil : Exec v S [] S
  | step (tr : List (Nat × Ext)) (T : System σ) (sid : Nat) (s s' : Session σ) (evs : List Ext)
      (sh' : Shared σ) (h : Exec v S tr T) (hs : T.sessions[sid]? = some s)
      (h1 : Step (v sid) sid T.sh s evs sh' s') :
      Exec v S (tr ++ evs.map (fun x => (sid, x))) ⟨sh', T.sessions.set sid s'⟩

/-! ### The two servers -/

/-- A session on an export of one or more files: every system call is a step. nbd-server.c 3025-3152 with 1200-1282 and 1444-1484. -/
def plainServer (e : Endian) (cl : Client) (lg : Bool) : Server World where
  e := e
  cl := cl
  logging := lg
  take := fun w stream => fetch e cl w stream
  code := requestP e cl lg

/-- A session on any export; `cl` gives the settings, the page map is part of the shared state
(so this server makes sense for one session only). nbd-server.c 3025-3152. -/
def anyServer (e : Endian) (cl : Client) (lg : Bool) : Server (Client × World) where
  e := e
  cl := cl
  logging := lg
  take := fun s stream =>
    match fetch e s.1 s.2 stream with
    | .ub => .ub
    | .exit => .exit
    | .val (w, f) => .val ((s.1, w), f)
  code := wholeP e lg

end Nbd
