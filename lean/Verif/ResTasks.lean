import Verif.Res
/-!
# Memory and descriptors with several threads

What the thread that reads requests and the worker threads of a session do to the heap and to the table of descriptors, call by call
and in any order. Whether a call of the kernel or of the allocator works, and what it returns, is chosen freely at each call; so is
which thread goes next. What is read and written is left out (it is in `Verif.Request` and `Verif.Sched`).

Simplifications: every pushed request has a thread of its own (the pool has a limited number of them, which leaves fewer orders);
`finalize_client` (452-463), which waits for the workers before the last package is given back, need not be waited for; crashes other
than the use of a NULL that `malloc` returned and those of a trim are not modelled here (they are in `Verif.Request`).
-/

set_option autoImplicit false

namespace Nbd

/-- A thread. (For nbd-server.c 2788-3152.) -/
inductive Task where
  /-- it has finished -/
  | done
  /-- `err`: the process ends -/
  | die
  /-- a NULL pointer is used -/
  | crash
  /-- `malloc(n)` and `calloc`; `none` is NULL -/
  | malloc (n : Nat) (k : Option Nat → Task)
  | free (p : Nat) (k : Task)
  /-- `open`; `none` is -1 -/
  | openFd (k : Option Nat → Task)
  | pipe (k : Option (Nat × Nat) → Task)
  | close (fd : Nat) (k : Task)
  /-- something that gives back nothing and takes nothing; the number is its result -/
  | pick (k : Nat → Task)
  /-- the client is sent an error chunk for a read of `n` bytes -/
  | failed (n : Nat) (k : Task)
  /-- `g_thread_pool_push` -/
  | push (job : Task) (k : Task)

/-- `free(p)`, where `p` may be NULL. (As used at nbd-server.c 2793 and 1384.) -/
def freeO (p : Option Nat) (k : Task) : Task :=
  match p with
  | none => k
  | some p => .free p k

/-- `close(fd)`, where `fd` may be -1. (As used at nbd-server.c 1257-1259, 1458-1460, 1519-1520.) -/
def closeO (fd : Option Nat) (k : Task) : Task :=
  match fd with
  | none => k
  | some fd => .close fd k

/-- nbd-server.c 2789-2792: `if (fd > 0) close(fd)`. -/
def closePos (fd : Option Nat) (k : Task) : Task :=
  match fd with
  | some (n + 1) => .close (n + 1) k
  | _ => k

/-- nbd-server.c 1142-1198 `get_filepos`: `none` is -1; otherwise the descriptor to be closed, if one was opened. `open_treefile`
(treefiles.c 61-107) gives up the process if the file cannot be made. -/
def fileTask (tree : Bool) (k : Option (Option Nat) → Task) : Task :=
  .pick fun x =>
    if x = 0 then k none
    else if tree then .pick fun y => if y = 0 then .die else .openFd fun fd => k (some fd)
    else k (some none)

/-- nbd-server.c 1200-1261 `rawexpwrite`, 1444-1462 `rawexpread`, 1486-1521 `rawexpsplice`: the number of bytes, 0 also for -1. -/
def accessTask (tree : Bool) (k : Nat → Task) : Task :=
  fileTask tree fun f =>
    match f with
    | none => k 0
    | some fd => .pick fun n => closeO fd (k n)

/-- Several of these, until one fails. nbd-server.c 1273-1282 `rawexpwrite_fully`, 1534-1544 `expsplice`, 1624-1692 `expwrite`. -/
def accessesTask (tree : Bool) (k : Bool → Task) : Nat → Task
  | 0 => .pick fun x => k (x != 0)
  | n + 1 => accessTask tree fun m => if m = 0 then k false else accessesTask tree k n

/-- nbd-server.c 1468-1483 `rawexpread_fully` with 1352-1369 `find_read_buf` and `confirm_read`; `chunked`: each part is sent in a
chunk of its own, from a block of its own. -/
def readFullyTask (tree chunked : Bool) (k : Bool → Task) (len : Nat) : Task :=
  if len = 0 then k true
  else if chunked then
    .malloc len fun p =>
      match p with
      | none => .die
      | some p => accessTask tree fun n => if n = 0 then k false else .free p (readFullyTask tree chunked k (len - n))
  else accessTask tree fun n => if n = 0 then k false else readFullyTask tree chunked k (len - n)
termination_by len
decreasing_by all_goals omega

/-- nbd-server.c 1571-1601: the page loop of `expread`; `cur` is `ctx->current_len`. Whether a page is in the diff file, and whether
the file is still awaited, is chosen freely. -/
def readPagesTask (tree chunked wait : Bool) (k : Bool → Task) : Nat → (cur mapcnt a len : Nat) → Task
  | 0, _, _, _, _ => k true
  | n + 1, cur, mapcnt, a, len =>
    let rdlen := pageLen (a - mapcnt * DIFFPAGESIZE) len
    .pick fun x =>
      if x = 0 then
        if chunked then
          .malloc cur fun p =>
            match p with
            | none => .die
            | some p =>
              .pick fun y =>
                if y = 0 then k false
                else .free p (readPagesTask tree chunked wait k n cur (mapcnt + 1) (a + rdlen) (len - rdlen))
        else .pick fun y => if y = 0 then k false else readPagesTask tree chunked wait k n cur (mapcnt + 1) (a + rdlen) (len - rdlen)
      else if wait && x == 1 then k false
      else
        readFullyTask tree chunked
          (fun ok => if ok then readPagesTask tree chunked wait k n 0 (mapcnt + 1) (a + rdlen) (len - rdlen) else k false) rdlen

/-- nbd-server.c 1557-1610 `expread`. -/
def expreadTask (cl : Client) (r : Req) (chunked : Bool) (k : Bool → Task) : Task :=
  .pick fun x =>
    if has cl.ex.flags F_COPYONWRITE || (has cl.ex.flags F_WAIT && x != 0) then
      readPagesTask (has cl.ex.flags F_TREEFILES) chunked (has cl.ex.flags F_WAIT) k (pageCount r.start r.len) r.len
        (r.start / DIFFPAGESIZE) r.start r.len
    else readFullyTask (has cl.ex.flags F_TREEFILES) chunked k r.len

/-- nbd-server.c 1370-1431 `complete_read`; `buf` is `ctx->buf` of a read that is not chunked. -/
def completeReadTask (structured chunked ok : Bool) (buf : Option Nat) (n : Nat) (k : Task) : Task :=
  if chunked then if ok then k else .failed n k
  else freeO buf (if structured && !ok then .failed n k else k)

/-- nbd-server.c 2871-2913 `handle_normal_read`; `g_new0` ends the process if it fails. -/
def normalReadTask (cl : Client) (r : Req) (k : Task) : Task :=
  let df := has r.type CMD_FLAG_DF
  .malloc CTXSIZE fun ctx =>
    match ctx with
    | none => .die
    | some ctx =>
      if cl.structured && df && decide (r.len > 1048576) then .failed r.len (.free ctx k)
      else if df || !cl.structured then
        .malloc r.len fun b =>
          match b with
          | none => .die
          | some b => expreadTask cl r false fun ok => completeReadTask cl.structured false ok (some b) r.len (.free ctx k)
      else expreadTask cl r true fun ok => completeReadTask cl.structured true ok none r.len (.free ctx k)

/-- nbd-server.c 2798-2816 `mkpipe`. -/
def mkpipeTask (len : Nat) (k : Option (Nat × Nat) → Task) : Task :=
  if len > MAX_PIPE_SIZE then k none
  else
    .pipe fun p =>
      match p with
      | none => k none
      | some (rd, wr) => .pick fun x => if x = 0 then .close rd (.close wr (k none)) else k (some (rd, wr))

/-- nbd-server.c 2840-2868 `handle_splice_read`; `spliceit` ends the process if it fails. -/
def spliceReadTask (cl : Client) (r : Req) (k : Bool → Task) : Task :=
  if cl.tls then k false
  else
    mkpipeTask r.len fun p =>
      match p with
      | none => k false
      | some (rd, wr) =>
        .pick fun n =>
          accessesTask (has cl.ex.flags F_TREEFILES) (fun ok =>
            if ok then .pick fun x => if x = 0 then .die else .close rd (.close wr (k true))
            else .close wr (.close rd (k false))) n

/-- nbd-server.c 2915-2927 `handle_read`. -/
def readTask (cl : Client) (r : Req) (k : Task) : Task :=
  if has cl.ex.flags F_SPLICE then spliceReadTask cl r fun ok => if ok then k else normalReadTask cl r k
  else normalReadTask cl r k

/-- A reply is sent, or the process ends. nbd-server.c 2953-2957 and `socket_write` (402-408). -/
def answerTask (k : Task) : Task := .pick fun x => if x = 0 then .die else k

/-- nbd-server.c 2929-2958 `handle_write`. -/
def writeTask (cl : Client) (k : Task) : Task :=
  .pick fun n => accessesTask (has cl.ex.flags F_TREEFILES) (fun _ => answerTask k) n

/-- nbd-server.c 2988-3005 `handle_write_zeroes` with 1704-1724 `expwrite_zeroes`, where `calloc` is not checked. -/
def zeroesTask (cl : Client) (k : Task) : Task :=
  .malloc ZEROCHUNK fun b =>
    .pick fun n =>
      if b = none ∧ n = 0 then .crash
      else accessesTask (has cl.ex.flags F_TREEFILES) (fun _ => freeO b (answerTask k)) n

/-- nbd-server.c 2788-2796 `package_dispose`. -/
def disposeTask (g : Pkg) (k : Task) : Task :=
  closePos g.pipe0 (closePos g.pipe1 (freeO g.data (.free g.req (.free g.self k))))

/-- nbd-server.c 3025-3093 `handle_request`. -/
def requestTask (cl : Client) (r : Req) (g : Pkg) : Task :=
  let type := r.type % 65536
  let flags := r.type - r.type % 65536
  let fin := disposeTask g .done
  if flags / 65536 / 4 ≠ 0 then answerTask fin
  else if type = CMD_READ ∧ ¬ badRange cl r = true then readTask cl r fin
  else if type = CMD_WRITE ∧ ¬ badWrite cl = true ∧ ¬ badRange cl r = true then writeTask cl fin
  else if type = CMD_WRITE_ZEROES ∧ ¬ badWrite cl = true ∧ ¬ badRange cl r = true then zeroesTask cl fin
  else if type = CMD_TRIM then .pick fun x => if x = 0 then .crash else answerTask fin
  else answerTask fin

/-- nbd-server.c 2818-2837 `package_create`; `calloc` and `malloc` are not checked. -/
def packageTask (cl : Client) (r : Req) (req : Nat) (k : Pkg → Task) : Task :=
  .malloc PKGSIZE fun s =>
    match s with
    | none => .crash
    | some s =>
      let buffer := Task.malloc r.len fun d => k ⟨s, req, d, none, none⟩
      if r.type % 65536 = CMD_WRITE then
        if has cl.ex.flags F_SPLICE then
          mkpipeTask r.len fun p =>
            match p with
            | some (rd, wr) => k ⟨s, req, none, some rd, some wr⟩
            | none => buffer
        else buffer
      else k ⟨s, req, none, none, none⟩

/-- nbd-server.c 3127-3143: the data of a write is received into the pipe or the block. -/
def receiveTask (cl : Client) (r : Req) (g : Pkg) (k : Task) : Task :=
  if r.type % 65536 = CMD_WRITE then
    .pick fun x =>
      if x = 0 then .die
      else if g.pipe1.isSome && !cl.tls then k
      else if g.data = none ∧ 0 < r.len then .crash
      else k
  else k

/-- nbd-server.c 3095-3152 `mainloop_threaded`, for a client that sends these requests and then breaks the connection. -/
def sessionTask (cl : Client) : List Req → Task
  | [] => .malloc REQSIZE fun _ => .die
  | r :: rs =>
    .malloc REQSIZE fun q =>
      match q with
      | none => .crash
      | some q =>
        .pick fun x =>
          if x = 0 then .die
          else
            packageTask cl r q fun g =>
              receiveTask cl r g
                (if r.type = CMD_DISC then disposeTask g .done else .push (requestTask cl r g) (sessionTask cl rs))

/-- A process: what it holds, the lengths of the reads for which error chunks were sent, and its threads. (For nbd-server.c
3095-3152.) -/
structure Tasks where
  res : Res
  failed : List Nat
  tasks : List Task

/-- One call of one thread. An allocator, and a kernel, may hand out any name that is not in use. (For nbd-server.c 2788-3152.) -/
inductive Tasks.Step : Tasks → Tasks → Prop
  | malloc (res : Res) (fl : List Nat) (pre post : List Task) (n p : Nat) (k : Option Nat → Task) (h : p ∉ res.mem.map Prod.fst) :
    Step ⟨res, fl, pre ++ .malloc n k :: post⟩ ⟨⟨(p, n) :: res.mem, res.fds⟩, fl, pre ++ k (some p) :: post⟩
  | noMem (res : Res) (fl : List Nat) (pre post : List Task) (n : Nat) (k : Option Nat → Task) :
    Step ⟨res, fl, pre ++ .malloc n k :: post⟩ ⟨res, fl, pre ++ k none :: post⟩
  | free (res : Res) (fl : List Nat) (pre post : List Task) (p : Nat) (k : Task) (h : p ∈ res.mem.map Prod.fst) :
    Step ⟨res, fl, pre ++ .free p k :: post⟩ ⟨⟨res.mem.eraseP (fun b => b.1 == p), res.fds⟩, fl, pre ++ k :: post⟩
  | openFd (res : Res) (fl : List Nat) (pre post : List Task) (fd : Nat) (k : Option Nat → Task) (h : fd ∉ res.fds) :
    Step ⟨res, fl, pre ++ .openFd k :: post⟩ ⟨⟨res.mem, fd :: res.fds⟩, fl, pre ++ k (some fd) :: post⟩
  | noFd (res : Res) (fl : List Nat) (pre post : List Task) (k : Option Nat → Task) :
    Step ⟨res, fl, pre ++ .openFd k :: post⟩ ⟨res, fl, pre ++ k none :: post⟩
  | pipe (res : Res) (fl : List Nat) (pre post : List Task) (rd wr : Nat) (k : Option (Nat × Nat) → Task) (h : rd ∉ res.fds)
    (h' : wr ∉ res.fds) (h'' : rd ≠ wr) :
    Step ⟨res, fl, pre ++ .pipe k :: post⟩ ⟨⟨res.mem, rd :: wr :: res.fds⟩, fl, pre ++ k (some (rd, wr)) :: post⟩
  | noPipe (res : Res) (fl : List Nat) (pre post : List Task) (k : Option (Nat × Nat) → Task) :
    Step ⟨res, fl, pre ++ .pipe k :: post⟩ ⟨res, fl, pre ++ k none :: post⟩
  | close (res : Res) (fl : List Nat) (pre post : List Task) (fd : Nat) (k : Task) (h : fd ∈ res.fds) :
    Step ⟨res, fl, pre ++ .close fd k :: post⟩ ⟨⟨res.mem, res.fds.erase fd⟩, fl, pre ++ k :: post⟩
  | pick (res : Res) (fl : List Nat) (pre post : List Task) (x : Nat) (k : Nat → Task) :
    Step ⟨res, fl, pre ++ .pick k :: post⟩ ⟨res, fl, pre ++ k x :: post⟩
  | failed (res : Res) (fl : List Nat) (pre post : List Task) (n : Nat) (k : Task) :
    Step ⟨res, fl, pre ++ .failed n k :: post⟩ ⟨res, n :: fl, pre ++ k :: post⟩
  | push (res : Res) (fl : List Nat) (pre post : List Task) (job k : Task) :
    Step ⟨res, fl, pre ++ .push job k :: post⟩ ⟨res, fl, pre ++ k :: job :: post⟩

/-- Any number of calls. (For nbd-server.c 2788-3152.) -/
inductive Tasks.Reach (s : Tasks) : Tasks → Prop
  | refl : Reach s s
  | step {t u : Tasks} : Reach s t → Step t u → Reach s u

end Nbd
